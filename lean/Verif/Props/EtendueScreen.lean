import Verif.Props.Etendue

/-!
# Property C105 for phase screens

`refractScreen` changes the velocity along the surface by the gradient of the screen, with one sign for light against the normal and the other for light along it.
Although only one of the signs agrees with the delay (C98), either keeps the invariant of Lagrange, since second derivatives of the screen are symmetric.
-/

namespace Batoid.Props
open Batoid Batoid.Surface Filter Topology

/-- What is used of one beam at a screen: `m` is the squared speed times the sign of the bend. -/
structure Bend (gx gy φx φy : ℝ × ℝ → ℝ) (q : ℝ × ℝ) (m : ℝ) (v u q' v' u' : V3 ℝ) : Prop where
  along : q'.z = gx q * q'.x + gy q * q'.y
  x : u'.x - v'.x = m * fderiv ℝ φx q (q'.x, q'.y) + (u'.z - v'.z) * -gx q + (u.z - v.z) * -(fderiv ℝ gx q (q'.x, q'.y))
  y : u'.y - v'.y = m * fderiv ℝ φy q (q'.x, q'.y) + (u'.z - v'.z) * -gy q + (u.z - v.z) * -(fderiv ℝ gy q (q'.x, q'.y))

theorem bend_pair {gx gy φx φy : ℝ × ℝ → ℝ} {q : ℝ × ℝ} {m k : ℝ} {v u q₁' v₁' u₁' q₂' v₂' u₂' : V3 ℝ} (h₁ : Bend gx gy φx φy q m v u q₁' v₁' u₁')
    (h₂ : Bend gx gy φx φy q m v u q₂' v₂' u₂')
    (hg : fderiv ℝ gx q (q₁'.x, q₁'.y) * q₂'.x + fderiv ℝ gy q (q₁'.x, q₁'.y) * q₂'.y =
      fderiv ℝ gx q (q₂'.x, q₂'.y) * q₁'.x + fderiv ℝ gy q (q₂'.x, q₂'.y) * q₁'.y)
    (hφ : fderiv ℝ φx q (q₁'.x, q₁'.y) * q₂'.x + fderiv ℝ φy q (q₁'.x, q₁'.y) * q₂'.y =
      fderiv ℝ φx q (q₂'.x, q₂'.y) * q₁'.x + fderiv ℝ φy q (q₂'.x, q₂'.y) * q₁'.y) :
    lagrange k q₁' u₁' q₂' u₂' = lagrange k q₁' v₁' q₂' v₂' := by
  have e1 := h₁.x; have e2 := h₁.y; have e3 := h₁.along
  have e4 := h₂.x; have e5 := h₂.y; have e6 := h₂.along
  unfold lagrange
  congr 1
  simp only [V3.dot]
  rw [e3, e6]
  linear_combination q₂'.x * e1 + q₂'.y * e2 - q₁'.x * e4 - q₁'.y * e5 - (u.z - v.z) * hg + m * hφ

/-- The velocity behind the screen. -/
noncomputable def screenBent (k : ℝ) (n v : V3 ℝ) (g : ℝ × ℝ) : V3 ℝ :=
  V3.smul (Real.sqrt k) (bentTangent n v g - V3.smul (screenSign n v * Real.sqrt (1 - V3.normSq (bentTangent n v g))) n)

theorem bent_kick {k : ℝ} (hk : 0 < k) {n v : V3 ℝ} (hv : V3.dot v v = k) (g : ℝ × ℝ) :
    ∃ m : ℝ, screenBent k n v g - v - V3.smul (Real.sqrt k * screenSign n v) (grad3 g) = V3.smul m n := by
  have hs : speed v = Real.sqrt k := by rw [speed, hv]
  have h0 : Real.sqrt k ≠ 0 := (Real.sqrt_pos.2 hk).ne'
  refine ⟨-(V3.dot v n) - Real.sqrt k * screenSign n v * V3.dot (grad3 g) n - Real.sqrt k * (screenSign n v * Real.sqrt (1 - V3.normSq (bentTangent n v g))), ?_⟩
  generalize hσ : screenSign n v * Real.sqrt (1 - V3.normSq (bentTangent n v g)) = a
  rw [screenBent, hσ, bentTangent, hs]
  generalize screenSign n v = σ
  generalize Real.sqrt k = s at h0 ⊢
  ext <;> simp [tangential, V3.dot, grad3] <;> field_simp <;> ring

theorem bent_speed {k : ℝ} (hk : 0 < k) {n : V3 ℝ} (hn : IsUnit' n) (v : V3 ℝ) (g : ℝ × ℝ) (h : V3.normSq (bentTangent n v g) ≤ 1) :
    V3.dot (screenBent k n v g) (screenBent k n v g) = k := by
  have hp := bentTangent_perp hn v g
  have hss := Real.mul_self_sqrt (sub_nonneg.2 h)
  have hkk := Real.mul_self_sqrt hk.le
  have hσ := sign_mul_self n v
  unfold IsUnit' at hn
  unfold screenBent
  generalize bentTangent n v g = B at *
  generalize screenSign n v = σ at *
  generalize Real.sqrt (1 - V3.normSq B) = s at *
  have : V3.dot (V3.smul (Real.sqrt k) (B - V3.smul (σ * s) n)) (V3.smul (Real.sqrt k) (B - V3.smul (σ * s) n)) =
      (Real.sqrt k * Real.sqrt k) * (V3.dot B B - 2 * (σ * s) * V3.dot B n + (σ * σ) * (s * s) * V3.dot n n) := by
    simp [V3.dot]; ring
  rw [this, hkk, hp, hn, hσ, hss]
  simp only [V3.normSq]
  ring

/-- One beam at a screen, in the frame of its surface. -/
theorem bend_local {s screen : Surface Dbl} {f gx gy φ φx φy : ℝ × ℝ → ℝ} {ct : CoordTransform Dbl} {niter : ℕ} {ray : ℝ → Ray Dbl} {r v n : ℝ → V3 ℝ}
    {r' v' : V3 ℝ} {dt : ℝ → ℝ} {a k : ℝ} (hit : ∀ᶠ b in 𝓝 a, Hit s ct niter (ray b) (r b) (v b) (n b) (dt b))
    (smooth : SmoothAt s f gx gy ((r a + (v a).smulR (dt a)).x, (r a + (v a).smulR (dt a)).y))
    (phase : SmoothAt screen φ φx φy ((r a + (v a).smulR (dt a)).x, (r a + (v a).smulR (dt a)).y))
    (on : ∀ᶠ b in 𝓝 a, s.sag (.fin (r b + (v b).smulR (dt b)).x) (.fin (r b + (v b).smulR (dt b)).y) = .fin (r b + (v b).smulR (dt b)).z)
    (cont : ContinuousAt dt a) (steep : V3.dot (v a) (n a) ≠ 0)
    (hlt : V3.normSq (bentTangent (n a) (v a) (φx ((r a + (v a).smulR (dt a)).x, (r a + (v a).smulR (dt a)).y),
      φy ((r a + (v a).smulR (dt a)).x, (r a + (v a).smulR (dt a)).y))) < 1)
    (hs : Slender r v r' v' k a) :
    ∃ (u : ℝ → V3 ℝ) (dt' : ℝ) (u' : V3 ℝ),
      (∀ᶠ b in 𝓝 a, (Ray.refractScreen s ct screen niter (ray b)).r = (r b + (v b).smulR (dt b)).fin ∧
        (Ray.refractScreen s ct screen niter (ray b)).v = (u b).fin) ∧
      Slender (fun b => r b + (v b).smulR (dt b)) u (r' + (v'.smulR (dt a) + (v a).smulR dt')) u' k a ∧
      u a = screenBent k (n a) (v a) (φx ((r a + (v a).smulR (dt a)).x, (r a + (v a).smulR (dt a)).y), φy ((r a + (v a).smulR (dt a)).x, (r a + (v a).smulR (dt a)).y)) ∧
      Bend gx gy φx φy ((r a + (v a).smulR (dt a)).x, (r a + (v a).smulR (dt a)).y) (Real.sqrt k * screenSign (n a) (v a)) (v a) (u a)
        (r' + (v'.smulR (dt a) + (v a).smulR dt')) v' u' := by
  obtain ⟨hr, hv, hk0, hk⟩ := hs
  have htend : Tendsto (fun b => ((r b + (v b).smulR (dt b)).x, (r b + (v b).smulR (dt b)).y))
      (𝓝 a) (𝓝 ((r a + (v a).smulR (dt a)).x, (r a + (v a).smulR (dt a)).y)) :=
    ContinuousAt.prodMk (hr.x.continuousAt.add (hv.x.continuousAt.mul cont)) (hr.y.continuousAt.add (hv.y.continuousAt.mul cont))
  have hnear : ∀ᶠ b in 𝓝 a, n b = unitNormal (gx ((r b + (v b).smulR (dt b)).x, (r b + (v b).smulR (dt b)).y))
      (gy ((r b + (v b).smulR (dt b)).x, (r b + (v b).smulR (dt b)).y)) := by
    filter_upwards [hit, htend.eventually smooth.normal] with b h1 h2
    have h3 := h1.normal
    rw [h2, V3.fin_inj] at h3
    exact h3.symm
  obtain ⟨dt', q', n', hdt, hq, hqn, hn'⟩ := meet_smooth hr hv smooth on cont hnear.self_of_nhds steep
  have hn := hn'.congr hnear
  have hunit : ∀ᶠ b in 𝓝 a, IsUnit' (n b) := hnear.mono fun b h => by rw [h]; exact unitNormal_unit _ _
  have hQ := hr.add (hv.smulR hdt)
  have eq := hq.unique hQ
  have hgrad : ∀ᶠ b in 𝓝 a, screen.grad (.fin (r b + (v b).smulR (dt b)).x) (.fin (r b + (v b).smulR (dt b)).y) =
      (.fin (φx ((r b + (v b).smulR (dt b)).x, (r b + (v b).smulR (dt b)).y)), .fin (φy ((r b + (v b).smulR (dt b)).x, (r b + (v b).smulR (dt b)).y))) := by
    filter_upwards [htend.eventually phase.normal] with b h1
    obtain ⟨hz, e1, e2⟩ := unitNormal_ratio (φx ((r b + (v b).smulR (dt b)).x, (r b + (v b).smulR (dt b)).y)) (φy ((r b + (v b).smulR (dt b)).x, (r b + (v b).smulR (dt b)).y))
    unfold Surface.grad
    rw [h1]
    simp only [V3.fin_x, V3.fin_y, V3.fin_z, Dbl.neg_fin, Dbl.div_fin hz, neg_div, e1, e2, neg_neg]
    simp
  have hpx := phase.bendx.hasFDerivAt.comp_hasDerivAt a (hq.x.prodMk hq.y)
  have hpy := phase.bendy.hasFDerivAt.comp_hasDerivAt a (hq.x.prodMk hq.y)
  have hgx := smooth.bendx.hasFDerivAt.comp_hasDerivAt a (hq.x.prodMk hq.y)
  have hgy := smooth.bendy.hasFDerivAt.comp_hasDerivAt a (hq.x.prodMk hq.y)
  set G : ℝ → ℝ × ℝ := fun b => (φx ((r b + (v b).smulR (dt b)).x, (r b + (v b).smulR (dt b)).y), φy ((r b + (v b).smulR (dt b)).x, (r b + (v b).smulR (dt b)).y)) with hG
  obtain ⟨g', hg3⟩ : ∃ g', D3 (fun b => grad3 (G b)) g' a := ⟨⟨_, _, 0⟩, hpx, hpy, hasDerivAt_const a (0 : ℝ)⟩
  have hspeed : ∀ᶠ b in 𝓝 a, speed (v b) = Real.sqrt k := hk.mono fun b h => by unfold speed; rw [h]
  have hvne : ∀ᶠ b in 𝓝 a, v b ≠ ⟨0, 0, 0⟩ := hk.mono fun b h h0 => by rw [h0] at h; simp [V3.dot] at h; exact hk0.ne h
  have hsign : ∀ᶠ b in 𝓝 a, screenSign (n b) (v b) = screenSign (n a) (v a) := by
    have hc := (hv.dot hn).continuousAt
    rcases lt_or_gt_of_ne steep with h | h
    · filter_upwards [hc.eventually (gt_mem_nhds h)] with b hb
      simp [screenSign, hb, h]
    · filter_upwards [hc.eventually (lt_mem_nhds h)] with b hb
      simp [screenSign, not_lt.2 hb.le, not_lt.2 h.le]
  have hv1 := hv.smulR (hasDerivAt_const a (1 / Real.sqrt k))
  obtain ⟨x1, hx1⟩ := hv1.tangential hn
  obtain ⟨x2, hx2⟩ := hg3.tangential hn
  have hbent : ∀ᶠ b in 𝓝 a, bentTangent (n b) (v b) (G b) =
      tangential ((v b).smulR (1 / Real.sqrt k)) (n b) + V3.smul (screenSign (n a) (v a)) (tangential (grad3 (G b)) (n b)) := by
    filter_upwards [hspeed, hsign] with b h1 h2
    rw [bentTangent, h1, h2]
  have hB := (hx1.add (D3.smul (hasDerivAt_const a (screenSign (n a) (v a))) hx2)).congr hbent
  have hrad : 0 < 1 - V3.dot (bentTangent (n a) (v a) (G a)) (bentTangent (n a) (v a) (G a)) := by
    have : V3.dot (bentTangent (n a) (v a) (G a)) (bentTangent (n a) (v a) (G a)) < 1 := hlt
    linarith
  have hR : HasDerivAt (fun b => 1 - V3.dot (bentTangent (n b) (v b) (G b)) (bentTangent (n b) (v b) (G b))) _ a := (hasDerivAt_const a (1 : ℝ)).sub (hB.dot hB)
  have hrad' : ∀ᶠ b in 𝓝 a, V3.normSq (bentTangent (n b) (v b) (G b)) ≤ 1 := by
    filter_upwards [hR.continuousAt.eventually (lt_mem_nhds hrad)] with b h
    show V3.dot _ _ ≤ 1
    have : 0 < 1 - V3.dot (bentTangent (n b) (v b) (G b)) (bentTangent (n b) (v b) (G b)) := h
    linarith
  obtain ⟨u', hU⟩ : ∃ u', D3 (fun b => screenBent k (n b) (v b) (G b)) u' a := by
    refine ⟨_, (D3.smul (hasDerivAt_const a (Real.sqrt k)) (hB.sub (D3.smul ((hR.sqrt hrad.ne').const_mul (screenSign (n a) (v a))) hn))).congr ?_⟩
    filter_upwards [hsign] with b h
    rw [screenBent, h]
    rfl
  refine ⟨fun b => screenBent k (n b) (v b) (G b), dt', u', ?_, ⟨hQ, hU, hk0, ?_⟩, rfl, ?_⟩
  · filter_upwards [hit, hgrad, hnear, hspeed, hvne, hrad', hunit] with b h1 h3 h5 h6 h7 h9 hnu
    have hnz : (n b).z * (n b).z + (n b).x * (n b).x ≠ 0 := by
      have := (unitNormal_ratio (gx ((r b + (v b).smulR (dt b)).x, (r b + (v b).smulR (dt b)).y)) (gy ((r b + (v b).smulR (dt b)).x, (r b + (v b).smulR (dt b)).y))).1
      rw [← h5] at this
      have := mul_self_pos.mpr this
      nlinarith [mul_self_nonneg (n b).x]
    rw [refractScreen_hit (g := G b) h1 h3, screenDir_fin h7 hnu hnz h9, h6]
    exact ⟨rfl, rfl⟩
  · filter_upwards [hunit, hrad'] with b h1 h2
    exact bent_speed hk0 h1 _ _ h2
  rw [← eq]
  set q := ((r a + (v a).smulR (dt a)).x, (r a + (v a).smulR (dt a)).y) with hqdef
  have hX := (hU.sub hv).sub (D3.smul (hasDerivAt_const a (Real.sqrt k * screenSign (n a) (v a)))
    (show D3 (fun b => grad3 (G b)) ⟨fderiv ℝ φx q (q'.x, q'.y), fderiv ℝ φy q (q'.x, q'.y), 0⟩ a from ⟨hpx, hpy, hasDerivAt_const a (0 : ℝ)⟩))
  have hprop : ∀ᶠ b in 𝓝 a, (screenBent k (n b) (v b) (G b) - v b - V3.smul (Real.sqrt k * screenSign (n a) (v a)) (grad3 (G b))).x =
        (screenBent k (n b) (v b) (G b) - v b - V3.smul (Real.sqrt k * screenSign (n a) (v a)) (grad3 (G b))).z *
        -(gx ((r b + (v b).smulR (dt b)).x, (r b + (v b).smulR (dt b)).y)) ∧
      (screenBent k (n b) (v b) (G b) - v b - V3.smul (Real.sqrt k * screenSign (n a) (v a)) (grad3 (G b))).y =
        (screenBent k (n b) (v b) (G b) - v b - V3.smul (Real.sqrt k * screenSign (n a) (v a)) (grad3 (G b))).z *
        -(gy ((r b + (v b).smulR (dt b)).x, (r b + (v b).smulR (dt b)).y)) := by
    filter_upwards [hnear, hsign, hk] with b h1 h2 h3
    obtain ⟨m, hm⟩ := bent_kick hk0 (n := n b) h3 (G b)
    rw [h2] at hm
    rw [hm, h1]
    simp only [unitNormal, V3.smul_x, V3.smul_y, V3.smul_z]
    constructor <;> ring
  refine ⟨?_, ?_, ?_⟩
  · have h0 := hqn
    rw [hnear.self_of_nhds] at h0
    have hz := (unitNormal_ratio (gx q) (gy q)).1
    have e1 : (unitNormal (gx q) (gy q)).x = -gx q * (unitNormal (gx q) (gy q)).z := rfl
    have e2 : (unitNormal (gx q) (gy q)).y = -gy q * (unitNormal (gx q) (gy q)).z := rfl
    simp only [V3.dot] at h0
    rw [e1, e2] at h0
    have : (unitNormal (gx q) (gy q)).z * (q'.z - (gx q * q'.x + gy q * q'.y)) = 0 := by linear_combination h0
    linarith [(mul_eq_zero.1 this).resolve_left hz]
  · have h1 := (hX.z.mul hgx.neg).congr_of_eventuallyEq (f₁ := fun b => (screenBent k (n b) (v b) (G b) - v b - V3.smul (Real.sqrt k * screenSign (n a) (v a)) (grad3 (G b))).x)
      (hprop.mono fun b h => h.1)
    have := hX.x.unique h1
    simp only [V3.sub_x, V3.sub_y, V3.sub_z, V3.add_x, V3.add_y, V3.add_z, V3.smul_x, V3.smul_y, V3.smul_z, grad3, Function.comp_apply, Pi.neg_apply] at this
    linear_combination this
  · have h1 := (hX.z.mul hgy.neg).congr_of_eventuallyEq (f₁ := fun b => (screenBent k (n b) (v b) (G b) - v b - V3.smul (Real.sqrt k * screenSign (n a) (v a)) (grad3 (G b))).y)
      (hprop.mono fun b h => h.2)
    have := hX.y.unique h1
    simp only [V3.sub_x, V3.sub_y, V3.sub_z, V3.add_x, V3.add_y, V3.add_z, V3.smul_x, V3.smul_y, V3.smul_z, grad3, Function.comp_apply, Pi.neg_apply] at this
    linear_combination this

/-- C105 for `OPDScreen`, in the frame of its surface: of two beams with a common ray, which meet a smooth surface with a smooth screen and are not screenBent beyond
the horizon, the invariant is kept, whichever way the light goes and whatever the medium. -/
theorem C105_screen {s screen : Surface Dbl} {ct : CoordTransform Dbl} {niter : ℕ} {ray₁ ray₂ : ℝ → Ray Dbl} {r₁ v₁ n₁ r₂ v₂ n₂ : ℝ → V3 ℝ}
    {r₁' v₁' r₂' v₂' : V3 ℝ} {dt₁ dt₂ : ℝ → ℝ} {a k : ℝ} {q : ℝ × ℝ} {φ φx φy : ℝ × ℝ → ℝ}
    (hit₁ : ∀ᶠ b in 𝓝 a, Hit s ct niter (ray₁ b) (r₁ b) (v₁ b) (n₁ b) (dt₁ b))
    (hit₂ : ∀ᶠ b in 𝓝 a, Hit s ct niter (ray₂ b) (r₂ b) (v₂ b) (n₂ b) (dt₂ b))
    (hq : q = ((r₁ a + (v₁ a).smulR (dt₁ a)).x, (r₁ a + (v₁ a).smulR (dt₁ a)).y))
    (regular : ∀ᶠ p in 𝓝 q, ∃ f gx gy, SmoothAt s f gx gy p) (phase : SmoothAt screen φ φx φy q) (even : ∀ᶠ p in 𝓝 q, ∃ f gx gy, SmoothAt screen f gx gy p)
    (on₁ : ∀ᶠ b in 𝓝 a, s.sag (.fin (r₁ b + (v₁ b).smulR (dt₁ b)).x) (.fin (r₁ b + (v₁ b).smulR (dt₁ b)).y) = .fin (r₁ b + (v₁ b).smulR (dt₁ b)).z)
    (on₂ : ∀ᶠ b in 𝓝 a, s.sag (.fin (r₂ b + (v₂ b).smulR (dt₂ b)).x) (.fin (r₂ b + (v₂ b).smulR (dt₂ b)).y) = .fin (r₂ b + (v₂ b).smulR (dt₂ b)).z)
    (cont₁ : ContinuousAt dt₁ a) (cont₂ : ContinuousAt dt₂ a) (steep : V3.dot (v₁ a) (n₁ a) ≠ 0)
    (hlt : V3.normSq (bentTangent (n₁ a) (v₁ a) (φx q, φy q)) < 1)
    (hr : r₁ a = r₂ a) (hv : v₁ a = v₂ a) (h₁ : Slender r₁ v₁ r₁' v₁' k a) (h₂ : Slender r₂ v₂ r₂' v₂' k a) :
    ∃ (u₁ u₂ : ℝ → V3 ℝ) (q₁' q₂' u₁' u₂' : V3 ℝ),
      (∀ᶠ b in 𝓝 a, (Ray.refractScreen s ct screen niter (ray₁ b)).r = (r₁ b + (v₁ b).smulR (dt₁ b)).fin ∧
        (Ray.refractScreen s ct screen niter (ray₁ b)).v = (u₁ b).fin) ∧
      (∀ᶠ b in 𝓝 a, (Ray.refractScreen s ct screen niter (ray₂ b)).r = (r₂ b + (v₂ b).smulR (dt₂ b)).fin ∧
        (Ray.refractScreen s ct screen niter (ray₂ b)).v = (u₂ b).fin) ∧
      u₁ a = u₂ a ∧
      Slender (fun b => r₁ b + (v₁ b).smulR (dt₁ b)) u₁ q₁' u₁' k a ∧
      Slender (fun b => r₂ b + (v₂ b).smulR (dt₂ b)) u₂ q₂' u₂' k a ∧
      lagrange k q₁' u₁' q₂' u₂' = lagrange k r₁' v₁' r₂' v₂' := by
  subst hq
  have hdt : dt₁ a = dt₂ a := by
    have := hit₁.self_of_nhds.time
    rw [hr, hv, hit₂.self_of_nhds.time] at this
    simpa using this.symm
  have hn : n₁ a = n₂ a := by
    have := hit₁.self_of_nhds.normal
    rw [hr, hv, hdt, hit₂.self_of_nhds.normal, V3.fin_inj] at this
    exact this.symm
  obtain ⟨f, gx, gy, smooth⟩ := regular.self_of_nhds
  have smooth₂ := smooth
  have phase₂ := phase
  have steep₂ := steep
  have hlt₂ := hlt
  rw [hr, hv, hdt] at smooth₂ phase₂
  rw [hv, hn] at steep₂
  rw [hr, hv, hdt, hn] at hlt₂
  obtain ⟨u₁, dt₁', u₁', o₁, s₁, e₁, b₁⟩ := bend_local hit₁ smooth phase on₁ cont₁ steep hlt h₁
  obtain ⟨u₂, dt₂', u₂', o₂, s₂, e₂, b₂⟩ := bend_local hit₂ smooth₂ phase₂ on₂ cont₂ steep₂ hlt₂ h₂
  have hu : u₁ a = u₂ a := by rw [e₁, e₂, hr, hv, hn, hdt]
  refine ⟨u₁, u₂, _, _, u₁', u₂', o₁, o₂, hu, s₁, s₂, ?_⟩
  rw [← hr, ← hv, ← hdt, ← hu, ← hn] at b₂
  have hp := bend_pair (k := k) b₁ b₂ (by simpa using hess_symm smooth regular (_, _) (_, _)) (by simpa using hess_symm phase even (_, _) (_, _))
  rw [← hv, ← hdt, hp]
  have p₁ := h₁.perp
  have p₂ := h₂.perp
  rw [← hv] at p₂
  unfold lagrange
  congr 1
  have f₁ : V3.dot v₁' (r₂' + (v₂'.smulR (dt₁ a) + (v₁ a).smulR dt₂')) = V3.dot v₁' r₂' + V3.dot v₁' v₂' * dt₁ a + V3.dot (v₁ a) v₁' * dt₂' := by
    simp [V3.dot]; ring
  have f₂ : V3.dot v₂' (r₁' + (v₁'.smulR (dt₁ a) + (v₁ a).smulR dt₁')) = V3.dot v₂' r₁' + V3.dot v₁' v₂' * dt₁ a + V3.dot (v₁ a) v₂' * dt₁' := by
    simp [V3.dot]; ring
  rw [f₁, f₂, p₁, p₂]; ring

/-! ## A concrete case -/

theorem screen_hit (r v : V3 ℝ) (hv : v.z ≠ 0) :
    Hit Surface.plane (CoordTransform.make (CoordSys.std ℝ).fin (CoordSys.std ℝ).fin) 5 { demoRay v with r := r.fin } r v ⟨0, 0, 1⟩ (-r.z / v.z) :=
  ⟨rfl, by
    rw [CoordTransform.forward_fin, V3.fin_inj]
    simp [CoordTransform.forward, CoordTransform.make, CoordSys.std, M3.mulVec, M3.mul, M3.tr], by
    simp only [demoRay, CoordTransform.forwardVel_fin, V3.fin_inj]
    ext <;> simp [CoordTransform.forwardVel, CoordTransform.make, CoordSys.std, M3.mulVec, M3.mul, M3.tr], by
    simp only [Surface.plane, V3.fin_z, Dbl.zero_dbl, Dbl.eq_fin, hv, decide_false, Bool.false_eq_true, if_false, Dbl.neg_fin, Dbl.div_fin hv], by
    simp [Surface.plane, V3.fin]⟩

/-- The hypotheses of `C105_screen`: parallel light and light from one of its points go down or up through a flat screen whose phase is a paraboloid.  Their invariant,
which is not 0, is kept both ways. -/
example {σ : ℝ} (hσ : σ * σ = 1) : ∃ (u₁ u₂ : ℝ → V3 ℝ) (q₁' q₂' u₁' u₂' : V3 ℝ), u₁ 0 = u₂ 0 ∧
    (∀ᶠ b in 𝓝 0, (Ray.refractScreen Surface.plane (CoordTransform.make (CoordSys.std ℝ).fin (CoordSys.std ℝ).fin) (Surface.paraboloid (.fin 4)) 5
      { demoRay ⟨0, 0, σ⟩ with r := (⟨1 + b, 2, 4⟩ : V3 ℝ).fin }).v = (u₁ b).fin) ∧
    (∀ᶠ b in 𝓝 0, (Ray.refractScreen Surface.plane (CoordTransform.make (CoordSys.std ℝ).fin (CoordSys.std ℝ).fin) (Surface.paraboloid (.fin 4)) 5
      { demoRay ⟨Real.sin b, 0, σ * Real.cos b⟩ with r := (⟨1, 2, 4⟩ : V3 ℝ).fin }).v = (u₂ b).fin) ∧
    D3 u₁ u₁' 0 ∧ D3 u₂ u₂' 0 ∧ lagrange 1 q₁' u₁' q₂' u₂' = -1 := by
  have hσ0 : σ ≠ 0 := by rintro rfl; norm_num at hσ
  have h4 : (4 : ℝ) ≠ 0 := by norm_num
  have hc : ∀ᶠ b : ℝ in 𝓝 0, Real.cos b ≠ 0 := by
    have := Real.continuous_cos.continuousAt (x := 0)
    exact this.eventually_ne (by simp)
  have hsp : speed ⟨0, 0, σ⟩ = 1 := by simp [speed, V3.dot, hσ]
  have e₁ : ∀ b : ℝ, ((⟨1 + b, 2, 4⟩ : V3 ℝ) + (⟨0, 0, σ⟩ : V3 ℝ).smulR (-4 / σ)) = ⟨1 + b, 2, 0⟩ := fun b => by
    ext <;> simp; field_simp; norm_num
  have e₂ : ∀ᶠ b : ℝ in 𝓝 0, (((⟨1, 2, 4⟩ : V3 ℝ) + (⟨Real.sin b, 0, σ * Real.cos b⟩ : V3 ℝ).smulR (-4 / (σ * Real.cos b))).z) = 0 := by
    filter_upwards [hc] with b h
    simp; field_simp; norm_num
  have smooth : SmoothAt (Surface.paraboloid (.fin 4)) (fun p => (p.1 * p.1 + p.2 * p.2) * (1 / 2 / 4)) (fun p => 2 * p.1 * (1 / 2 / 4)) (fun p => 2 * p.2 * (1 / 2 / 4)) (1, 2) :=
    smooth_radial isOpen_univ (h := fun p => p * (1 / 2 / 4)) (d := fun _ => 1 / 2 / 4) (fun x y _ => paraboloidSag_fin h4 x y)
      (fun x y _ => paraboloidNormal_fin h4 x y) (Set.mem_univ _) (by simpa using (hasDerivAt_id (1 * 1 + 2 * 2 : ℝ)).mul_const (1 / 2 / 4)) (differentiableAt_const _)
  have hbent : V3.normSq (bentTangent ⟨0, 0, 1⟩ ⟨0, 0, σ⟩ (2 * 1 * (1 / 2 / 4), 2 * 2 * (1 / 2 / 4))) < 1 := by
    have hs := sign_mul_self ⟨0, 0, 1⟩ ⟨0, 0, σ⟩
    generalize hS : screenSign ⟨0, 0, 1⟩ ⟨0, 0, σ⟩ = S at hs
    simp only [bentTangent, hS, hsp, tangential, grad3, V3.normSq, V3.dot, V3.add_x, V3.add_y, V3.add_z, V3.sub_x, V3.sub_y, V3.sub_z, V3.smul_x, V3.smul_y, V3.smul_z,
      V3.smulR_x, V3.smulR_y, V3.smulR_z]
    nlinarith
  have hdt : HasDerivAt (fun b : ℝ => σ * Real.cos b) (σ * -Real.sin 0) 0 := (Real.hasDerivAt_cos 0).const_mul σ
  obtain ⟨u₁, u₂, q₁', q₂', u₁', u₂', o₁, o₂, hu, s₁, s₂, hl⟩ := C105_screen (s := Surface.plane) (screen := Surface.paraboloid (.fin 4)) (niter := 5) (a := 0) (k := 1)
    (ct := CoordTransform.make (CoordSys.std ℝ).fin (CoordSys.std ℝ).fin) (q := (1, 2))
    (ray₁ := fun b => { demoRay ⟨0, 0, σ⟩ with r := (⟨1 + b, 2, 4⟩ : V3 ℝ).fin }) (r₁ := fun b => ⟨1 + b, 2, 4⟩) (v₁ := fun _ => ⟨0, 0, σ⟩)
    (n₁ := fun _ => ⟨0, 0, 1⟩) (dt₁ := fun _ => -4 / σ) (r₁' := ⟨1, 0, 0⟩) (v₁' := ⟨0, 0, 0⟩)
    (ray₂ := fun b => { demoRay ⟨Real.sin b, 0, σ * Real.cos b⟩ with r := (⟨1, 2, 4⟩ : V3 ℝ).fin }) (r₂ := fun _ => ⟨1, 2, 4⟩)
    (v₂ := fun b => ⟨Real.sin b, 0, σ * Real.cos b⟩) (n₂ := fun _ => ⟨0, 0, 1⟩) (dt₂ := fun b => -4 / (σ * Real.cos b)) (r₂' := ⟨0, 0, 0⟩) (v₂' := ⟨1, 0, 0⟩)
    (Eventually.of_forall fun b => screen_hit ⟨1 + b, 2, 4⟩ ⟨0, 0, σ⟩ hσ0)
    (hc.mono fun b h => screen_hit ⟨1, 2, 4⟩ ⟨Real.sin b, 0, σ * Real.cos b⟩ (mul_ne_zero hσ0 h))
    (by simp only [e₁]; norm_num)
    (Eventually.of_forall C98_smooth_plane) smooth (Eventually.of_forall (C98_smooth_paraboloid h4))
    (Eventually.of_forall fun b => by simp only [e₁]; simp [Surface.plane, Dbl.zero_dbl])
    (by filter_upwards [e₂] with b h; rw [h]; simp [Surface.plane, Dbl.zero_dbl])
    continuousAt_const (continuousAt_const.div hdt.continuousAt (by simpa using hσ0)) (by simpa [V3.dot] using hσ0) hbent
    (by simp) (by simp)
    ⟨⟨by simpa using (hasDerivAt_id' (0 : ℝ)).const_add 1, hasDerivAt_const _ _, hasDerivAt_const _ _⟩, D3.const _ _, one_pos, by simp [V3.dot, hσ]⟩
    ⟨D3.const _ _, ⟨by simpa using Real.hasDerivAt_sin 0, hasDerivAt_const _ _, by simpa using hdt⟩, one_pos, Eventually.of_forall fun b => by
      simp only [V3.dot]
      linear_combination Real.cos b ^ 2 * hσ + Real.sin_sq_add_cos_sq b⟩
  exact ⟨u₁, u₂, q₁', q₂', u₁', u₂', hu, o₁.mono fun b h => h.2, o₂.mono fun b h => h.2, s₁.velocity, s₂.velocity, by rw [hl]; simp [lagrange, V3.dot]⟩

end Batoid.Props
