import Verif.Props.MalusChief
import Mathlib.Analysis.Calculus.FDeriv.Symmetric
import Mathlib.Analysis.SpecialFunctions.Trigonometric.Deriv

/-!
# Property C105: the invariant of Lagrange (étendue)

Two beams that have one ray in common: along the first the ray changes its place by `P₁'` and its velocity by `V₁'`, along the second by `P₂'` and `V₂'`.
With `k = V·V = 1/n²`, the number `(V₁'·P₂' - V₂'·P₁') / k` is the same before and after any optic.  For a mirror-symmetric pair it is
Lagrange's (Smith's, Helmholtz's) invariant; in general it says that étendue is kept and that no optic makes light brighter.
-/

namespace Batoid.Props
open Batoid Batoid.Surface Filter Topology

/-! ## Specification -/

/-- A beam whose rays change smoothly at `a` and are equally fast, with derivatives `P'` and `V'` and squared speed `k`. -/
structure Slender (P V : ℝ → V3 ℝ) (P' V' : V3 ℝ) (k a : ℝ) : Prop where
  place : D3 P P' a
  velocity : D3 V V' a
  pos : 0 < k
  speed : ∀ᶠ s in 𝓝 a, V3.dot (V s) (V s) = k

/-- The invariant of two beams. -/
noncomputable def lagrange (k : ℝ) (P₁' V₁' P₂' V₂' : V3 ℝ) : ℝ := (V3.dot V₁' P₂' - V3.dot V₂' P₁') / k

/-- The étendue of four beams: the volume they span in the space of places and momenta. -/
noncomputable def etendue (k : ℝ) (P' V' : Fin 4 → V3 ℝ) : ℝ :=
  lagrange k (P' 0) (V' 0) (P' 1) (V' 1) * lagrange k (P' 2) (V' 2) (P' 3) (V' 3) - lagrange k (P' 0) (V' 0) (P' 2) (V' 2) * lagrange k (P' 1) (V' 1) (P' 3) (V' 3) +
    lagrange k (P' 0) (V' 0) (P' 3) (V' 3) * lagrange k (P' 1) (V' 1) (P' 2) (V' 2)

/-- The course of beams with a common ray through interfaces.  The rays meet every interface on its surface, the meeting points move continuously, the surface is
smooth near the common meeting point, and the light does not graze it. -/
inductive Pencil {ι : Type} (niter : ℕ) (w : Dbl) (a0 : ℝ) (Q W : ι → ℝ → V3 ℝ) : List (Iface Dbl) → (ι → ℝ → V3 ℝ) → (ι → ℝ → V3 ℝ) → Prop
  | done : Pencil niter w a0 Q W [] Q W
  | cross {d : Iface Dbl} {ds : List (Iface Dbl)} {c : CoordSys ℝ} {n P V U : ι → ℝ → V3 ℝ} {dt : ι → ℝ → ℝ}
      (meets : ∀ i, ∀ᶠ a in 𝓝 a0, Meeting niter w d c (n i a) (P i a) (V i a) (dt i a) (U i a))
      (regular : ∀ i, ∀ᶠ q in 𝓝 ((c.toLocal (P i a0 + (V i a0).smulR (dt i a0))).x, (c.toLocal (P i a0 + (V i a0).smulR (dt i a0))).y),
        ∃ f gx gy, SmoothAt d.surface f gx gy q)
      (on : ∀ i, ∀ᶠ a in 𝓝 a0, d.surface.sag (.fin (c.toLocal (P i a + (V i a).smulR (dt i a))).x) (.fin (c.toLocal (P i a + (V i a).smulR (dt i a))).y) =
        .fin (c.toLocal (P i a + (V i a).smulR (dt i a))).z)
      (cont : ∀ i, ContinuousAt (dt i) a0)
      (steep : ∀ i, V3.dot (c.rot.tr.mulVec (V i a0)) (n i a0) ≠ 0)
      (rest : Pencil niter w a0 Q W ds (fun i a => P i a + (V i a).smulR (dt i a)) U) :
      Pencil niter w a0 Q W (d :: ds) P V

/-! ## Surfaces -/

theorem unitNormal_inj {a b a' b' : ℝ} (h : unitNormal a b = unitNormal a' b') : a = a' ∧ b = b' := by
  obtain ⟨-, h1, h2⟩ := unitNormal_ratio a b
  obtain ⟨-, h3, h4⟩ := unitNormal_ratio a' b'
  rw [h] at h1 h2
  exact ⟨neg_injective (h1.symm.trans h3), neg_injective (h2.symm.trans h4)⟩

/-- The second derivatives of a smooth surface are symmetric. -/
theorem hess_symm {s : Surface Dbl} {f gx gy : ℝ × ℝ → ℝ} {q : ℝ × ℝ} (h : SmoothAt s f gx gy q) (hr : ∀ᶠ p in 𝓝 q, ∃ f gx gy, SmoothAt s f gx gy p) (x y : ℝ × ℝ) :
    fderiv ℝ gx q x * y.1 + fderiv ℝ gy q x * y.2 = fderiv ℝ gx q y * x.1 + fderiv ℝ gy q y * x.2 := by
  have hf : ∀ᶠ p in 𝓝 q, HasFDerivAt f (gx p • ContinuousLinearMap.fst ℝ ℝ ℝ + gy p • ContinuousLinearMap.snd ℝ ℝ ℝ) p := by
    filter_upwards [hr, eventually_eventually_nhds.2 h.sag, h.normal] with p ⟨f2, gx2, gy2, hp⟩ h1 h2
    have h3 := hp.normal.self_of_nhds
    rw [h2, V3.fin_inj] at h3
    obtain ⟨e1, e2⟩ := unitNormal_inj h3
    rw [e1, e2]
    refine hp.slopes.congr_of_eventuallyEq ?_
    filter_upwards [h1, hp.sag] with p' g1 g2
    rw [g1, Dbl.fin_inj] at g2
    exact g2
  have hx : HasFDerivAt (fun p => gx p • ContinuousLinearMap.fst ℝ ℝ ℝ + gy p • ContinuousLinearMap.snd ℝ ℝ ℝ)
      ((fderiv ℝ gx q).smulRight (ContinuousLinearMap.fst ℝ ℝ ℝ) + (fderiv ℝ gy q).smulRight (ContinuousLinearMap.snd ℝ ℝ ℝ)) q :=
    (h.bendx.hasFDerivAt.smul_const (ContinuousLinearMap.fst ℝ ℝ ℝ)).add (h.bendy.hasFDerivAt.smul_const (ContinuousLinearMap.snd ℝ ℝ ℝ))
  have := second_derivative_symmetric_of_eventually hf hx x y
  simpa using this

/-! ## One interface, in its own frame -/

/-- Reflection and refraction change the velocity over its square along the normal. -/
theorem turns_kick {d : Iface Dbl} {w : Dbl} {n v u : V3 ℝ} {k₁ k₂ : ℝ} (hn : IsUnit' n) (h : Turns d w n v u) (h1 : V3.dot v v = k₁) (h2 : V3.dot u u = k₂) :
    ∃ m : ℝ, V3.smul (1 / k₂) u - V3.smul (1 / k₁) v = V3.smul m n := by
  cases h with
  | straight _ h =>
    subst h
    rw [h1] at h2; subst h2
    exact ⟨0, by ext <;> simp⟩
  | mirror _ ht hd =>
    have e := mirror_unique ht hd
    have hk : k₂ = k₁ := by rw [← h1, ← h2, ← e, mirror_dotSelf hn]
    subst hk
    refine ⟨-(2 * V3.dot v n / k₂), ?_⟩
    rw [← e]
    ext <;> simp [mirror] <;> ring
  | @lens _ n1 n2 _ _ hs =>
    have e1 : 1 / k₁ = n1 ^ 2 := by
      have := hs.speed1; rw [h1] at this
      have hk : k₁ ≠ 0 := by rintro rfl; simp at this
      rw [div_eq_iff hk]; linarith
    have e2 : 1 / k₂ = n2 ^ 2 := by
      have := hs.speed2; rw [h2] at this
      have hk : k₂ ≠ 0 := by rintro rfl; simp at this
      rw [div_eq_iff hk]; linarith
    rw [e1, e2]
    refine ⟨V3.dot (V3.smul (n2 ^ 2) u - V3.smul (n1 ^ 2) v) n, (decompose hn).trans ?_⟩
    have hc : V3.cross (V3.smul (n2 ^ 2) u - V3.smul (n1 ^ 2) v) n = ⟨0, 0, 0⟩ := by
      have hx := congrArg V3.x hs.sines; have hy := congrArg V3.y hs.sines; have hz := congrArg V3.z hs.sines
      simp only [V3.smul_x, V3.smul_y, V3.smul_z, V3.cross_x, V3.cross_y, V3.cross_z] at hx hy hz
      ext <;> simp only [V3.cross_x, V3.cross_y, V3.cross_z, V3.sub_x, V3.sub_y, V3.sub_z, V3.smul_x, V3.smul_y, V3.smul_z]
      · linear_combination hx
      · linear_combination hy
      · linear_combination hz
    rw [hc]
    ext <;> simp

/-- What is used of one beam at one interface. -/
structure Kick (gx gy : ℝ × ℝ → ℝ) (q : ℝ × ℝ) (k k' : ℝ) (v u q' v' u' : V3 ℝ) : Prop where
  along : q'.z = gx q * q'.x + gy q * q'.y
  x : 1 / k' * u'.x - 1 / k * v'.x = (1 / k' * u'.z - 1 / k * v'.z) * -gx q + (1 / k' * u.z - 1 / k * v.z) * -(fderiv ℝ gx q (q'.x, q'.y))
  y : 1 / k' * u'.y - 1 / k * v'.y = (1 / k' * u'.z - 1 / k * v'.z) * -gy q + (1 / k' * u.z - 1 / k * v.z) * -(fderiv ℝ gy q (q'.x, q'.y))

theorem kick_local {s : Surface Dbl} {d : Iface Dbl} {w : Dbl} {f gx gy : ℝ × ℝ → ℝ} {p v n u : ℝ → V3 ℝ} {p' v' : V3 ℝ} {dt : ℝ → ℝ} {a k : ℝ}
    (hs : Slender p v p' v' k a)
    (smooth : SmoothAt s f gx gy ((p a + (v a).smulR (dt a)).x, (p a + (v a).smulR (dt a)).y))
    (on : ∀ᶠ b in 𝓝 a, s.sag (.fin (p b + (v b).smulR (dt b)).x) (.fin (p b + (v b).smulR (dt b)).y) = .fin (p b + (v b).smulR (dt b)).z)
    (cont : ContinuousAt dt a)
    (hnear : ∀ᶠ b in 𝓝 a, n b = unitNormal (gx ((p b + (v b).smulR (dt b)).x, (p b + (v b).smulR (dt b)).y))
      (gy ((p b + (v b).smulR (dt b)).x, (p b + (v b).smulR (dt b)).y)))
    (hunit : ∀ᶠ b in 𝓝 a, IsUnit' (n b)) (hturn : ∀ᶠ b in 𝓝 a, Turns d w (n b) (v b) (u b)) (steep : V3.dot (v a) (n a) ≠ 0) :
    ∃ dt' u' k', HasDerivAt dt dt' a ∧ Slender (fun b => p b + (v b).smulR (dt b)) u (p' + (v'.smulR (dt a) + (v a).smulR dt')) u' k' a ∧
      Kick gx gy ((p a + (v a).smulR (dt a)).x, (p a + (v a).smulR (dt a)).y) k k' (v a) (u a) (p' + (v'.smulR (dt a) + (v a).smulR dt')) v' u' := by
  obtain ⟨hp, hv, hk0, hk⟩ := hs
  obtain ⟨dt', q', n', hdt, hq, hqn, hn'⟩ := meet_smooth hp hv smooth on cont hnear.self_of_nhds steep
  have hn := hn'.congr hnear
  have hQ := hp.add (hv.smulR hdt)
  have eq := hq.unique hQ
  obtain ⟨u', k', hu, hk0', hk', -⟩ := turn_wave (q' := q') (τ' := V3.dot (v a) q' / k) hn hv hunit hturn hk0 hk hqn (by field_simp)
  refine ⟨dt', u', k', hdt, ⟨hQ, hu, hk0', hk'⟩, ?_⟩
  rw [← eq]
  set q := ((p a + (v a).smulR (dt a)).x, (p a + (v a).smulR (dt a)).y) with hqdef
  have hgx := smooth.bendx.hasFDerivAt.comp_hasDerivAt a (hq.x.prodMk hq.y)
  have hgy := smooth.bendy.hasFDerivAt.comp_hasDerivAt a (hq.x.prodMk hq.y)
  have hX := (D3.smul (hasDerivAt_const a (1 / k')) hu).sub (D3.smul (hasDerivAt_const a (1 / k)) hv)
  have hprop : ∀ᶠ b in 𝓝 a, (V3.smul (1 / k') (u b) - V3.smul (1 / k) (v b)).x = (V3.smul (1 / k') (u b) - V3.smul (1 / k) (v b)).z *
        -(gx ((p b + (v b).smulR (dt b)).x, (p b + (v b).smulR (dt b)).y)) ∧
      (V3.smul (1 / k') (u b) - V3.smul (1 / k) (v b)).y = (V3.smul (1 / k') (u b) - V3.smul (1 / k) (v b)).z *
        -(gy ((p b + (v b).smulR (dt b)).x, (p b + (v b).smulR (dt b)).y)) := by
    filter_upwards [hnear, hunit, hturn, hk, hk'] with b h1 h2 h3 h4 h5
    obtain ⟨m, hm⟩ := turns_kick h2 h3 h4 h5
    rw [hm, h1]
    simp only [unitNormal, V3.smul_x, V3.smul_y, V3.smul_z]
    constructor <;> ring
  refine ⟨?_, ?_, ?_⟩
  · have h0 := hqn
    rw [hnear.self_of_nhds] at h0
    have hz := (unitNormal_ratio (gx q) (gy q)).1
    have e1 : (unitNormal (gx q) (gy q)).x = -gx q * (unitNormal (gx q) (gy q)).z := rfl
    have e2 : (unitNormal (gx q) (gy q)).y = -gy q * (unitNormal (gx q) (gy q)).z := rfl
    simp only [V3.dot] at h0
    rw [e1, e2] at h0
    have : (unitNormal (gx q) (gy q)).z * (q'.z - (gx q * q'.x + gy q * q'.y)) = 0 := by linear_combination h0
    linarith [(mul_eq_zero.1 this).resolve_left hz]
  · have h1 := (hX.z.mul hgx.neg).congr_of_eventuallyEq (f₁ := fun b => (V3.smul (1 / k') (u b) - V3.smul (1 / k) (v b)).x)
      (hprop.mono fun b h => h.1)
    have := hX.x.unique h1
    simpa [hqdef] using this
  · have h1 := (hX.z.mul hgy.neg).congr_of_eventuallyEq (f₁ := fun b => (V3.smul (1 / k') (u b) - V3.smul (1 / k) (v b)).y)
      (hprop.mono fun b h => h.2)
    have := hX.y.unique h1
    simpa [hqdef] using this

/-- At the surface the invariant does not change. -/
theorem kick_pair {gx gy : ℝ × ℝ → ℝ} {q : ℝ × ℝ} {k k' : ℝ} {v u q₁' v₁' u₁' q₂' v₂' u₂' : V3 ℝ} (h₁ : Kick gx gy q k k' v u q₁' v₁' u₁')
    (h₂ : Kick gx gy q k k' v u q₂' v₂' u₂')
    (hsym : fderiv ℝ gx q (q₁'.x, q₁'.y) * q₂'.x + fderiv ℝ gy q (q₁'.x, q₁'.y) * q₂'.y =
      fderiv ℝ gx q (q₂'.x, q₂'.y) * q₁'.x + fderiv ℝ gy q (q₂'.x, q₂'.y) * q₁'.y) :
    lagrange k' q₁' u₁' q₂' u₂' = lagrange k q₁' v₁' q₂' v₂' := by
  have e1 := h₁.x; have e2 := h₁.y; have e3 := h₁.along
  have e4 := h₂.x; have e5 := h₂.y; have e6 := h₂.along
  unfold lagrange
  rw [div_eq_mul_one_div _ k', div_eq_mul_one_div _ k]
  simp only [V3.dot]
  generalize 1 / k' = i' at *
  generalize 1 / k = i at *
  rw [e3, e6]
  linear_combination q₂'.x * e1 + q₂'.y * e2 - q₁'.x * e4 - q₁'.y * e5 - (i' * u.z - i * v.z) * hsym

theorem Turns.unique {d : Iface Dbl} {w : Dbl} {n v u u' : V3 ℝ} (hn : IsUnit' n) (h : Turns d w n v u) (h' : Turns d w n v u') : u = u' := by
  cases h with
  | straight hk h =>
    cases h' with
    | straight _ h' => rw [h, h']
    | mirror h' => rw [h'] at hk; simp at hk
    | lens h' => rw [h'] at hk; simp at hk
  | mirror hk h1 h2 =>
    cases h' with
    | straight h' => rw [hk] at h'; simp at h'
    | mirror _ h3 h4 => rw [← mirror_unique h1 h2, mirror_unique h3 h4]
    | lens h' => rw [h'] at hk; cases hk
  | lens hk h1 h2 hs =>
    cases h' with
    | straight h' => rw [hk] at h'; simp at h'
    | mirror h' => rw [h'] at hk; cases hk
    | lens _ g1 g2 hs' =>
      rw [h1, Dbl.fin_inj] at g1
      rw [h2, Dbl.fin_inj] at g2
      subst g1; subst g2
      exact hs.unique hn hs'

/-! ## One interface, in the global frame -/

theorem Slender.perp {P V : ℝ → V3 ℝ} {P' V' : V3 ℝ} {k a : ℝ} (h : Slender P V P' V' k a) : V3.dot (V a) V' = 0 := by
  have h1 := h.velocity.dot h.velocity
  have h2 : HasDerivAt (fun s => V3.dot (V s) (V s)) 0 a := (hasDerivAt_const a k).congr_of_eventuallyEq h.speed
  have := h1.unique h2
  simp only [V3.dot] at this ⊢; linarith

/-- One beam at one interface. -/
theorem kick_global {niter : ℕ} {w : Dbl} {d : Iface Dbl} {c : CoordSys ℝ} {n P V U : ℝ → V3 ℝ} {dt : ℝ → ℝ} {f gx gy : ℝ × ℝ → ℝ} {P' V' : V3 ℝ} {k a : ℝ}
    (meets : ∀ᶠ b in 𝓝 a, Meeting niter w d c (n b) (P b) (V b) (dt b) (U b))
    (smooth : SmoothAt d.surface f gx gy ((c.toLocal (P a + (V a).smulR (dt a))).x, (c.toLocal (P a + (V a).smulR (dt a))).y))
    (on : ∀ᶠ b in 𝓝 a, d.surface.sag (.fin (c.toLocal (P b + (V b).smulR (dt b))).x) (.fin (c.toLocal (P b + (V b).smulR (dt b))).y) =
      .fin (c.toLocal (P b + (V b).smulR (dt b))).z)
    (cont : ContinuousAt dt a) (steep : V3.dot (c.rot.tr.mulVec (V a)) (n a) ≠ 0) (h : Slender P V P' V' k a) :
    ∃ dt' U' k', HasDerivAt dt dt' a ∧ Slender (fun b => P b + (V b).smulR (dt b)) U (P' + (V'.smulR (dt a) + (V a).smulR dt')) U' k' a ∧
      Kick gx gy ((c.toLocal (P a + (V a).smulR (dt a))).x, (c.toLocal (P a + (V a).smulR (dt a))).y) k k' (c.rot.tr.mulVec (V a)) (c.rot.tr.mulVec (U a))
        (c.rot.tr.mulVec (P' + (V'.smulR (dt a) + (V a).smulR dt'))) (c.rot.tr.mulVec V') (c.rot.tr.mulVec U') := by
  have ho := meets.self_of_nhds.orth
  have hdot := fun x y => ho.tr.dot_mulVec x y
  have hl : Slender (fun b => c.toLocal (P b)) (fun b => c.rot.tr.mulVec (V b)) (c.rot.tr.mulVec P') (c.rot.tr.mulVec V') k a :=
    ⟨h.place.toLocal c, h.velocity.mulVec c.rot.tr, h.pos, h.speed.mono fun b e => by rw [hdot]; exact e⟩
  simp only [← toLocal_step] at smooth on ⊢
  have hnear : ∀ᶠ b in 𝓝 a, n b = unitNormal
      (gx ((c.toLocal (P b) + (c.rot.tr.mulVec (V b)).smulR (dt b)).x, (c.toLocal (P b) + (c.rot.tr.mulVec (V b)).smulR (dt b)).y))
      (gy ((c.toLocal (P b) + (c.rot.tr.mulVec (V b)).smulR (dt b)).x, (c.toLocal (P b) + (c.rot.tr.mulVec (V b)).smulR (dt b)).y)) := by
    have htend : Tendsto (fun b => ((c.toLocal (P b) + (c.rot.tr.mulVec (V b)).smulR (dt b)).x, (c.toLocal (P b) + (c.rot.tr.mulVec (V b)).smulR (dt b)).y))
        (𝓝 a) (𝓝 ((c.toLocal (P a) + (c.rot.tr.mulVec (V a)).smulR (dt a)).x, (c.toLocal (P a) + (c.rot.tr.mulVec (V a)).smulR (dt a)).y)) :=
      ContinuousAt.prodMk (hl.place.x.continuousAt.add (hl.velocity.x.continuousAt.mul cont)) (hl.place.y.continuousAt.add (hl.velocity.y.continuousAt.mul cont))
    filter_upwards [meets, htend.eventually smooth.normal] with b h1 h2
    have h3 := h1.normal
    rw [← toLocal_step, h2, V3.fin_inj] at h3
    exact h3.symm
  obtain ⟨dt', u', k', hdt, hs, hk⟩ := kick_local (d := d) (w := w) (u := fun b => c.rot.tr.mulVec (U b)) hl smooth on cont hnear
    (meets.mono fun b h => h.unit) (meets.mono fun b h => h.turns) steep
  have hU : D3 U (c.rot.mulVec u') a := (hs.velocity.mulVec c.rot).congr (Eventually.of_forall fun b => (ho.mulVec_tr _).symm)
  refine ⟨dt', c.rot.mulVec u', k', hdt, ⟨h.place.add (h.velocity.smulR hdt), hU, hs.pos, hs.speed.mono fun b e => by rw [← hdot]; exact e⟩, ?_⟩
  have e1 : c.rot.tr.mulVec (c.rot.mulVec u') = u' := ho.tr_mulVec _
  have e2 : c.rot.tr.mulVec (P' + (V'.smulR (dt a) + (V a).smulR dt')) =
      c.rot.tr.mulVec P' + ((c.rot.tr.mulVec V').smulR (dt a) + (c.rot.tr.mulVec (V a)).smulR dt') := by
    rw [M3.mulVec_add, M3.mulVec_add, M3.mulVec_smulR, M3.mulVec_smulR]
  rw [e1, e2]
  exact hk

/-- Two beams at one interface. -/
theorem cross_twin {niter : ℕ} {w : Dbl} {d : Iface Dbl} {c : CoordSys ℝ} {n₁ P₁ V₁ U₁ n₂ P₂ V₂ U₂ : ℝ → V3 ℝ} {dt₁ dt₂ : ℝ → ℝ} {a k : ℝ}
    {P₁' V₁' P₂' V₂' : V3 ℝ}
    (meets₁ : ∀ᶠ b in 𝓝 a, Meeting niter w d c (n₁ b) (P₁ b) (V₁ b) (dt₁ b) (U₁ b))
    (meets₂ : ∀ᶠ b in 𝓝 a, Meeting niter w d c (n₂ b) (P₂ b) (V₂ b) (dt₂ b) (U₂ b))
    (regular : ∀ᶠ q in 𝓝 ((c.toLocal (P₁ a + (V₁ a).smulR (dt₁ a))).x, (c.toLocal (P₁ a + (V₁ a).smulR (dt₁ a))).y),
      ∃ f gx gy, SmoothAt d.surface f gx gy q)
    (on₁ : ∀ᶠ b in 𝓝 a, d.surface.sag (.fin (c.toLocal (P₁ b + (V₁ b).smulR (dt₁ b))).x) (.fin (c.toLocal (P₁ b + (V₁ b).smulR (dt₁ b))).y) =
      .fin (c.toLocal (P₁ b + (V₁ b).smulR (dt₁ b))).z)
    (on₂ : ∀ᶠ b in 𝓝 a, d.surface.sag (.fin (c.toLocal (P₂ b + (V₂ b).smulR (dt₂ b))).x) (.fin (c.toLocal (P₂ b + (V₂ b).smulR (dt₂ b))).y) =
      .fin (c.toLocal (P₂ b + (V₂ b).smulR (dt₂ b))).z)
    (cont₁ : ContinuousAt dt₁ a) (cont₂ : ContinuousAt dt₂ a) (steep : V3.dot (c.rot.tr.mulVec (V₁ a)) (n₁ a) ≠ 0)
    (hP : P₁ a = P₂ a) (hV : V₁ a = V₂ a) (h₁ : Slender P₁ V₁ P₁' V₁' k a) (h₂ : Slender P₂ V₂ P₂' V₂' k a) :
    P₁ a + (V₁ a).smulR (dt₁ a) = P₂ a + (V₂ a).smulR (dt₂ a) ∧ U₁ a = U₂ a ∧
      ∃ Q₁' U₁' Q₂' U₂' k', Slender (fun b => P₁ b + (V₁ b).smulR (dt₁ b)) U₁ Q₁' U₁' k' a ∧
        Slender (fun b => P₂ b + (V₂ b).smulR (dt₂ b)) U₂ Q₂' U₂' k' a ∧ lagrange k' Q₁' U₁' Q₂' U₂' = lagrange k P₁' V₁' P₂' V₂' := by
  have m₁ := meets₁.self_of_nhds
  have m₂ := meets₂.self_of_nhds
  have ho := m₁.orth
  have hdt : dt₁ a = dt₂ a := by
    have := m₁.meets
    rw [hP, hV, m₂.meets] at this
    simpa using this.symm
  have hn : n₁ a = n₂ a := by
    have := m₁.normal
    rw [hP, hV, hdt, m₂.normal, V3.fin_inj] at this
    exact this.symm
  have hu : U₁ a = U₂ a := by
    have h1 := m₁.turns
    rw [hV, hn] at h1
    have := Turns.unique m₂.unit h1 m₂.turns
    have h2 := congrArg c.rot.mulVec this
    rwa [ho.mulVec_tr, ho.mulVec_tr] at h2
  obtain ⟨f, gx, gy, smooth⟩ := regular.self_of_nhds
  have smooth₂ := smooth
  rw [hP, hV, hdt] at smooth₂
  have steep₂ := steep
  rw [hV, hn] at steep₂
  obtain ⟨dt₁', U₁', k₁', hd₁, s₁, kk₁⟩ := kick_global meets₁ smooth on₁ cont₁ steep h₁
  obtain ⟨dt₂', U₂', k₂', hd₂, s₂, kk₂⟩ := kick_global meets₂ smooth₂ on₂ cont₂ steep₂ h₂
  have hk : k₂' = k₁' := by rw [← s₁.speed.self_of_nhds, ← s₂.speed.self_of_nhds, hu]
  subst hk
  refine ⟨by rw [hP, hV, hdt], hu, _, _, _, _, _, s₁, s₂, ?_⟩
  rw [← hP, ← hV, ← hdt, ← hu] at kk₂
  have hdot := fun x y => ho.tr.dot_mulVec x y
  have hp := kick_pair kk₁ kk₂ (by simpa using hess_symm smooth regular (_, _) (_, _))
  unfold lagrange at hp ⊢
  rw [hdot, hdot, hdot, hdot] at hp
  rw [← hV, ← hdt, hp]
  have p₁ := h₁.perp
  have p₂ := h₂.perp
  rw [← hV] at p₂
  congr 1
  have e₁ : V3.dot V₁' (P₂' + (V₂'.smulR (dt₁ a) + (V₁ a).smulR dt₂')) = V3.dot V₁' P₂' + V3.dot V₁' V₂' * dt₁ a + V3.dot (V₁ a) V₁' * dt₂' := by
    simp [V3.dot]; ring
  have e₂ : V3.dot V₂' (P₁' + (V₁'.smulR (dt₁ a) + (V₁ a).smulR dt₁')) = V3.dot V₂' P₁' + V3.dot V₁' V₂' * dt₁ a + V3.dot (V₁ a) V₂' * dt₁' := by
    simp [V3.dot]; ring
  rw [e₁, e₂, p₁, p₂]; ring

/-! ## C105 -/

theorem Slender.uniq {P V : ℝ → V3 ℝ} {P' V' P'' V'' : V3 ℝ} {k k' a : ℝ} (h : Slender P V P' V' k a) (h' : Slender P V P'' V'' k' a) :
    P' = P'' ∧ V' = V'' ∧ k = k' :=
  ⟨h.place.unique h'.place, h.velocity.unique h'.velocity, h.speed.self_of_nhds.symm.trans h'.speed.self_of_nhds⟩

/-- After an optic beams have a common ray and the invariants of the beams before, which had the derivatives `P'` and `V'` and the squared speed `k`. -/
structure Conserved {ι : Type} (a0 : ℝ) (Q W : ι → ℝ → V3 ℝ) (P' V' : ι → V3 ℝ) (k : ℝ) : Prop where
  together : ∀ i j, Q i a0 = Q j a0 ∧ W i a0 = W j a0
  form : ∃ (Q' W' : ι → V3 ℝ) (k' : ℝ), (∀ i, Slender (Q i) (W i) (Q' i) (W' i) k' a0) ∧
    ∀ i j, lagrange k' (Q' i) (W' i) (Q' j) (W' j) = lagrange k (P' i) (V' i) (P' j) (V' j)

theorem cross_pencil {ι : Type} [Nonempty ι] {niter : ℕ} {w : Dbl} {d : Iface Dbl} {c : CoordSys ℝ} {n P V U : ι → ℝ → V3 ℝ} {dt : ι → ℝ → ℝ} {a0 k : ℝ}
    {P' V' : ι → V3 ℝ}
    (meets : ∀ i, ∀ᶠ a in 𝓝 a0, Meeting niter w d c (n i a) (P i a) (V i a) (dt i a) (U i a))
    (regular : ∀ i, ∀ᶠ q in 𝓝 ((c.toLocal (P i a0 + (V i a0).smulR (dt i a0))).x, (c.toLocal (P i a0 + (V i a0).smulR (dt i a0))).y),
      ∃ f gx gy, SmoothAt d.surface f gx gy q)
    (on : ∀ i, ∀ᶠ a in 𝓝 a0, d.surface.sag (.fin (c.toLocal (P i a + (V i a).smulR (dt i a))).x) (.fin (c.toLocal (P i a + (V i a).smulR (dt i a))).y) =
      .fin (c.toLocal (P i a + (V i a).smulR (dt i a))).z)
    (cont : ∀ i, ContinuousAt (dt i) a0) (steep : ∀ i, V3.dot (c.rot.tr.mulVec (V i a0)) (n i a0) ≠ 0)
    (hc : ∀ i j, P i a0 = P j a0 ∧ V i a0 = V j a0) (hs : ∀ i, Slender (P i) (V i) (P' i) (V' i) k a0) :
    Conserved a0 (fun i a => P i a + (V i a).smulR (dt i a)) U P' V' k := by
  have step := fun i j => cross_twin (meets i) (meets j) (regular i) (on i) (on j) (cont i) (cont j) (steep i) (hc i j).1 (hc i j).2 (hs i) (hs j)
  refine ⟨fun i j => ⟨(step i j).1, (step i j).2.1⟩, ?_⟩
  have own : ∀ i, ∃ Q' U' k', Slender (fun a => P i a + (V i a).smulR (dt i a)) (U i) Q' U' k' a0 := fun i => by
    obtain ⟨-, -, A, B, -, -, k', h, -⟩ := step i i
    exact ⟨A, B, k', h⟩
  choose Q' U' k' hQ using own
  obtain ⟨i0⟩ := ‹Nonempty ι›
  have hk : ∀ i, k' i = k' i0 := fun i => by
    rw [← (hQ i).speed.self_of_nhds, ← (hQ i0).speed.self_of_nhds, (step i i0).2.1]
  refine ⟨Q', U', k' i0, fun i => hk i ▸ hQ i, fun i j => ?_⟩
  obtain ⟨-, -, A, B, C, D, k'', h1, h2, h3⟩ := step i j
  obtain ⟨e1, e2, e3⟩ := (hQ i).uniq h1
  obtain ⟨e4, e5, -⟩ := (hQ j).uniq h2
  rw [e1, e2, e4, e5, ← hk i, e3]
  exact h3

theorem pencil_form {ι : Type} [Nonempty ι] {niter : ℕ} {w : Dbl} {a0 : ℝ} {Q W : ι → ℝ → V3 ℝ} {ds : List (Iface Dbl)} {P V : ι → ℝ → V3 ℝ}
    (h : Pencil niter w a0 Q W ds P V) : ∀ {P' V' : ι → V3 ℝ} {k : ℝ}, (∀ i j, P i a0 = P j a0 ∧ V i a0 = V j a0) →
      (∀ i, Slender (P i) (V i) (P' i) (V' i) k a0) → Conserved a0 Q W P' V' k := by
  induction h with
  | done => intro P' V' k hc hs; exact ⟨hc, P', V', k, hs, fun _ _ => rfl⟩
  | cross meets regular on cont steep _ ih =>
    intro P' V' k hc hs
    obtain ⟨h1, Q', U', k', h2, h3⟩ := cross_pencil meets regular on cont steep hc hs
    obtain ⟨h4, Q'', W', k'', h5, h6⟩ := ih h1 h2
    exact ⟨h4, Q'', W', k'', h5, fun i j => (h6 i j).trans (h3 i j)⟩

theorem pencil_light {ι : Type} {niter : ℕ} {w : Dbl} {a0 : ℝ} {Q W : ι → ℝ → V3 ℝ} {ds : List (Iface Dbl)} {P V : ι → ℝ → V3 ℝ}
    (h : Pencil niter w a0 Q W ds P V) (m : ι) : ∀ᶠ a in 𝓝 a0, ∀ (rv : RayVec Dbl) (i : ℕ) (t : ℝ) (b : Bool), LightAt rv i (P m a) (V m a) t w b →
      ∃ t' b', LightAt (ds.foldl (fun rv d => d.trace niter false rv) rv) i (Q m a) (W m a) t' w b' := by
  induction h with
  | done => exact Eventually.of_forall fun a rv i t b h => ⟨t, b, h⟩
  | cross meets _ _ _ _ _ ih =>
    filter_upwards [meets m, ih] with a h1 h2 rv i t b hin
    exact h2 _ i _ _ (cross_forward h1 hin)

/-- C105: beams with a common ray go through an optic.  The beams that `trace` returns change smoothly, are equally fast and have a common ray, and the invariant of any
two of them is that of the two before. -/
theorem C105_invariant {ι : Type} [Nonempty ι] {o : Optic Dbl} {niter : ℕ} {w : Dbl} {a0 k : ℝ} {P V Q W : ι → ℝ → V3 ℝ} {P' V' : ι → V3 ℝ}
    (h : Pencil niter w a0 Q W (visits o) P V) (hc : ∀ i j, P i a0 = P j a0 ∧ V i a0 = V j a0)
    (hs : ∀ i, Slender (P i) (V i) (P' i) (V' i) k a0) {rv : ι → ℝ → RayVec Dbl} {m : ι → ℕ} {t : ι → ℝ → ℝ} {b : ι → ℝ → Bool}
    (hin : ∀ i, ∀ᶠ a in 𝓝 a0, LightAt (rv i a) (m i) (P i a) (V i a) (t i a) w (b i a)) :
    (∀ i, ∀ᶠ a in 𝓝 a0, ∃ t' b', LightAt (o.trace niter false (rv i a)) (m i) (Q i a) (W i a) t' w b') ∧ Conserved a0 Q W P' V' k := by
  refine ⟨fun i => ?_, pencil_form h hc hs⟩
  filter_upwards [pencil_light h i, hin i] with a g1 g2
  rw [trace_visits]
  exact g1 _ (m i) _ _ g2

/-- C105: the étendue of four beams is kept. -/
theorem C105_etendue {a0 k : ℝ} {Q W : Fin 4 → ℝ → V3 ℝ} {P' V' Q' W' : Fin 4 → V3 ℝ} {k' : ℝ} (h : Conserved a0 Q W P' V' k)
    (hs : ∀ i, Slender (Q i) (W i) (Q' i) (W' i) k' a0) : etendue k' Q' W' = etendue k P' V' := by
  obtain ⟨A, B, k'', h1, h2⟩ := h.form
  have e1 : A = Q' := funext fun i => ((h1 i).uniq (hs i)).1
  have e2 : B = W' := funext fun i => ((h1 i).uniq (hs i)).2.1
  have e3 : k'' = k' := ((h1 0).uniq (hs 0)).2.2
  subst e1; subst e2; subst e3
  unfold etendue
  simp only [h2]

/-- C105: the law of Abbe, Lagrange and Helmholtz.  Where one beam comes from a point and comes together in a point, the spread of its directions times the distance
to the image of a neighbouring point is what it was at the object. -/
theorem C105_image {ι : Type} {a0 k k' : ℝ} {Q W : ι → ℝ → V3 ℝ} {P' V' Q' W' : ι → V3 ℝ} {i j : ι} (h : Conserved a0 Q W P' V' k)
    (hi : Slender (Q i) (W i) (Q' i) (W' i) k' a0) (hj : Slender (Q j) (W j) (Q' j) (W' j) k' a0) (object : P' i = ⟨0, 0, 0⟩) (image : Q' i = ⟨0, 0, 0⟩) :
    V3.dot (W' i) (Q' j) / k' = V3.dot (V' i) (P' j) / k := by
  obtain ⟨A, B, k'', h1, h2⟩ := h.form
  obtain ⟨e1, e2, e3⟩ := (h1 i).uniq hi
  obtain ⟨e4, e5, -⟩ := (h1 j).uniq hj
  have := h2 i j
  rw [e1, e2, e3, e4, e5, object, image] at this
  simpa [lagrange, V3.dot] using this

/-! ## One clean ray -/

theorem smooth_quadric_near {R k : ℝ} (hR : R ≠ 0) {q : ℝ × ℝ} (hq : q ∈ quadricDomain R k) :
    ∀ᶠ p in 𝓝 q, ∃ f gx gy, SmoothAt (quadric (Dbl.fin R) (Dbl.fin k)) f gx gy p := by
  filter_upwards [(quadricDomain_open R k).mem_nhds hq] with p hp
  exact C98_smooth_quadric hR hp

theorem smooth_sphere_near {R : ℝ} (hR : R ≠ 0) {q : ℝ × ℝ} (hq : q.1 * q.1 + q.2 * q.2 < R * R) :
    ∀ᶠ p in 𝓝 q, ∃ f gx gy, SmoothAt (sphere (Dbl.fin R)) f gx gy p := by
  have hop : IsOpen {p : ℝ × ℝ | p.1 * p.1 + p.2 * p.2 < R * R} := by simpa using isOpen_radial 1 (R * R)
  filter_upwards [hop.mem_nhds hq] with p hp
  exact C98_smooth_sphere hR hp

/-- A surface that is met cleanly is smooth near the place. -/
theorem clean_regular {s : Surface Dbl} {p v : V3 ℝ} {d : ℝ} (h : Clean s p v d) :
    ∀ᶠ q in 𝓝 ((p + v.smulR d).x, (p + v.smulR d).y), ∃ f gx gy, SmoothAt s f gx gy q := by
  rw [← pointAt_eq]
  cases h with
  | plane => exact Eventually.of_forall C98_smooth_plane
  | paraboloid hR => exact Eventually.of_forall (C98_smooth_paraboloid hR)
  | @sphere R hR _ _ _ off near side =>
    obtain ⟨h1, -⟩ := conic_side hR ((onSphere_conic _).1 near.1) (by rw [one_mul]; exact side)
    have hRR : 0 < R * R := mul_self_pos.2 hR
    refine smooth_sphere_near hR ?_
    have e : 1 - ((pointAt p v d).x * (pointAt p v d).x + (pointAt p v d).y * (pointAt p v d).y) * (1 / R / R) =
      (R * R - ((pointAt p v d).x * (pointAt p v d).x + (pointAt p v d).y * (pointAt p v d).y)) / (R * R) := by field_simp
    rw [e] at h1
    have := (div_pos_iff_of_pos_right hRR).1 h1
    linarith
  | @quadric R k hR hk _ _ _ off near oblique side =>
    obtain ⟨h1, -⟩ := conic_side hR ((onQuadric_conic _).1 near.1) side
    have hRR : 0 < R * R := mul_self_pos.2 hR
    refine smooth_quadric_near hR ?_
    have e : 1 - ((pointAt p v d).x * (pointAt p v d).x + (pointAt p v d).y * (pointAt p v d).y) * ((k + 1) / R / R) =
      (R * R - (1 + k) * ((pointAt p v d).x * (pointAt p v d).x + (pointAt p v d).y * (pointAt p v d).y)) / (R * R) := by field_simp; ring
    rw [e] at h1
    have := (div_pos_iff_of_pos_right hRR).1 h1
    simp only [quadricDomain, Set.mem_setOf_eq]; linarith

/-- The rays beside one that meets an interface cleanly. -/
theorem chief_step {niter : ℕ} {w : Dbl} {d : Iface Dbl} {c : CoordSys ℝ} {n0 U0 : V3 ℝ} {dt0 : ℝ} {P V : ℝ → V3 ℝ} {P' V' : V3 ℝ} {k a0 : ℝ}
    (meets : Meeting niter w d c n0 (P a0) (V a0) dt0 U0) (clean : Clean d.surface (c.toLocal (P a0)) (c.rot.tr.mulVec (V a0)) dt0)
    (steep : V3.dot (c.rot.tr.mulVec (V a0)) n0 ≠ 0) (h : Slender P V P' V' k a0) :
    ∃ (n U : ℝ → V3 ℝ) (τ : ℝ → ℝ), (∀ᶠ b in 𝓝 a0, Meeting niter w d c (n b) (P b) (V b) (τ b) (U b)) ∧
      (∀ᶠ b in 𝓝 a0, d.surface.sag (.fin (c.toLocal (P b + (V b).smulR (τ b))).x) (.fin (c.toLocal (P b + (V b).smulR (τ b))).y) =
        .fin (c.toLocal (P b + (V b).smulR (τ b))).z) ∧ ContinuousAt τ a0 ∧ τ a0 = dt0 ∧ n a0 = n0 ∧ U a0 = U0 := by
  obtain ⟨hP, hV, hk0, hk⟩ := h
  have hp := hP.toLocal c
  have hv := hV.mulVec c.rot.tr
  have ho := meets.orth
  have hnormal := meets.normal
  rw [← toLocal_step] at hnormal
  obtain ⟨f, gx, gy, τ, hs, ha, hτ, hev⟩ := clean_near hp hv clean meets.meets hnormal steep
  have htend : Tendsto (fun b => ((c.toLocal (P b) + (c.rot.tr.mulVec (V b)).smulR (τ b)).x, (c.toLocal (P b) + (c.rot.tr.mulVec (V b)).smulR (τ b)).y))
      (𝓝 a0) (𝓝 ((c.toLocal (P a0) + (c.rot.tr.mulVec (V a0)).smulR (τ a0)).x, (c.toLocal (P a0) + (c.rot.tr.mulVec (V a0)).smulR (τ a0)).y)) :=
    ContinuousAt.prodMk (hp.x.continuousAt.add (hv.x.continuousAt.mul hτ)) (hp.y.continuousAt.add (hv.y.continuousAt.mul hτ))
  rw [← ha] at hs hnormal
  have hnn := htend.eventually hs.normal
  have hn0 : n0 = unitNormal (gx ((c.toLocal (P a0) + (c.rot.tr.mulVec (V a0)).smulR (τ a0)).x, (c.toLocal (P a0) + (c.rot.tr.mulVec (V a0)).smulR (τ a0)).y))
      (gy ((c.toLocal (P a0) + (c.rot.tr.mulVec (V a0)).smulR (τ a0)).x, (c.toLocal (P a0) + (c.rot.tr.mulVec (V a0)).smulR (τ a0)).y)) := by
    have := hnn.self_of_nhds
    rw [hnormal, V3.fin_inj] at this
    exact this
  obtain ⟨dt', q', n', hdt, hq, hqn, hn'⟩ := meet_smooth hp hv hs (hev.mono fun b h => h.2) hτ hn0 steep
  have hturn := meets.turns
  rw [hn0] at hturn
  obtain ⟨u, hu0, hu⟩ := turn_near hn' hv (Eventually.of_forall fun b => unitNormal_unit _ _)
    (hk.mono fun b h => by rw [ho.tr.dot_mulVec]; exact h) hturn
  refine ⟨fun b => unitNormal
    (gx ((c.toLocal (P b) + (c.rot.tr.mulVec (V b)).smulR (τ b)).x, (c.toLocal (P b) + (c.rot.tr.mulVec (V b)).smulR (τ b)).y))
    (gy ((c.toLocal (P b) + (c.rot.tr.mulVec (V b)).smulR (τ b)).x, (c.toLocal (P b) + (c.rot.tr.mulVec (V b)).smulR (τ b)).y)),
    fun b => c.rot.mulVec (u b), τ, ?_, ?_, hτ, ha, hn0.symm, by simp only [hu0]; exact ho.mulVec_tr _⟩
  · filter_upwards [hev, hnn, hu] with b h1 h2 h3
    refine ⟨meets.frame, ho, h1.1, ?_, unitNormal_unit _ _, ?_⟩
    · rw [← toLocal_step]; exact h2
    · rw [ho.tr_mulVec]; exact h3
  · filter_upwards [hev] with b h1
    rw [← toLocal_step]; exact h1.2

/-- C105: the course of one ray gives the course of all beams around it. -/
theorem C105_pencil {ι : Type} [Nonempty ι] {niter : ℕ} {w : Dbl} {ds : List (Iface Dbl)} {P0 V0 : V3 ℝ} (h : Chief niter w ds P0 V0) :
    ∀ {a0 k : ℝ} {P V : ι → ℝ → V3 ℝ} {P' V' : ι → V3 ℝ}, (∀ i, P i a0 = P0) → (∀ i, V i a0 = V0) → (∀ i, Slender (P i) (V i) (P' i) (V' i) k a0) →
      ∃ Q W, Pencil niter w a0 Q W ds P V := by
  induction h with
  | done => intro a0 k P V P' V' _ _ _; exact ⟨P, V, .done⟩
  | @cross d ds c n0 P0 V0 U0 dt0 meets clean steep _ ih =>
    intro a0 k P V P' V' hP hV hs
    have step := fun i => chief_step (a0 := a0) (P := P i) (V := V i) (by rw [hP, hV]; exact meets) (by rw [hP, hV]; exact clean) (by rw [hV]; exact steep) (hs i)
    choose n U τ h1 h2 h3 h4 h5 h6 using step
    have regular : ∀ i, ∀ᶠ q in 𝓝 ((c.toLocal (P i a0 + (V i a0).smulR (τ i a0))).x, (c.toLocal (P i a0 + (V i a0).smulR (τ i a0))).y),
        ∃ f gx gy, SmoothAt d.surface f gx gy q := fun i => by
      rw [hP, hV, h4, ← toLocal_step]
      exact clean_regular clean
    have hsteep : ∀ i, V3.dot (c.rot.tr.mulVec (V i a0)) (n i a0) ≠ 0 := fun i => by rw [hV, h5]; exact steep
    obtain ⟨-, Q', W', k', h7, -⟩ := cross_pencil h1 regular h2 h3 hsteep (fun i j => ⟨by rw [hP, hP], by rw [hV, hV]⟩) hs
    obtain ⟨Q, W, hp⟩ := ih (fun i => by rw [hP, hV, h4]) h6 h7
    exact ⟨Q, W, .cross h1 regular h2 h3 hsteep hp⟩

/-- C105: through planes, paraboloids, spheres and conics it is enough that one ray meets every interface cleanly. -/
theorem C105_chief {ι : Type} [Nonempty ι] {o : Optic Dbl} {niter : ℕ} {w : Dbl} {a0 k : ℝ} {P0 V0 : V3 ℝ} (h : Chief niter w (visits o) P0 V0)
    {P V : ι → ℝ → V3 ℝ} {P' V' : ι → V3 ℝ} (hP : ∀ i, P i a0 = P0) (hV : ∀ i, V i a0 = V0) (hs : ∀ i, Slender (P i) (V i) (P' i) (V' i) k a0)
    {rv : ι → ℝ → RayVec Dbl} {m : ι → ℕ} {t : ι → ℝ → ℝ} {b : ι → ℝ → Bool}
    (hin : ∀ i, ∀ᶠ a in 𝓝 a0, LightAt (rv i a) (m i) (P i a) (V i a) (t i a) w (b i a)) :
    ∃ Q W, (∀ i, ∀ᶠ a in 𝓝 a0, ∃ t' b', LightAt (o.trace niter false (rv i a)) (m i) (Q i a) (W i a) t' w b') ∧ Conserved a0 Q W P' V' k := by
  obtain ⟨Q, W, hp⟩ := C105_pencil h hP hV hs
  exact ⟨Q, W, C105_invariant hp (fun i j => ⟨by rw [hP, hP], by rw [hV, hV]⟩) hs hin⟩

/-! ## Tilted mirrors -/

theorem tilted_meeting {tanx tany s : ℝ} (hs : 0 < s) (hss : s * s = 1 - tanx * tanx - tany * tany) (niter : ℕ) (w : Dbl) {p v : V3 ℝ} {t : ℝ}
    (hit : OnTilted tanx tany (pointAt p v t)) (hv : v.x * tanx + v.y * tany - v.z ≠ 0) :
    Meeting niter w (tiltedMirror tanx tany) ⟨⟨0, 0, 0⟩, M3.one⟩ ⟨-tanx, -tany, s⟩ p v t (mirror ⟨-tanx, -tany, s⟩ v) := by
  have hunit : IsUnit' (⟨-tanx, -tany, s⟩ : V3 ℝ) := by simp only [IsUnit', V3.dot]; linear_combination hss
  have hp : 0 < 1 - tanx * tanx - tany * tany := by rw [← hss]; positivity
  have hsag := Dbl.sqrt_fin hp.le
  rw [show Real.sqrt (1 - tanx * tanx - tany * tany) = s by rw [← hss]; exact Real.sqrt_mul_self hs.le] at hsag
  refine ⟨?_, M3.orth_one, ?_, ?_, hunit, ?_⟩
  · show (CoordSys.std ℝ).fin = _
    congr 1
  · simp only [frame_toLocal, frame_tr]
    refine C96_tilted ⟨by convert hit using 2; ext <;> simp [pointAt], fun t' h1 h2 => ?_⟩
    simp only [OnTilted, pointAt] at h1 hit
    have h3 : (t' - t) * (v.x * tanx + v.y * tany - v.z) = 0 := by linear_combination hit - h1
    exact absurd (by linarith [(mul_eq_zero.1 h3).resolve_right hv]) h2
  · simp only [tiltedMirror, tilted, Dbl.one_dbl, Dbl.mul_fin, Dbl.sub_fin, Dbl.neg_fin, hsag]
    rfl
  · simp only [frame_tr]
    unfold IsUnit' at hunit
    have e : V3.dot (mirror ⟨-tanx, -tany, s⟩ v) ⟨-tanx, -tany, s⟩ = -V3.dot v ⟨-tanx, -tany, s⟩ := by
      have : V3.dot (mirror ⟨-tanx, -tany, s⟩ v) ⟨-tanx, -tany, s⟩ = V3.dot v ⟨-tanx, -tany, s⟩ -
          2 * V3.dot v ⟨-tanx, -tany, s⟩ * V3.dot (⟨-tanx, -tany, s⟩ : V3 ℝ) ⟨-tanx, -tany, s⟩ := by simp [mirror, V3.dot]; ring
      rw [this, hunit]; ring
    refine .mirror rfl ?_ e
    unfold tangential
    rw [e]
    ext <;> simp [mirror] <;> ring

/-- C105 fails for mirrors with a `Tilted` surface: of a parallel beam and a beam from a point, both around one ray along the axis, the reflected beams have a different
invariant, because the reported normal is not the normal of the plane. -/
theorem C105_tilted_violated {tanx tany h : ℝ} (hx : tanx ≠ 0) (hq : tanx * tanx + tany * tany < 1) (niter : ℕ) (w : Dbl) :
    ∃ (n : V3 ℝ) (P V U : Bool → ℝ → V3 ℝ) (dt : Bool → ℝ → ℝ) (P' V' : Bool → V3 ℝ),
      (∀ i, ∀ᶠ b in 𝓝 0, Meeting niter w (tiltedMirror tanx tany) ⟨⟨0, 0, 0⟩, M3.one⟩ n (P i b) (V i b) (dt i b) (U i b)) ∧
      (∀ i, P i 0 = ⟨0, 0, h⟩ ∧ V i 0 = ⟨0, 0, -1⟩) ∧ (∀ i, Slender (P i) (V i) (P' i) (V' i) 1 0) ∧
      ¬ Conserved 0 (fun i b => P i b + (V i b).smulR (dt i b)) U P' V' 1 := by
  have hp : 0 < 1 - tanx * tanx - tany * tany := by linarith
  obtain ⟨s, hs, hss⟩ : ∃ s : ℝ, 0 < s ∧ s * s = 1 - tanx * tanx - tany * tany := ⟨_, Real.sqrt_pos.2 hp, Real.mul_self_sqrt hp.le⟩
  have hunit : IsUnit' (⟨-tanx, -tany, s⟩ : V3 ℝ) := by simp only [IsUnit', V3.dot]; linear_combination hss
  have hden : ∀ᶠ b : ℝ in 𝓝 0, Real.sin b * tanx + Real.cos b ≠ 0 := by
    have : ContinuousAt (fun b : ℝ => Real.sin b * tanx + Real.cos b) 0 := by fun_prop
    exact this.eventually_ne (by simp)
  have hP0 : D3 (fun b => (⟨b, 0, h⟩ : V3 ℝ)) ⟨1, 0, 0⟩ 0 := ⟨hasDerivAt_id' 0, hasDerivAt_const _ _, hasDerivAt_const _ _⟩
  have hV1 : D3 (fun b => (⟨Real.sin b, 0, -Real.cos b⟩ : V3 ℝ)) ⟨1, 0, 0⟩ 0 :=
    ⟨by simpa using Real.hasDerivAt_sin 0, hasDerivAt_const _ _, (Real.hasDerivAt_cos 0).neg.congr_deriv (by simp)⟩
  refine ⟨⟨-tanx, -tany, s⟩, fun i b => if i then ⟨0, 0, h⟩ else ⟨b, 0, h⟩, fun i b => if i then ⟨Real.sin b, 0, -Real.cos b⟩ else ⟨0, 0, -1⟩,
    fun i b => mirror ⟨-tanx, -tany, s⟩ (if i then ⟨Real.sin b, 0, -Real.cos b⟩ else ⟨0, 0, -1⟩),
    fun i b => if i then h / (Real.sin b * tanx + Real.cos b) else h - b * tanx, fun i => if i then ⟨0, 0, 0⟩ else ⟨1, 0, 0⟩,
    fun i => if i then ⟨1, 0, 0⟩ else ⟨0, 0, 0⟩, ?_, ?_, ?_, ?_⟩
  · rintro (_ | _)
    · refine Eventually.of_forall fun b => tilted_meeting hs hss niter w ?_ ?_
      · simp only [OnTilted, pointAt, Bool.false_eq_true, if_false]; ring
      · simp
    · filter_upwards [hden] with b hb
      refine tilted_meeting hs hss niter w ?_ ?_
      · simp only [OnTilted, pointAt, if_true]; field_simp; ring
      · simpa using hb
  · rintro (_ | _) <;> simp
  · rintro (_ | _)
    · exact ⟨hP0, D3.const _ _, one_pos, Eventually.of_forall fun b => by simp [V3.dot]⟩
    · refine ⟨D3.const _ _, hV1, one_pos, Eventually.of_forall fun b => ?_⟩
      simp only [if_true, V3.dot]
      linear_combination Real.sin_sq_add_cos_sq b
  · intro hc
    obtain ⟨Q', W', k', h1, h2⟩ := hc.form
    have hdt : HasDerivAt (fun b : ℝ => h - b * tanx) (-tanx) 0 := (((hasDerivAt_id' 0).mul_const tanx).const_sub h).congr_deriv (by ring)
    have hQ0 := hP0.add ((D3.const (⟨0, 0, -1⟩ : V3 ℝ) 0).smulR hdt)
    have hU0 := D3.const (mirror ⟨-tanx, -tany, s⟩ ⟨0, 0, -1⟩) 0
    have hd := hV1.dot (D3.const (⟨-tanx, -tany, s⟩ : V3 ℝ) 0)
    have hU1 : D3 (fun b => mirror ⟨-tanx, -tany, s⟩ ⟨Real.sin b, 0, -Real.cos b⟩) (mirror ⟨-tanx, -tany, s⟩ ⟨1, 0, 0⟩) 0 := by
      have := hV1.sub (D3.smul (hd.const_mul 2) (D3.const (⟨-tanx, -tany, s⟩ : V3 ℝ) 0))
      have e : (⟨1, 0, 0⟩ : V3 ℝ) - (V3.smul (2 * (V3.dot ⟨1, 0, 0⟩ ⟨-tanx, -tany, s⟩ + V3.dot ⟨Real.sin 0, 0, -Real.cos 0⟩ ⟨0, 0, 0⟩)) ⟨-tanx, -tany, s⟩ +
          V3.smul (2 * V3.dot ⟨Real.sin 0, 0, -Real.cos 0⟩ ⟨-tanx, -tany, s⟩) ⟨0, 0, 0⟩) = mirror ⟨-tanx, -tany, s⟩ ⟨1, 0, 0⟩ := by
        ext <;> simp [mirror, V3.dot]
      rw [← e]
      exact this
    have e1 : Q' false = _ := (h1 false).place.unique hQ0
    have e2 : W' false = _ := (h1 false).velocity.unique hU0
    have e3 : W' true = _ := (h1 true).velocity.unique hU1
    have e4 : k' = 1 := by
      rw [← (h1 false).speed.self_of_nhds]
      simp only [mirror_dotSelf hunit]; simp [V3.dot]
    have := h2 false true
    rw [e1, e2, e3, e4] at this
    simp [lagrange, V3.dot, mirror] at this
    have h3 : tanx * tanx * (s - 1) = 0 := by linear_combination -this / 2
    rcases mul_eq_zero.1 h3 with h4 | h4
    · exact hx (mul_self_eq_zero.1 h4)
    · have h5 : s = 1 := by linarith
      rw [h5] at hss
      have := mul_self_pos.2 hx
      nlinarith [mul_self_nonneg tany]

/-! ## Concrete cases -/

/-- Four beams around the ray of the example of C98, with étendue `-1`, come through the window, the parabolic mirror and the detector with étendue `-1`. -/
example : ∃ (P V Q W : Fin 4 → ℝ → V3 ℝ) (P' V' Q' W' : Fin 4 → V3 ℝ) (k' : ℝ), (∀ i, Slender (P i) (V i) (P' i) (V' i) 1 0) ∧
    Pencil 5 (.fin 1) 0 Q W (visits demoCamera) P V ∧ (∀ i, Slender (Q i) (W i) (Q' i) (W' i) k' 0) ∧ etendue 1 P' V' = -1 ∧ etendue k' Q' W' = -1 := by
  have hs : ∀ i, Slender ((![fun b => ⟨3 + b, 0, 20⟩, fun b => ⟨3, b, 20⟩, fun _ => ⟨3, 0, 20⟩, fun _ => ⟨3, 0, 20⟩] : Fin 4 → ℝ → V3 ℝ) i)
      ((![fun _ => ⟨0, 0, -1⟩, fun _ => ⟨0, 0, -1⟩, fun b => ⟨Real.sin b, 0, -Real.cos b⟩, fun b => ⟨0, Real.sin b, -Real.cos b⟩] : Fin 4 → ℝ → V3 ℝ) i)
      ((![⟨1, 0, 0⟩, ⟨0, 1, 0⟩, ⟨0, 0, 0⟩, ⟨0, 0, 0⟩] : Fin 4 → V3 ℝ) i) ((![⟨0, 0, 0⟩, ⟨0, 0, 0⟩, ⟨1, 0, 0⟩, ⟨0, 1, 0⟩] : Fin 4 → V3 ℝ) i) 1 0 := by
    have hsin : HasDerivAt Real.sin 1 0 := by simpa using Real.hasDerivAt_sin 0
    have hcos : HasDerivAt (fun b => -Real.cos b) 0 0 := (Real.hasDerivAt_cos 0).neg.congr_deriv (by simp)
    intro i
    fin_cases i
    · exact ⟨⟨(hasDerivAt_id' (0 : ℝ)).const_add 3, hasDerivAt_const _ _, hasDerivAt_const _ _⟩, D3.const _ _, one_pos, Eventually.of_forall fun b => by simp [V3.dot]⟩
    · exact ⟨⟨hasDerivAt_const _ _, hasDerivAt_id' (0 : ℝ), hasDerivAt_const _ _⟩, D3.const _ _, one_pos, Eventually.of_forall fun b => by simp [V3.dot]⟩
    · refine ⟨D3.const _ _, ⟨hsin, hasDerivAt_const _ _, hcos⟩, one_pos, Eventually.of_forall fun b => ?_⟩
      simp [V3.dot]; linear_combination Real.sin_sq_add_cos_sq b
    · refine ⟨D3.const _ _, ⟨hasDerivAt_const _ _, hsin, hcos⟩, one_pos, Eventually.of_forall fun b => ?_⟩
      simp [V3.dot]; linear_combination Real.sin_sq_add_cos_sq b
  have hP : ∀ i, (![fun b => ⟨3 + b, 0, 20⟩, fun b => ⟨3, b, 20⟩, fun _ => ⟨3, 0, 20⟩, fun _ => ⟨3, 0, 20⟩] : Fin 4 → ℝ → V3 ℝ) i 0 = ⟨3, 0, 20⟩ := by
    intro i; fin_cases i <;> simp
  have hV : ∀ i, (![fun _ => ⟨0, 0, -1⟩, fun _ => ⟨0, 0, -1⟩, fun b => ⟨Real.sin b, 0, -Real.cos b⟩, fun b => ⟨0, Real.sin b, -Real.cos b⟩] :
      Fin 4 → ℝ → V3 ℝ) i 0 = ⟨0, 0, -1⟩ := by
    intro i; fin_cases i <;> simp
  obtain ⟨Q, W, hp⟩ := C105_pencil demoCamera_chief hP hV hs
  have hc := pencil_form hp (fun i j => ⟨by rw [hP, hP], by rw [hV, hV]⟩) hs
  obtain ⟨Q', W', k', h1, -⟩ := hc.form
  have he : etendue 1 (![⟨1, 0, 0⟩, ⟨0, 1, 0⟩, ⟨0, 0, 0⟩, ⟨0, 0, 0⟩] : Fin 4 → V3 ℝ) (![⟨0, 0, 0⟩, ⟨0, 0, 0⟩, ⟨1, 0, 0⟩, ⟨0, 1, 0⟩] : Fin 4 → V3 ℝ) = -1 := by
    simp [etendue, lagrange, V3.dot]
  exact ⟨_, _, Q, W, _, _, Q', W', k', hs, hp, h1, he, (C105_etendue hc h1).trans he⟩

/-- A mirror for `C105_tilted_violated`. -/
example : (3 / 5 : ℝ) ≠ 0 ∧ (3 / 5 : ℝ) * (3 / 5) + 0 * 0 < 1 := by norm_num

end Batoid.Props
