import Verif.Props.Reversal
import Verif.Props.Normals
import Verif.Props.Polynomial
import Mathlib.Analysis.Calculus.Deriv.Prod
import Mathlib.Analysis.Calculus.Deriv.Comp
import Mathlib.Analysis.Calculus.MeanValue
import Mathlib.Analysis.SpecialFunctions.Sqrt

/-!
# Property C98: rays stay perpendicular to their wavefronts

A beam whose rays are perpendicular to the surfaces of equal time (a parallel beam, light from a point source) keeps this property through any
number of mirrors, lenses, baffles and detectors (theorem of Malus and Dupin).  Since it is enough to look at curves
of rays, a beam is a one-parameter family `P a, V a, t a`.
-/

namespace Batoid.Props
open Batoid Batoid.Surface Filter Topology

/-! ## Specification -/

/-- Derivative of a curve in space. -/
structure D3 (f : ℝ → V3 ℝ) (f' : V3 ℝ) (a : ℝ) : Prop where
  x : HasDerivAt (fun s => (f s).x) f'.x a
  y : HasDerivAt (fun s => (f s).y) f'.y a
  z : HasDerivAt (fun s => (f s).z) f'.z a

/-- The rays of the family change smoothly at `a`, are equally fast, and at every time `T` the curve of their positions is perpendicular to the ray. -/
structure Wavefront (P V : ℝ → V3 ℝ) (t : ℝ → ℝ) (a : ℝ) : Prop where
  smoothP : ∃ P', D3 P P' a
  smoothV : ∃ V', D3 V V' a
  smoothT : ∃ t', HasDerivAt t t' a
  speed : ∃ k, 0 < k ∧ ∀ᶠ s in 𝓝 a, V3.dot (V s) (V s) = k
  perp : ∀ T X', D3 (fun s => P s + (V s).smulR (T - t s)) X' a → V3.dot (V a) X' = 0

/-- Near `q` the sag of the surface is `f`, its slopes are `gx` and `gy`, the reported normal is the normal of the sag and changes smoothly. -/
structure SmoothAt (s : Surface Dbl) (f gx gy : ℝ × ℝ → ℝ) (q : ℝ × ℝ) : Prop where
  sag : ∀ᶠ p in 𝓝 q, s.sag (.fin p.1) (.fin p.2) = .fin (f p)
  normal : ∀ᶠ p in 𝓝 q, s.normal (.fin p.1) (.fin p.2) = (unitNormal (gx p) (gy p)).fin
  slopes : HasFDerivAt f (gx q • ContinuousLinearMap.fst ℝ ℝ ℝ + gy q • ContinuousLinearMap.snd ℝ ℝ ℝ) q
  bendx : DifferentiableAt ℝ gx q
  bendy : DifferentiableAt ℝ gy q

/-- The course of a beam through interfaces.  Near `a0` every ray meets the interface on its surface, the meeting point
moves continuously, and the light does not graze the surface. -/
inductive Beam (niter : ℕ) (w : Dbl) (a0 : ℝ) (P' V' : ℝ → V3 ℝ) (t' : ℝ → ℝ) :
    List (Iface Dbl) → (ℝ → V3 ℝ) → (ℝ → V3 ℝ) → (ℝ → ℝ) → Prop
  | done : Beam niter w a0 P' V' t' [] P' V' t'
  | cross {d : Iface Dbl} {ds : List (Iface Dbl)} {c : CoordSys ℝ} {n P V U : ℝ → V3 ℝ} {t dt : ℝ → ℝ} {f gx gy : ℝ × ℝ → ℝ}
      (meets : ∀ᶠ a in 𝓝 a0, Meeting niter w d c (n a) (P a) (V a) (dt a) (U a))
      (smooth : SmoothAt d.surface f gx gy ((c.toLocal (P a0 + (V a0).smulR (dt a0))).x, (c.toLocal (P a0 + (V a0).smulR (dt a0))).y))
      (on : ∀ᶠ a in 𝓝 a0, d.surface.sag (.fin (c.toLocal (P a + (V a).smulR (dt a))).x) (.fin (c.toLocal (P a + (V a).smulR (dt a))).y) =
        .fin (c.toLocal (P a + (V a).smulR (dt a))).z)
      (cont : ContinuousAt dt a0)
      (steep : V3.dot (c.rot.tr.mulVec (V a0)) (n a0) ≠ 0)
      (rest : Beam niter w a0 P' V' t' ds (fun a => P a + (V a).smulR (dt a)) U (fun a => t a + dt a)) :
      Beam niter w a0 P' V' t' (d :: ds) P V t

/-! ## Curves -/

namespace D3
variable {f g : ℝ → V3 ℝ} {f' g' : V3 ℝ} {a : ℝ}

theorem unique {f'' : V3 ℝ} (h : D3 f f' a) (h' : D3 f f'' a) : f' = f'' :=
  V3.ext (h.x.unique h'.x) (h.y.unique h'.y) (h.z.unique h'.z)

theorem const (v : V3 ℝ) (a : ℝ) : D3 (fun _ => v) ⟨0, 0, 0⟩ a :=
  ⟨hasDerivAt_const _ _, hasDerivAt_const _ _, hasDerivAt_const _ _⟩

theorem add (h : D3 f f' a) (h' : D3 g g' a) : D3 (fun s => f s + g s) (f' + g') a :=
  ⟨h.x.add h'.x, h.y.add h'.y, h.z.add h'.z⟩

theorem sub (h : D3 f f' a) (h' : D3 g g' a) : D3 (fun s => f s - g s) (f' - g') a :=
  ⟨h.x.sub h'.x, h.y.sub h'.y, h.z.sub h'.z⟩

theorem smulR {t : ℝ → ℝ} {t' : ℝ} (h : D3 f f' a) (ht : HasDerivAt t t' a) :
    D3 (fun s => (f s).smulR (t s)) (f'.smulR (t a) + (f a).smulR t') a :=
  ⟨h.x.mul ht, h.y.mul ht, h.z.mul ht⟩

theorem smul {t : ℝ → ℝ} {t' : ℝ} (ht : HasDerivAt t t' a) (h : D3 f f' a) :
    D3 (fun s => V3.smul (t s) (f s)) (V3.smul t' (f a) + V3.smul (t a) f') a :=
  ⟨ht.mul h.x, ht.mul h.y, ht.mul h.z⟩

theorem dot (h : D3 f f' a) (h' : D3 g g' a) : HasDerivAt (fun s => V3.dot (f s) (g s)) (V3.dot f' (g a) + V3.dot (f a) g') a := by
  refine (((h.x.mul h'.x).add (h.y.mul h'.y)).add (h.z.mul h'.z)).congr_deriv ?_
  simp only [V3.dot]; ring

theorem cross (h : D3 f f' a) (h' : D3 g g' a) : D3 (fun s => V3.cross (f s) (g s)) (V3.cross f' (g a) + V3.cross (f a) g') a := by
  refine ⟨?_, ?_, ?_⟩
  · refine ((h.y.mul h'.z).sub (h.z.mul h'.y)).congr_deriv ?_
    simp only [V3.cross_x, V3.add_x]; ring
  · refine ((h.z.mul h'.x).sub (h.x.mul h'.z)).congr_deriv ?_
    simp only [V3.cross_y, V3.add_y]; ring
  · refine ((h.x.mul h'.y).sub (h.y.mul h'.x)).congr_deriv ?_
    simp only [V3.cross_z, V3.add_z]; ring

theorem mulVec (m : M3 ℝ) (h : D3 f f' a) : D3 (fun s => m.mulVec (f s)) (m.mulVec f') a :=
  ⟨((h.x.const_mul _).add (h.y.const_mul _)).add (h.z.const_mul _), ((h.x.const_mul _).add (h.y.const_mul _)).add (h.z.const_mul _),
    ((h.x.const_mul _).add (h.y.const_mul _)).add (h.z.const_mul _)⟩

theorem congr (h : D3 f f' a) (he : ∀ᶠ s in 𝓝 a, g s = f s) : D3 g f' a :=
  ⟨h.x.congr_of_eventuallyEq (he.mono fun s e => by simp only [e]), h.y.congr_of_eventuallyEq (he.mono fun s e => by simp only [e]),
    h.z.congr_of_eventuallyEq (he.mono fun s e => by simp only [e])⟩

end D3

/-- A differentiable equation `G (a, τ a) = 0` with `∂G/∂τ ≠ 0` makes a continuous solution differentiable. -/
theorem implicit_deriv {G : ℝ × ℝ → ℝ} {A B a : ℝ} {τ : ℝ → ℝ}
    (hG : HasFDerivAt G (A • ContinuousLinearMap.fst ℝ ℝ ℝ + B • ContinuousLinearMap.snd ℝ ℝ ℝ) (a, τ a)) (hB : B ≠ 0)
    (hτ : ContinuousAt τ a) (h0 : ∀ᶠ s in 𝓝 a, G (s, τ s) = 0) : HasDerivAt τ (-A / B) a := by
  have hlim : Tendsto (fun s => (s, τ s)) (𝓝 a) (𝓝 (a, τ a)) := continuousAt_id.prodMk hτ
  have ho := hG.isLittleO.comp_tendsto hlim
  -- the linear part is small
  have h1 : (fun s => A * (s - a) + B * (τ s - τ a)) =o[𝓝 a] fun s => (s - a, τ s - τ a) := by
    have h : (fun s => -(A * (s - a) + B * (τ s - τ a))) =o[𝓝 a] fun s => (s - a, τ s - τ a) := by
      refine ho.congr' ?_ (Eventually.of_forall fun s => rfl)
      filter_upwards [h0] with s hs
      simp [hs, h0.self_of_nhds]
    exact h.neg_left.congr_left fun s => by ring
  have hBpos : 0 < |B| := abs_pos.2 hB
  -- the solution moves at most proportionally
  have h2 : (fun s => τ s - τ a) =O[𝓝 a] fun s => s - a := by
    rw [Asymptotics.isBigO_iff]
    refine ⟨(2 * |A| + |B|) / |B|, ?_⟩
    filter_upwards [h1.bound (half_pos hBpos)] with s hs
    rw [Prod.norm_mk, Real.norm_eq_abs, Real.norm_eq_abs, Real.norm_eq_abs] at hs
    rw [Real.norm_eq_abs, Real.norm_eq_abs, div_mul_eq_mul_div, le_div_iff₀ hBpos]
    have hm : max |s - a| |τ s - τ a| ≤ |s - a| + |τ s - τ a| := max_le (by linarith [abs_nonneg (τ s - τ a)]) (by linarith [abs_nonneg (s - a)])
    have h3 : |B * (τ s - τ a)| ≤ |A * (s - a) + B * (τ s - τ a)| + |A * (s - a)| := by
      have := abs_sub_abs_le_abs_sub (B * (τ s - τ a)) (-(A * (s - a)))
      rw [abs_neg] at this
      have e : B * (τ s - τ a) - -(A * (s - a)) = A * (s - a) + B * (τ s - τ a) := by ring
      rw [e] at this; linarith
    rw [abs_mul, abs_mul] at h3
    have h4 : |B| / 2 * max |s - a| |τ s - τ a| ≤ |B| / 2 * (|s - a| + |τ s - τ a|) := by gcongr
    nlinarith [abs_nonneg (s - a), abs_nonneg (τ s - τ a)]
  have h3 : (fun s => (s - a, τ s - τ a)) =O[𝓝 a] fun s => s - a := (Asymptotics.isBigO_refl _ _).prod_left h2
  have h4 := h1.trans_isBigO h3
  rw [hasDerivAt_iff_isLittleO]
  refine (h4.const_mul_left (1 / B)).congr_left fun s => ?_
  simp only [smul_eq_mul]
  field_simp
  ring

/-! ## One interface, in its own frame -/

theorem wave_iff {P V : ℝ → V3 ℝ} {t : ℝ → ℝ} {a k t' : ℝ} {P' V' : V3 ℝ} (hP : D3 P P' a) (hV : D3 V V' a) (ht : HasDerivAt t t' a)
    (hk : ∀ᶠ s in 𝓝 a, V3.dot (V s) (V s) = k) :
    (∀ T X', D3 (fun s => P s + (V s).smulR (T - t s)) X' a → V3.dot (V a) X' = 0) ↔ V3.dot (V a) P' = k * t' := by
  have hVV : V3.dot (V a) V' = 0 := by
    have h1 := hV.dot hV
    have h2 : HasDerivAt (fun s => V3.dot (V s) (V s)) 0 a := (hasDerivAt_const a k).congr_of_eventuallyEq hk
    have := h1.unique h2
    simp only [V3.dot] at this ⊢; linarith
  have hka := hk.self_of_nhds
  have hX : ∀ T, D3 (fun s => P s + (V s).smulR (T - t s)) (P' + (V'.smulR (T - t a) + (V a).smulR (0 - t'))) a := fun T =>
    hP.add (hV.smulR ((hasDerivAt_const a T).sub ht))
  have e : ∀ T, V3.dot (V a) (P' + (V'.smulR (T - t a) + (V a).smulR (0 - t'))) = V3.dot (V a) P' - k * t' := fun T => by
    have : V3.dot (V a) (P' + (V'.smulR (T - t a) + (V a).smulR (0 - t'))) =
        V3.dot (V a) P' + V3.dot (V a) V' * (T - t a) - V3.dot (V a) (V a) * t' := by simp [V3.dot]; ring
    rw [this, hVV, hka]; ring
  constructor
  · intro h
    have := h 0 _ (hX 0)
    rw [e] at this; linarith
  · intro h T X' hX'
    rw [← (hX T).unique hX', e, h]; ring

theorem line_fderiv {p v : ℝ → ℝ} {p' v' a : ℝ} (hp : HasDerivAt p p' a) (hv : HasDerivAt v v' a) (τ : ℝ) :
    HasFDerivAt (fun q : ℝ × ℝ => p q.1 + v q.1 * q.2)
      ((p' + v' * τ) • ContinuousLinearMap.fst ℝ ℝ ℝ + v a • ContinuousLinearMap.snd ℝ ℝ ℝ) (a, τ) := by
  have h1 : HasFDerivAt (fun q : ℝ × ℝ => p q.1) _ (a, τ) := hp.hasFDerivAt.comp (a, τ) (hasFDerivAt_fst (𝕜 := ℝ) (p := (a, τ)))
  have h2 : HasFDerivAt (fun q : ℝ × ℝ => v q.1) _ (a, τ) := hv.hasFDerivAt.comp (a, τ) (hasFDerivAt_fst (𝕜 := ℝ) (p := (a, τ)))
  have h3 := h1.add (h2.mul (hasFDerivAt_snd (𝕜 := ℝ) (p := (a, τ))))
  refine h3.congr_fderiv ?_
  ext <;> simp
  ring

/-- The unit normal moves smoothly with the slopes. -/
theorem unitNormal_d3 {gx gy : ℝ → ℝ} {gx' gy' a : ℝ} (hx : HasDerivAt gx gx' a) (hy : HasDerivAt gy gy' a) :
    ∃ n', D3 (fun s => unitNormal (gx s) (gy s)) n' a := by
  have hp := slope_pos (gx a) (gy a)
  have h1 := ((hx.mul hx).add (hy.mul hy)).const_add 1
  have h1' : HasDerivAt (fun s => 1 + gx s * gx s + gy s * gy s) (gx' * gx a + gx a * gx' + (gy' * gy a + gy a * gy')) a :=
    h1.congr_of_eventuallyEq (Eventually.of_forall fun s => by simp only [Pi.add_apply, Pi.mul_apply]; ring)
  have h2 := h1'.sqrt hp.ne'
  have h3 := (hasDerivAt_const a (1 : ℝ)).div h2 (Real.sqrt_pos.2 hp).ne'
  exact ⟨⟨_, _, _⟩, hx.neg.mul h3, hy.neg.mul h3, h3⟩

/-- Where a beam meets a smooth surface: the time to get there, the meeting point and the normal change smoothly, and the meeting point moves along
the surface. -/
theorem meet_smooth {s : Surface Dbl} {f gx gy : ℝ × ℝ → ℝ} {p v : ℝ → V3 ℝ} {p' v' : V3 ℝ} {dt : ℝ → ℝ} {a : ℝ} (hp : D3 p p' a) (hv : D3 v v' a)
    (smooth : SmoothAt s f gx gy ((p a + (v a).smulR (dt a)).x, (p a + (v a).smulR (dt a)).y))
    (on : ∀ᶠ b in 𝓝 a, s.sag (.fin (p b + (v b).smulR (dt b)).x) (.fin (p b + (v b).smulR (dt b)).y) = .fin (p b + (v b).smulR (dt b)).z)
    (cont : ContinuousAt dt a) {n : V3 ℝ}
    (hn : n = unitNormal (gx ((p a + (v a).smulR (dt a)).x, (p a + (v a).smulR (dt a)).y))
      (gy ((p a + (v a).smulR (dt a)).x, (p a + (v a).smulR (dt a)).y)))
    (steep : V3.dot (v a) n ≠ 0) :
    ∃ dt' q' n', HasDerivAt dt dt' a ∧ D3 (fun b => p b + (v b).smulR (dt b)) q' a ∧ V3.dot q' n = 0 ∧
      D3 (fun b => unitNormal (gx ((p b + (v b).smulR (dt b)).x, (p b + (v b).smulR (dt b)).y))
        (gy ((p b + (v b).smulR (dt b)).x, (p b + (v b).smulR (dt b)).y))) n' a := by
  set q := ((p a + (v a).smulR (dt a)).x, (p a + (v a).smulR (dt a)).y) with hq
  have hnz : n.x = -gx q * n.z ∧ n.y = -gy q * n.z ∧ n.z ≠ 0 := by
    rw [hn]; refine ⟨rfl, rfl, ?_⟩
    have := Real.sqrt_pos.2 (slope_pos (gx q) (gy q))
    simp only [unitNormal]; positivity
  -- the equation that the time satisfies
  have hin : HasFDerivAt (fun q : ℝ × ℝ => ((p q.1).x + (v q.1).x * q.2, (p q.1).y + (v q.1).y * q.2)) _ (a, dt a) :=
    (line_fderiv hp.x hv.x (dt a)).prodMk (line_fderiv hp.y hv.y (dt a))
  have hG : HasFDerivAt (fun q : ℝ × ℝ => f ((p q.1).x + (v q.1).x * q.2, (p q.1).y + (v q.1).y * q.2) - ((p q.1).z + (v q.1).z * q.2))
      ((gx q * (p'.x + v'.x * dt a) + gy q * (p'.y + v'.y * dt a) - (p'.z + v'.z * dt a)) • ContinuousLinearMap.fst ℝ ℝ ℝ +
        (gx q * (v a).x + gy q * (v a).y - (v a).z) • ContinuousLinearMap.snd ℝ ℝ ℝ) (a, dt a) := by
    refine ((smooth.slopes.comp (a, dt a) hin).sub (line_fderiv hp.z hv.z (dt a))).congr_fderiv ?_
    ext <;> simp
  have hB : gx q * (v a).x + gy q * (v a).y - (v a).z ≠ 0 := by
    intro h0
    apply steep
    simp only [V3.dot]; rw [hnz.1, hnz.2.1]
    linear_combination (-n.z) * h0
  have htend : Tendsto (fun b => ((p b + (v b).smulR (dt b)).x, (p b + (v b).smulR (dt b)).y)) (𝓝 a) (𝓝 q) := by
    refine ContinuousAt.prodMk ?_ ?_
    · exact hp.x.continuousAt.add (hv.x.continuousAt.mul cont)
    · exact hp.y.continuousAt.add (hv.y.continuousAt.mul cont)
  have h0 : ∀ᶠ b in 𝓝 a, f ((p b).x + (v b).x * dt b, (p b).y + (v b).y * dt b) - ((p b).z + (v b).z * dt b) = 0 := by
    filter_upwards [on, htend.eventually smooth.sag] with b h1 h2
    rw [h2, Dbl.fin_inj] at h1
    simp only [V3.add_x, V3.add_y, V3.add_z, V3.smulR_x, V3.smulR_y, V3.smulR_z] at h1
    rw [h1]; ring
  have hdt := implicit_deriv hG hB cont h0
  have hQ := hp.add (hv.smulR hdt)
  have hx := smooth.bendx.hasFDerivAt.comp_hasDerivAt a (hQ.x.prodMk hQ.y)
  have hy := smooth.bendy.hasFDerivAt.comp_hasDerivAt a (hQ.x.prodMk hQ.y)
  obtain ⟨n', hn'⟩ := unitNormal_d3 hx hy
  refine ⟨_, _, n', hdt, hQ, ?_, hn'⟩
  have hcurve := (smooth.slopes.comp_hasDerivAt a (hQ.x.prodMk hQ.y))
  have hz : HasDerivAt (fun b => (p b + (v b).smulR (dt b)).z) _ a := hcurve.congr_of_eventuallyEq (by
    filter_upwards [h0] with b hb
    simp only [Function.comp, V3.add_x, V3.add_y, V3.add_z, V3.smulR_x, V3.smulR_y, V3.smulR_z]
    linarith)
  have e := hz.unique hQ.z
  simp only [ContinuousLinearMap.add_apply, ContinuousLinearMap.smul_apply, ContinuousLinearMap.coe_fst', ContinuousLinearMap.coe_snd', smul_eq_mul] at e
  simp only [V3.dot]; rw [hnz.1, hnz.2.1, ← e]; ring

theorem mirror_dotSelf {n v : V3 ℝ} (hn : IsUnit' n) : V3.dot (mirror n v) (mirror n v) = V3.dot v v := by
  unfold IsUnit' at hn
  have : V3.dot (mirror n v) (mirror n v) = V3.dot v v - 4 * V3.dot v n ^ 2 * (1 - V3.dot n n) := by simp [mirror, V3.dot]; ring
  rw [this, hn]; ring

/-- What refraction makes of the velocity, as a formula. -/
theorem Snell.formula {n1 n2 : ℝ} {n v u : V3 ℝ} (hn : IsUnit' n) (h : Snell n1 n2 n v u) {σ : ℝ} (hσ : σ * σ = 1) (hside : 0 < σ * V3.dot v n) :
    u = V3.cross n (V3.smul (n1 ^ 2 / n2 ^ 2) (V3.cross v n)) +
      V3.smul (σ * Real.sqrt (1 / n2 ^ 2 - V3.dot (V3.smul (n1 ^ 2 / n2 ^ 2) (V3.cross v n)) (V3.smul (n1 ^ 2 / n2 ^ 2) (V3.cross v n)))) n := by
  have h2 : n2 ^ 2 ≠ 0 := by have := h.pos2; positivity
  have hc : V3.cross u n = V3.smul (n1 ^ 2 / n2 ^ 2) (V3.cross v n) := by
    have hx := congrArg V3.x h.sines; have hy := congrArg V3.y h.sines; have hz := congrArg V3.z h.sines
    simp only [V3.smul_x, V3.smul_y, V3.smul_z] at hx hy hz
    ext
    · rw [V3.smul_x, div_mul_eq_mul_div, eq_div_iff h2]; linarith
    · rw [V3.smul_y, div_mul_eq_mul_div, eq_div_iff h2]; linarith
    · rw [V3.smul_z, div_mul_eq_mul_div, eq_div_iff h2]; linarith
  have hsq : 1 / n2 ^ 2 - V3.dot (V3.cross u n) (V3.cross u n) = (σ * V3.dot u n) ^ 2 := by
    have e := cross_normSq u n
    unfold IsUnit' at hn
    rw [hn] at e
    have e2 : V3.dot u u = 1 / n2 ^ 2 := by rw [eq_div_iff h2]; exact h.speed2
    simp only [V3.normSq] at e
    rw [e, e2]; linear_combination (-(V3.dot u n) ^ 2) * hσ
  have hpos : 0 ≤ σ * V3.dot u n := by
    have h1 := h.through
    by_contra hneg
    push Not at hneg
    have := mul_neg_of_pos_of_neg hside hneg
    have e : σ * V3.dot v n * (σ * V3.dot u n) = V3.dot v n * V3.dot u n := by linear_combination (V3.dot v n * V3.dot u n) * hσ
    linarith
  rw [← hc, hsq, Real.sqrt_sq hpos, ← mul_assoc, hσ, one_mul]
  exact decompose hn

theorem dot_via_cross {n u q : V3 ℝ} (hn : IsUnit' n) (hq : V3.dot q n = 0) : V3.dot u q = V3.dot (V3.cross n (V3.cross u n)) q := by
  conv_lhs => rw [decompose hn (u := u)]
  have : V3.dot (V3.cross n (V3.cross u n) + V3.smul (V3.dot u n) n) q = V3.dot (V3.cross n (V3.cross u n)) q + V3.dot u n * V3.dot q n := by
    simp [V3.dot]; ring
  rw [this, hq]; ring

/-- The laws of reflection and refraction keep the relation between the time and the place along the surface. -/
theorem turn_wave {d : Iface Dbl} {w : Dbl} {n v u : ℝ → V3 ℝ} {n' v' q' : V3 ℝ} {a k τ' : ℝ} (hn : D3 n n' a) (hv : D3 v v' a)
    (hunit : ∀ᶠ b in 𝓝 a, IsUnit' (n b)) (hturn : ∀ᶠ b in 𝓝 a, Turns d w (n b) (v b) (u b)) (hk0 : 0 < k)
    (hk : ∀ᶠ b in 𝓝 a, V3.dot (v b) (v b) = k) (hq : V3.dot q' (n a) = 0) (heik : V3.dot (v a) q' = k * τ') :
    ∃ u' k', D3 u u' a ∧ 0 < k' ∧ (∀ᶠ b in 𝓝 a, V3.dot (u b) (u b) = k') ∧ V3.dot (u a) q' = k' * τ' := by
  have hua := hunit.self_of_nhds
  cases hturn.self_of_nhds with
  | straight hkind hu =>
    have hu' : ∀ᶠ b in 𝓝 a, u b = v b := by
      filter_upwards [hturn] with b hb
      cases hb with
      | straight _ h => exact h
      | mirror h => rw [h] at hkind; simp at hkind
      | lens h => rw [h] at hkind; simp at hkind
    refine ⟨v', k, hv.congr hu', hk0, ?_, by rw [hu]; exact heik⟩
    filter_upwards [hu', hk] with b h1 h2
    rw [h1, h2]
  | mirror hkind ht hd =>
    have hu' : ∀ᶠ b in 𝓝 a, u b = mirror (n b) (v b) := by
      filter_upwards [hturn] with b hb
      cases hb with
      | straight h => rw [hkind] at h; simp at h
      | mirror _ h1 h2 => exact (mirror_unique h1 h2).symm
      | lens h => rw [h] at hkind; cases hkind
    refine ⟨_, k, (hv.sub (D3.smul ((hv.dot hn).const_mul 2) hn)).congr hu', hk0, ?_, ?_⟩
    · filter_upwards [hu', hk, hunit] with b h1 h2 h3
      rw [h1, mirror_dotSelf h3, h2]
    · rw [hu'.self_of_nhds]
      have : V3.dot (mirror (n a) (v a)) q' = V3.dot (v a) q' - 2 * V3.dot (v a) (n a) * V3.dot q' (n a) := by simp [mirror, V3.dot]; ring
      rw [this, hq, heik]; ring
  | @lens hkind n1 n2 h1 h2 hs =>
    have hs' : ∀ᶠ b in 𝓝 a, Snell n1 n2 (n b) (v b) (u b) := by
      filter_upwards [hturn] with b hb
      cases hb with
      | straight h => rw [hkind] at h; simp at h
      | mirror h => rw [h] at hkind; cases hkind
      | lens _ g1 g2 g =>
        rw [h1, Dbl.fin_inj] at g1
        rw [h2, Dbl.fin_inj] at g2
        subst g1; subst g2; exact g
    have hp1 := hs.pos1
    have hp2 := hs.pos2
    have hne : V3.dot (v a) (n a) ≠ 0 := by
      intro h0
      have := hs.through
      rw [h0, zero_mul] at this; exact lt_irrefl _ this
    obtain ⟨σ, hσ, hside⟩ : ∃ σ : ℝ, σ * σ = 1 ∧ 0 < σ * V3.dot (v a) (n a) := by
      rcases lt_or_gt_of_ne hne with h | h
      · exact ⟨-1, by norm_num, by linarith⟩
      · exact ⟨1, by norm_num, by linarith⟩
    have hside' : ∀ᶠ b in 𝓝 a, 0 < σ * V3.dot (v b) (n b) :=
      ((hv.dot hn).const_mul σ).continuousAt.eventually (lt_mem_nhds hside)
    have hform : ∀ᶠ b in 𝓝 a, u b = V3.cross (n b) (V3.smul (n1 ^ 2 / n2 ^ 2) (V3.cross (v b) (n b))) +
        V3.smul (σ * Real.sqrt (1 / n2 ^ 2 - V3.dot (V3.smul (n1 ^ 2 / n2 ^ 2) (V3.cross (v b) (n b)))
          (V3.smul (n1 ^ 2 / n2 ^ 2) (V3.cross (v b) (n b))))) (n b) := by
      filter_upwards [hs', hunit, hside'] with b g1 g2 g3
      exact g1.formula g2 hσ g3
    have hc := D3.smul (hasDerivAt_const a (n1 ^ 2 / n2 ^ 2)) (hv.cross hn)
    have hrad : 1 / n2 ^ 2 - V3.dot (V3.smul (n1 ^ 2 / n2 ^ 2) (V3.cross (v a) (n a))) (V3.smul (n1 ^ 2 / n2 ^ 2) (V3.cross (v a) (n a))) ≠ 0 := by
      intro h0
      have g := hs.formula hua hσ hside
      rw [h0, Real.sqrt_zero, mul_zero] at g
      have : V3.dot (u a) (n a) = 0 := by rw [g]; simp [V3.dot]; ring
      have g2 := hs.through
      rw [this, mul_zero] at g2; exact lt_irrefl _ g2
    have hr := ((hasDerivAt_const a (1 / n2 ^ 2)).sub (hc.dot hc)).sqrt hrad
    refine ⟨_, 1 / n2 ^ 2, ((hn.cross hc).add (D3.smul (hr.const_mul σ) hn)).congr hform, by positivity, ?_, ?_⟩
    · filter_upwards [hs'] with b g
      rw [eq_div_iff (by positivity)]; exact g.speed2
    · have hkn : k * n1 ^ 2 = 1 := by rw [← hk.self_of_nhds]; exact hs.speed1
      have e1 := dot_via_cross (u := u a) hua hq
      have e2 := dot_via_cross (u := v a) hua hq
      have e3 : n2 ^ 2 * V3.dot (V3.cross (n a) (V3.cross (u a) (n a))) q' = n1 ^ 2 * V3.dot (V3.cross (n a) (V3.cross (v a) (n a))) q' := by
        have hx := congrArg V3.x hs.sines; have hy := congrArg V3.y hs.sines; have hz := congrArg V3.z hs.sines
        simp only [V3.smul_x, V3.smul_y, V3.smul_z] at hx hy hz
        generalize V3.cross (u a) (n a) = A at *
        generalize V3.cross (v a) (n a) = B at *
        simp only [V3.dot, V3.cross_x, V3.cross_y, V3.cross_z]
        linear_combination (q'.y * (n a).z - q'.z * (n a).y) * hx + (q'.z * (n a).x - q'.x * (n a).z) * hy + (q'.x * (n a).y - q'.y * (n a).x) * hz
      rw [← e1, ← e2, heik] at e3
      rw [one_div, ← div_eq_inv_mul, eq_div_iff (by positivity)]
      linear_combination e3 + τ' * hkn

/-! ## One interface, in the global frame -/

theorem D3.toLocal (c : CoordSys ℝ) {f : ℝ → V3 ℝ} {f' : V3 ℝ} {a : ℝ} (h : D3 f f' a) : D3 (fun s => c.toLocal (f s)) (c.rot.tr.mulVec f') a := by
  have h1 := h.sub (D3.const c.origin a)
  have h2 := h1.mulVec c.rot.tr
  have e : f' - (⟨0, 0, 0⟩ : V3 ℝ) = f' := by ext <;> simp
  rw [e] at h2
  exact h2

theorem cross_wave {niter : ℕ} {w : Dbl} {d : Iface Dbl} {c : CoordSys ℝ} {n P V U : ℝ → V3 ℝ} {t dt : ℝ → ℝ} {f gx gy : ℝ × ℝ → ℝ} {a : ℝ}
    (meets : ∀ᶠ b in 𝓝 a, Meeting niter w d c (n b) (P b) (V b) (dt b) (U b))
    (smooth : SmoothAt d.surface f gx gy ((c.toLocal (P a + (V a).smulR (dt a))).x, (c.toLocal (P a + (V a).smulR (dt a))).y))
    (on : ∀ᶠ b in 𝓝 a, d.surface.sag (.fin (c.toLocal (P b + (V b).smulR (dt b))).x) (.fin (c.toLocal (P b + (V b).smulR (dt b))).y) =
      .fin (c.toLocal (P b + (V b).smulR (dt b))).z)
    (cont : ContinuousAt dt a) (steep : V3.dot (c.rot.tr.mulVec (V a)) (n a) ≠ 0) (h : Wavefront P V t a) :
    Wavefront (fun b => P b + (V b).smulR (dt b)) U (fun b => t b + dt b) a := by
  obtain ⟨⟨P', hP⟩, ⟨V', hV⟩, ⟨t', ht⟩, ⟨k, hk0, hk⟩, hperp⟩ := h
  rw [wave_iff hP hV ht hk] at hperp
  have ho := meets.self_of_nhds.orth
  have hdot := fun x y => ho.tr.dot_mulVec x y
  simp only [← toLocal_step] at smooth on
  have hp := hP.toLocal c
  have hv := hV.mulVec c.rot.tr
  -- the normal is that of the surface
  have hnear : ∀ᶠ b in 𝓝 a, n b = unitNormal
      (gx ((c.toLocal (P b) + (c.rot.tr.mulVec (V b)).smulR (dt b)).x, (c.toLocal (P b) + (c.rot.tr.mulVec (V b)).smulR (dt b)).y))
      (gy ((c.toLocal (P b) + (c.rot.tr.mulVec (V b)).smulR (dt b)).x, (c.toLocal (P b) + (c.rot.tr.mulVec (V b)).smulR (dt b)).y)) := by
    have htend : Tendsto (fun b => ((c.toLocal (P b) + (c.rot.tr.mulVec (V b)).smulR (dt b)).x, (c.toLocal (P b) + (c.rot.tr.mulVec (V b)).smulR (dt b)).y))
        (𝓝 a) (𝓝 ((c.toLocal (P a) + (c.rot.tr.mulVec (V a)).smulR (dt a)).x, (c.toLocal (P a) + (c.rot.tr.mulVec (V a)).smulR (dt a)).y)) :=
      ContinuousAt.prodMk (hp.x.continuousAt.add (hv.x.continuousAt.mul cont)) (hp.y.continuousAt.add (hv.y.continuousAt.mul cont))
    filter_upwards [meets, htend.eventually smooth.normal] with b h1 h2
    have h3 := h1.normal
    rw [← toLocal_step, h2, V3.fin_inj] at h3
    exact h3.symm
  obtain ⟨dt', q', n', hdt, hq, hqn, hn'⟩ := meet_smooth hp hv smooth on cont hnear.self_of_nhds steep
  have hQ := hP.add (hV.smulR hdt)
  have hn := hn'.congr hnear
  -- in the local frame
  have hq' : q' = c.rot.tr.mulVec (P' + (V'.smulR (dt a) + (V a).smulR dt')) := by
    refine hq.unique ?_
    simp only [toLocal_step]
    exact hQ.toLocal c
  have hVV : V3.dot (V a) V' = 0 := by
    have h1 := hV.dot hV
    have h2 : HasDerivAt (fun s => V3.dot (V s) (V s)) 0 a := (hasDerivAt_const a k).congr_of_eventuallyEq hk
    have := h1.unique h2
    simp only [V3.dot] at this ⊢; linarith
  have heik : V3.dot (c.rot.tr.mulVec (V a)) q' = k * (t' + dt') := by
    rw [hq', hdot]
    have : V3.dot (V a) (P' + (V'.smulR (dt a) + (V a).smulR dt')) = V3.dot (V a) P' + V3.dot (V a) V' * dt a + V3.dot (V a) (V a) * dt' := by
      simp [V3.dot]; ring
    rw [this, hperp, hVV, hk.self_of_nhds]; ring
  obtain ⟨u', k', hu, hk0', hk', heik'⟩ := turn_wave hn hv (meets.mono fun b h => h.unit) (meets.mono fun b h => h.turns) hk0
    (hk.mono fun b h => by rw [hdot]; exact h) hqn heik
  have hU : D3 U (c.rot.mulVec u') a := (hu.mulVec c.rot).congr (Eventually.of_forall fun b => (ho.mulVec_tr _).symm)
  have hkU : ∀ᶠ b in 𝓝 a, V3.dot (U b) (U b) = k' := hk'.mono fun b h => by rw [hdot] at h; exact h
  refine ⟨⟨_, hQ⟩, ⟨_, hU⟩, ⟨_, ht.add hdt⟩, ⟨k', hk0', hkU⟩, ?_⟩
  rw [hq', hdot] at heik'
  exact (wave_iff hQ hU (ht.add hdt) hkU).2 heik'

/-! ## C98 -/

theorem beam_wave {niter : ℕ} {w : Dbl} {a0 : ℝ} {P' V' : ℝ → V3 ℝ} {t' : ℝ → ℝ} {ds : List (Iface Dbl)} {P V : ℝ → V3 ℝ} {t : ℝ → ℝ}
    (h : Beam niter w a0 P' V' t' ds P V t) : Wavefront P V t a0 → Wavefront P' V' t' a0 := by
  induction h with
  | done => exact id
  | cross meets smooth on cont steep _ ih => exact fun hw => ih (cross_wave meets smooth on cont steep hw)

theorem beam_light {niter : ℕ} {w : Dbl} {a0 : ℝ} {P' V' : ℝ → V3 ℝ} {t' : ℝ → ℝ} {ds : List (Iface Dbl)} {P V : ℝ → V3 ℝ} {t : ℝ → ℝ}
    (h : Beam niter w a0 P' V' t' ds P V t) : ∀ᶠ a in 𝓝 a0, ∀ (rv : RayVec Dbl) (i : ℕ) (b : Bool), LightAt rv i (P a) (V a) (t a) w b →
    ∃ b', LightAt (ds.foldl (fun rv d => d.trace niter false rv) rv) i (P' a) (V' a) (t' a) w b' := by
  induction h with
  | done => exact Eventually.of_forall fun a rv i b h => ⟨b, h⟩
  | cross meets _ _ _ _ _ ih =>
    filter_upwards [meets, ih] with a h1 h2 rv i b hin
    exact h2 _ i _ (cross_forward h1 hin)

/-- C98: the theorem of Malus and Dupin.  A family of rays near `a0` goes through an optic; at `a0` the rays are perpendicular to the places the
family has reached at equal times.  Then so are the rays that `trace` returns. -/
theorem C98_malus {o : Optic Dbl} {niter : ℕ} {w : Dbl} {a0 : ℝ} {P V P' V' : ℝ → V3 ℝ} {t t' : ℝ → ℝ} {rv : ℝ → RayVec Dbl} {i : ℕ} {b : ℝ → Bool}
    (h : Beam niter w a0 P' V' t' (visits o) P V t) (hin : ∀ᶠ a in 𝓝 a0, LightAt (rv a) i (P a) (V a) (t a) w (b a))
    (hw : Wavefront P V t a0) :
    (∀ᶠ a in 𝓝 a0, ∃ b', LightAt (o.trace niter false (rv a)) i (P' a) (V' a) (t' a) w b') ∧ Wavefront P' V' t' a0 := by
  refine ⟨?_, beam_wave h hw⟩
  filter_upwards [beam_light h, hin] with a h1 h2
  rw [trace_visits]
  exact h1 _ i _ h2

/-- C98: if the rays of a beam all go through one point, they are there at the same time: a sharp image means equal paths. -/
theorem C98_equal_times {P V : ℝ → V3 ℝ} {t T : ℝ → ℝ} {I : Set ℝ} (hI : IsOpen I) (hc : IsPreconnected I) {F : V3 ℝ}
    (hw : ∀ a ∈ I, Wavefront P V t a) (hF : ∀ a ∈ I, P a + (V a).smulR (T a - t a) = F) : ∀ a ∈ I, ∀ b ∈ I, T a = T b := by
  have hder : ∀ a ∈ I, HasDerivAt T 0 a := by
    intro a ha
    obtain ⟨⟨P', hP⟩, ⟨V', hV⟩, ⟨t', ht⟩, ⟨k, hk0, hk⟩, hperp⟩ := hw a ha
    rw [wave_iff hP hV ht hk] at hperp
    have hT : ∀ᶠ s in 𝓝 a, T s = t s + V3.dot (V s) (F - P s) / k := by
      filter_upwards [hk, hI.mem_nhds ha] with s h1 h2
      rw [← hF s h2]
      have : V3.dot (V s) (P s + (V s).smulR (T s - t s) - P s) = V3.dot (V s) (V s) * (T s - t s) := by simp [V3.dot]; ring
      rw [this, h1]; field_simp; ring
    have hVV : V3.dot (V a) V' = 0 := by
      have h1 := hV.dot hV
      have h2 : HasDerivAt (fun s => V3.dot (V s) (V s)) 0 a := (hasDerivAt_const a k).congr_of_eventuallyEq hk
      have := h1.unique h2
      simp only [V3.dot] at this ⊢; linarith
    refine ((ht.add ((hV.dot ((D3.const F a).sub hP)).div_const k)).congr_of_eventuallyEq hT).congr_deriv ?_
    have e1 : V3.dot V' (F - P a) = 0 := by
      rw [← hF a ha]
      have : V3.dot V' (P a + (V a).smulR (T a - t a) - P a) = V3.dot (V a) V' * (T a - t a) := by simp [V3.dot]; ring
      rw [this, hVV, zero_mul]
    have e2 : V3.dot (V a) ((⟨0, 0, 0⟩ : V3 ℝ) - P') = -(k * t') := by
      rw [← hperp]; simp [V3.dot]; ring
    rw [e1, e2]; field_simp; ring
  intro a ha b hb
  refine hI.is_const_of_fderiv_eq_zero hc (fun x hx => (hder x hx).differentiableAt.differentiableWithinAt) (fun x hx => ?_) ha hb
  rw [(hder x hx).hasFDerivAt.fderiv]
  ext; simp

/-- C98: a parallel beam is perpendicular to its wavefronts. -/
theorem C98_parallel {P : ℝ → V3 ℝ} {v P' : V3 ℝ} {t0 a : ℝ} (hv : v ≠ ⟨0, 0, 0⟩) (hP : D3 P P' a) (h : V3.dot v P' = 0) :
    Wavefront P (fun _ => v) (fun _ => t0) a := by
  have hk : ∀ᶠ s in 𝓝 a, V3.dot v v = V3.dot v v := Eventually.of_forall fun _ => rfl
  refine ⟨⟨_, hP⟩, ⟨_, D3.const v a⟩, ⟨_, hasDerivAt_const a t0⟩, ⟨_, V3.normSq_pos hv, hk⟩, ?_⟩
  rw [wave_iff hP (D3.const v a) (hasDerivAt_const a t0) hk, h, mul_zero]

/-- C98: so is the light of a point source. -/
theorem C98_point {V : ℝ → V3 ℝ} {p V' : V3 ℝ} {t0 a k : ℝ} (hk0 : 0 < k) (hV : D3 V V' a) (hk : ∀ s, V3.dot (V s) (V s) = k) :
    Wavefront (fun _ => p) V (fun _ => t0) a := by
  have hk' : ∀ᶠ s in 𝓝 a, V3.dot (V s) (V s) = k := Eventually.of_forall hk
  refine ⟨⟨_, D3.const p a⟩, ⟨_, hV⟩, ⟨_, hasDerivAt_const a t0⟩, ⟨_, hk0, hk'⟩, ?_⟩
  rw [wave_iff (D3.const p a) hV (hasDerivAt_const a t0) hk', mul_zero]
  simp [V3.dot]

/-! ### The surfaces -/

theorem smooth_radial {s : Surface Dbl} {D : Set (ℝ × ℝ)} (hD : IsOpen D) {h d : ℝ → ℝ}
    (hsag : ∀ x y, (x, y) ∈ D → s.sag (.fin x) (.fin y) = .fin (h (x * x + y * y)))
    (hn : ∀ x y, (x, y) ∈ D → s.normal (.fin x) (.fin y) = (unitNormal (2 * x * d (x * x + y * y)) (2 * y * d (x * x + y * y))).fin)
    {x y : ℝ} (hq : (x, y) ∈ D) (hd : HasDerivAt h (d (x * x + y * y)) (x * x + y * y)) (hdd : DifferentiableAt ℝ d (x * x + y * y)) :
    SmoothAt s (fun p => h (p.1 * p.1 + p.2 * p.2)) (fun p => 2 * p.1 * d (p.1 * p.1 + p.2 * p.2)) (fun p => 2 * p.2 * d (p.1 * p.1 + p.2 * p.2)) (x, y) where
  sag := Filter.mem_of_superset (hD.mem_nhds hq) fun p hp => hsag p.1 p.2 hp
  normal := Filter.mem_of_superset (hD.mem_nhds hq) fun p hp => hn p.1 p.2 hp
  slopes := by
    have hfst : HasFDerivAt (fun p : ℝ × ℝ => p.1) (ContinuousLinearMap.fst ℝ ℝ ℝ) (x, y) := hasFDerivAt_fst
    have hsnd : HasFDerivAt (fun p : ℝ × ℝ => p.2) (ContinuousLinearMap.snd ℝ ℝ ℝ) (x, y) := hasFDerivAt_snd
    have h1 := hd.hasFDerivAt.comp (x, y) ((hfst.mul hfst).add (hsnd.mul hsnd))
    refine h1.congr_fderiv ?_
    ext <;> simp <;> ring
  bendx := by
    have : DifferentiableAt ℝ (fun p : ℝ × ℝ => d (p.1 * p.1 + p.2 * p.2)) (x, y) :=
      DifferentiableAt.comp (x, y) (g := d) hdd (by fun_prop)
    fun_prop
  bendy := by
    have : DifferentiableAt ℝ (fun p : ℝ × ℝ => d (p.1 * p.1 + p.2 * p.2)) (x, y) :=
      DifferentiableAt.comp (x, y) (g := d) hdd (by fun_prop)
    fun_prop

theorem C98_smooth_plane (q : ℝ × ℝ) : ∃ f gx gy, SmoothAt (plane (F := Dbl)) f gx gy q := by
  refine ⟨_, _, _, smooth_radial isOpen_univ (h := fun _ => 0) (d := fun _ => 0) ?_ ?_ (Set.mem_univ _) (hasDerivAt_const _ _)
    (differentiableAt_const _)⟩
  · intro x y _; simp [plane, Dbl.zero_dbl]
  · intro x y _; rw [mul_zero, mul_zero, unitNormal_zero]; rfl

theorem C98_smooth_paraboloid {R : ℝ} (hR : R ≠ 0) (q : ℝ × ℝ) : ∃ f gx gy, SmoothAt (paraboloid (Dbl.fin R)) f gx gy q := by
  refine ⟨_, _, _, smooth_radial isOpen_univ (h := fun p => p * (1 / 2 / R)) (d := fun _ => 1 / 2 / R) ?_ ?_ (Set.mem_univ _) ?_
    (differentiableAt_const _)⟩
  · intro x y _; exact paraboloidSag_fin hR x y
  · intro x y _; exact paraboloidNormal_fin hR x y
  · simpa using (hasDerivAt_id (q.1 * q.1 + q.2 * q.2)).mul_const (1 / 2 / R)

theorem root_differentiable {R κ p : ℝ} (hR : R ≠ 0) (h : 0 < 1 - p * κ) :
    DifferentiableAt ℝ (fun p => 1 / (2 * R * Real.sqrt (1 - p * κ))) p := by
  have hs := (Real.sqrt_pos.2 h).ne'
  have h1 : DifferentiableAt ℝ (fun p : ℝ => Real.sqrt (1 - p * κ)) p := DifferentiableAt.sqrt (by fun_prop) h.ne'
  exact (differentiableAt_const _).div ((differentiableAt_const _).mul h1) (mul_ne_zero (mul_ne_zero two_ne_zero hR) hs)

theorem C98_smooth_sphere {R : ℝ} (hR : R ≠ 0) {q : ℝ × ℝ} (hq : q.1 * q.1 + q.2 * q.2 < R * R) :
    ∃ f gx gy, SmoothAt (sphere (Dbl.fin R)) f gx gy q := by
  have hop : IsOpen {p : ℝ × ℝ | p.1 * p.1 + p.2 * p.2 < R * R} := by simpa using isOpen_radial 1 (R * R)
  exact ⟨_, _, _, smooth_radial hop (h := fun p => R * (1 - Real.sqrt (1 - p * (1 / R / R))))
    (d := fun p => 1 / (2 * R * Real.sqrt (1 - p * (1 / R / R)))) (fun x y h => sphereSag_fin hR (le_of_lt h))
    (fun x y h => sphereNormal_fin hR h) hq (sphere_deriv hR (sphere_root_pos hR hq)) (root_differentiable hR (sphere_root_pos hR hq))⟩

theorem C98_smooth_quadric {R k : ℝ} (hR : R ≠ 0) {q : ℝ × ℝ} (hq : q ∈ quadricDomain R k) :
    ∃ f gx gy, SmoothAt (quadric (Dbl.fin R) (Dbl.fin k)) f gx gy q := by
  exact ⟨_, _, _, smooth_radial (quadricDomain_open R k) (h := conicSag R k)
    (d := fun p => 1 / (2 * R * Real.sqrt (1 - p * ((k + 1) / R / R)))) (fun x y h => quadricSag_fin hR (quadric_root_pos hR h).le)
    (fun x y h => radialNormal_fin (quadricDzdr_at hR h)) hq (conic_deriv hR (quadric_root_pos hR hq))
    (root_differentiable hR (quadric_root_pos hR hq))⟩

theorem evenPolyDeriv_differentiable (cs : List ℝ) : ∀ (i : ℕ) (p : ℝ), DifferentiableAt ℝ (evenPolyDeriv i cs) p := by
  induction cs with
  | nil => intro i p; exact differentiableAt_const _
  | cons c cs ih =>
    intro i p
    have h : DifferentiableAt ℝ (fun p : ℝ => c * (i * p ^ (i - 1))) p := by fun_prop
    exact h.add (ih (i + 1) p)

theorem C98_smooth_asphere {R k : ℝ} (hR : R ≠ 0) (cs : List ℝ) {q : ℝ × ℝ} (hq : q ∈ quadricDomain R k) :
    ∃ f gx gy, SmoothAt (asphere (Dbl.fin R) (Dbl.fin k) (cs.map Dbl.fin)) f gx gy q := by
  exact ⟨_, _, _, smooth_radial (quadricDomain_open R k) (h := fun p => conicSag R k p + evenPoly 1 cs p)
    (d := fun p => 1 / (2 * R * Real.sqrt (1 - p * ((k + 1) / R / R))) + evenPolyDeriv 1 cs p)
    (fun x y h => asphereSag_fin cs hR (quadric_root_pos hR h).le) (fun x y h => radialNormal_fin (asphereDzdr_at cs hR h)) hq
    ((conic_deriv hR (quadric_root_pos hR hq)).add (evenPoly_deriv cs 1 _))
    ((root_differentiable hR (quadric_root_pos hR hq)).add (evenPolyDeriv_differentiable cs 1 _))⟩

theorem polyValue_differentiable (a : ℕ → ℕ → ℝ) (rows cols : ℕ) (x0 y0 : ℝ) (q : ℝ × ℝ) :
    DifferentiableAt ℝ (fun p : ℝ × ℝ => polyValue a rows cols (p.1 - x0) (p.2 - y0)) q := by
  unfold polyValue
  fun_prop

/-- Smoothness from the partial derivatives of a differentiable sag. -/
theorem smooth_of {s : Surface Dbl} {f gx gy : ℝ × ℝ → ℝ} (hsag : ∀ x y, s.sag (.fin x) (.fin y) = .fin (f (x, y)))
    (hn : ∀ x y, s.normal (.fin x) (.fin y) = (unitNormal (gx (x, y)) (gy (x, y))).fin) {q : ℝ × ℝ} (hf : DifferentiableAt ℝ f q)
    (hx : HasDerivAt (fun u => f (u, q.2)) (gx q) q.1) (hy : HasDerivAt (fun u => f (q.1, u)) (gy q) q.2)
    (bx : DifferentiableAt ℝ gx q) (by' : DifferentiableAt ℝ gy q) : SmoothAt s f gx gy q where
  sag := Eventually.of_forall fun p => hsag p.1 p.2
  normal := Eventually.of_forall fun p => hn p.1 p.2
  slopes := by
    refine hf.hasFDerivAt.congr_fderiv ?_
    have h1 : HasDerivAt (fun u => f (u, q.2)) (fderiv ℝ f q (1, 0)) q.1 :=
      HasFDerivAt.comp_hasDerivAt (f := fun u : ℝ => (u, q.2)) q.1 hf.hasFDerivAt ((hasDerivAt_id' q.1).prodMk (hasDerivAt_const q.1 q.2))
    have h2 : HasDerivAt (fun u => f (q.1, u)) (fderiv ℝ f q (0, 1)) q.2 :=
      HasFDerivAt.comp_hasDerivAt (f := fun u : ℝ => (q.1, u)) q.2 hf.hasFDerivAt ((hasDerivAt_const q.2 q.1).prodMk (hasDerivAt_id' q.2))
    ext
    · simpa using h1.unique hx
    · simpa using h2.unique hy
  bendx := bx
  bendy := by'

theorem C98_smooth_zernike {p : PolyData Dbl} {a : ℕ → ℕ → ℝ} {x0 y0 : ℝ} (hsq : p.xsize = p.ysize) (ht : Triangular a p.xsize)
    (ha : HoldsCoefs p a) (hg : HoldsGradients p a) (hx : p.xorigin = .fin x0) (hy : p.yorigin = .fin y0) (q : ℝ × ℝ) :
    ∃ f gx gy, SmoothAt (polynomial p) f gx gy q := by
  have hl : NoLostTerms a p.ysize p.xsize := hsq ▸ C25_no_term_lost ht
  refine ⟨fun p' => polyValue a p.ysize p.xsize (p'.1 - x0) (p'.2 - y0),
    fun p' => polyValue (fun i j => (i + 1) * a (i + 1) j) (p.ysize - 1) (p.xsize - 1) (p'.1 - x0) (p'.2 - y0),
    fun p' => polyValue (fun i j => (j + 1) * a i (j + 1)) (p.ysize - 1) (p.xsize - 1) (p'.1 - x0) (p'.2 - y0),
    smooth_of (C25_sag ha hx hy) ?_ (polyValue_differentiable _ _ _ _ _ _) ?_ ?_ (polyValue_differentiable _ _ _ _ _ _)
    (polyValue_differentiable _ _ _ _ _ _)⟩
  · intro x y
    refine polyNormal_fin ?_ ?_
    · rw [hx, hy, Dbl.sub_fin, Dbl.sub_fin, horner2d_fin hg.x]
    · rw [hx, hy, Dbl.sub_fin, Dbl.sub_fin, horner2d_fin hg.y]
  · dsimp only
    rw [polyValue_drop_col (fun i j => (i + 1) * a (i + 1) j) _ _ _ _ (by
      intro i hi; rw [hl.x i (by omega), mul_zero])]
    have := deriv_x a p.ysize p.xsize (q.1 - x0) (q.2 - y0)
    have hs : HasDerivAt (fun u : ℝ => u - x0) 1 q.1 := HasDerivAt.sub_const x0 (hasDerivAt_id' q.1)
    exact (HasDerivAt.comp q.1 (h₂ := fun u => polyValue a p.ysize p.xsize u (q.2 - y0)) (h := fun u => u - x0) this hs).congr_deriv
      (by ring)
  · dsimp only
    rw [polyValue_drop_row (fun i j => (j + 1) * a i (j + 1)) _ _ _ _ (by
      intro j hj; rw [hl.y j (by omega), mul_zero])]
    have := deriv_y a p.ysize p.xsize (q.1 - x0) (q.2 - y0)
    have hs : HasDerivAt (fun u : ℝ => u - y0) 1 q.2 := HasDerivAt.sub_const y0 (hasDerivAt_id' q.2)
    exact (HasDerivAt.comp q.2 (h₂ := fun u => polyValue a p.ysize p.xsize (q.1 - x0) u) (h := fun u => u - y0) this hs).congr_deriv
      (by ring)

theorem unitNormal_ratio (gx gy : ℝ) : (unitNormal gx gy).z ≠ 0 ∧ (unitNormal gx gy).x / (unitNormal gx gy).z = -gx ∧
    (unitNormal gx gy).y / (unitNormal gx gy).z = -gy := by
  have h := Real.sqrt_pos.2 (slope_pos gx gy)
  have hz : (unitNormal gx gy).z ≠ 0 := by simp only [unitNormal]; positivity
  refine ⟨hz, ?_, ?_⟩ <;> rw [div_eq_iff hz] <;> rfl

theorem sum_fderiv {α : Type} (l : List α) (f : α → ℝ × ℝ → ℝ) (gx gy : α → ℝ) (q : ℝ × ℝ)
    (h : ∀ a ∈ l, HasFDerivAt (f a) (gx a • ContinuousLinearMap.fst ℝ ℝ ℝ + gy a • ContinuousLinearMap.snd ℝ ℝ ℝ) q) :
    HasFDerivAt (fun p => (l.map fun a => f a p).sum)
      ((l.map gx).sum • ContinuousLinearMap.fst ℝ ℝ ℝ + (l.map gy).sum • ContinuousLinearMap.snd ℝ ℝ ℝ) q := by
  induction l with
  | nil => simpa using hasFDerivAt_const (0 : ℝ) q
  | cons a l ih =>
    simp only [List.map_cons, List.sum_cons]
    refine ((h a (by simp)).add (ih fun b hb => h b (by simp [hb]))).congr_fderiv ?_
    ext <;> simp

theorem sum_diff {α : Type} (l : List α) (f : α → ℝ × ℝ → ℝ) (q : ℝ × ℝ) (h : ∀ a ∈ l, DifferentiableAt ℝ (f a) q) :
    DifferentiableAt ℝ (fun p => (l.map fun a => f a p).sum) q := by
  induction l with
  | nil => simp
  | cons a l ih =>
    simp only [List.map_cons, List.sum_cons]
    exact (h a (by simp)).add (ih fun b hb => h b (by simp [hb]))

theorem C98_smooth_sum {ss : List (Surface Dbl)} {q : ℝ × ℝ} (h : ∀ s ∈ ss, ∃ f gx gy, SmoothAt s f gx gy q) :
    ∃ f gx gy, SmoothAt (Surface.sum ss) f gx gy q := by
  classical
  choose! f gx gy hs using h
  have hev : ∀ l : List (Surface Dbl), (∀ s ∈ l, s ∈ ss) → ∀ᶠ p in 𝓝 q, ∀ s ∈ l, s.sag (.fin p.1) (.fin p.2) = .fin (f s p) ∧
      s.normal (.fin p.1) (.fin p.2) = (unitNormal (gx s p) (gy s p)).fin := by
    intro l hl
    induction l with
    | nil => simp
    | cons a l ih =>
      filter_upwards [(hs a (hl a (by simp))).sag, (hs a (hl a (by simp))).normal, ih fun s hs => hl s (by simp [hs])] with p h1 h2 h3
      intro s hs
      rcases List.mem_cons.1 hs with rfl | hs
      · exact ⟨h1, h2⟩
      · exact h3 s hs
  have hev := hev ss fun _ h => h
  refine ⟨fun p => (ss.map fun s => f s p).sum, fun p => (ss.map fun s => gx s p).sum, fun p => (ss.map fun s => gy s p).sum, ?_, ?_,
    sum_fderiv ss f (fun s => gx s q) (fun s => gy s q) q fun s h => (hs s h).slopes, sum_diff ss gx q fun s h => (hs s h).bendx,
    sum_diff ss gy q fun s h => (hs s h).bendy⟩
  · filter_upwards [hev] with p hp
    exact C28_sag (fun s => f s p) p.1 p.2 fun s h => (hp s h).1
  · filter_upwards [hev] with p hp
    show sumNormal _ _ _ = _
    rw [sumNormal_eq]
    have ex : (ss.map fun s => (s.normal (.fin p.1) (.fin p.2)).x / (s.normal (.fin p.1) (.fin p.2)).z) =
        (ss.map fun s => -(gx s p)).map Dbl.fin := by
      rw [List.map_map]
      apply List.map_congr_left
      intro s h
      obtain ⟨hz, h1, -⟩ := unitNormal_ratio (gx s p) (gy s p)
      rw [(hp s h).2, V3.fin_x, V3.fin_z, Dbl.div_fin hz, h1, Function.comp]
    have ey : (ss.map fun s => (s.normal (.fin p.1) (.fin p.2)).y / (s.normal (.fin p.1) (.fin p.2)).z) =
        (ss.map fun s => -(gy s p)).map Dbl.fin := by
      rw [List.map_map]
      apply List.map_congr_left
      intro s h
      obtain ⟨hz, -, h1⟩ := unitNormal_ratio (gx s p) (gy s p)
      rw [(hp s h).2, V3.fin_y, V3.fin_z, Dbl.div_fin hz, h1, Function.comp]
    rw [ex, ey, dsum_fin, dsum_fin, neg_list_sum, neg_list_sum]
    generalize (ss.map fun s => gx s p).sum = sx
    generalize (ss.map fun s => gy s p).sum = sy
    have hp' := slope_pos sx sy
    have e : -sx * -sx + -sy * -sy + 1 = 1 + sx * sx + sy * sy := by ring
    have hsq := (Real.sqrt_pos.mpr hp').ne'
    simp only [Dbl.one_dbl, Dbl.mul_fin, Dbl.add_fin, e, Dbl.sqrt_fin hp'.le, Dbl.div_fin hsq]
    rfl

end Batoid.Props
