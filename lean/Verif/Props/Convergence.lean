import Verif.Props.Etendue
import Verif.Props.Select
import Verif.Props.Units
import Mathlib.Analysis.Calculus.MeanValue
import Mathlib.Analysis.Calculus.Deriv.MeanValue
import Mathlib.Analysis.Calculus.LocalExtr.Rolle

/-!
# Property C120: rays that meet a gently curved surface are found

Polynomials, tables, aspheres and sums are met by iteration: a fixed number of steps, then a comparison with 1e-12.  The property
says when that ends at the meeting point.  The specification speaks of the line of the ray and of the graph of the sag only: the gap between
them, the speed `closing` at which it changes along the line, and a bound on how fast that speed changes.
-/

namespace Batoid.Props
open Batoid Batoid.Surface Filter Topology

/-! ## Specification -/

/-- The point of the plane below the ray at time `u`. -/
def foot (r v : V3 ℝ) (u : ℝ) : ℝ × ℝ := ((pointAt r v u).x, (pointAt r v u).y)

/-- Speed at which a ray of velocity `v` leaves the graph of slopes `gx`, `gy` at time `u` upwards. -/
def closing (gx gy : ℝ × ℝ → ℝ) (r v : V3 ℝ) (u : ℝ) : ℝ := v.z - gx (foot r v u) * v.x - gy (foot r v u) * v.y

/-- Between the times `c - ρ` and `c + ρ` the surface has the sag `f` with slopes `gx`, `gy` and reports the normal of that graph; the ray
approaches it at least at speed `m`, and that speed differs from the one at `c` by at most `M` times the time passed. -/
structure Gentle (s : Surface Dbl) (f gx gy : ℝ × ℝ → ℝ) (r v : V3 ℝ) (c ρ m M : ℝ) : Prop where
  sag : ∀ u, |u - c| ≤ ρ → s.sag (.fin (pointAt r v u).x) (.fin (pointAt r v u).y) = .fin (f (foot r v u))
  normal : ∀ u, |u - c| ≤ ρ → s.normal (.fin (pointAt r v u).x) (.fin (pointAt r v u).y) = (unitNormal (gx (foot r v u)) (gy (foot r v u))).fin
  slopes : ∀ u, |u - c| ≤ ρ →
    HasFDerivAt f (gx (foot r v u) • ContinuousLinearMap.fst ℝ ℝ ℝ + gy (foot r v u) • ContinuousLinearMap.snd ℝ ℝ ℝ) (foot r v u)
  steep : ∀ u, |u - c| ≤ ρ → m ≤ |closing gx gy r v u|
  bends : ∀ u, |u - c| ≤ ρ → |closing gx gy r v u - closing gx gy r v c| ≤ M * |u - c|

/-- At time `t` the ray is on the surface. -/
def Meets (s : Surface Dbl) (r v : V3 ℝ) (t : ℝ) : Prop :=
  s.sag (.fin (pointAt r v t).x) (.fin (pointAt r v t).y) = .fin (pointAt r v t).z

/-- Where the iteration starts: polynomials and tables at the time that is passed in, aspheres at their quadric, sums at their first surface. -/
inductive StartsAt (r v : V3 ℝ) (dt : Dbl) (n : ℕ) (t0 : ℝ) : Surface Dbl → Prop
  | polynomial (p : PolyData Dbl) (h : dt = .fin t0) : StartsAt r v dt n t0 (polynomial p)
  | bicubic (T : Table Dbl) (h : dt = .fin t0) : StartsAt r v dt n t0 (bicubic T)
  | asphere (R k : Dbl) (cs : List Dbl) (h : (quadric R k).timeToIntersect r.fin v.fin dt n = (true, .fin t0)) : StartsAt r v dt n t0 (asphere R k cs)
  | sum (s : Surface Dbl) (ss : List (Surface Dbl)) (h : s.timeToIntersect r.fin v.fin dt n = (true, .fin t0)) : StartsAt r v dt n t0 (sum (s :: ss))

/-! ## The iteration on numbers -/

section numbers
variable {φ φ' : ℝ → ℝ} {c t u m M ρ : ℝ}

theorem within_segment {c t u w ρ : ℝ} (ht : |t - c| ≤ ρ) (hu : |u - c| ≤ ρ) (hw : w ∈ Set.uIcc t u) : |w - c| ≤ ρ := by
  rw [abs_le] at *
  rcases Set.mem_uIcc.1 hw with h | h <;> constructor <;> linarith [h.1, h.2]

/-- One step of Newton's method squares the error. -/
theorem step_error (hm : 0 < m) (hM : 0 ≤ M) (hd : ∀ w, |w - t| ≤ ρ → HasDerivAt φ (φ' w) w) (h0 : φ t = 0)
    (hs : ∀ w, |w - t| ≤ ρ → m ≤ |φ' w|) (hb : ∀ w, |w - t| ≤ ρ → |φ' w - φ' t| ≤ M * |w - t|) (hu : |u - t| ≤ ρ) :
    |u - φ u / φ' u - t| ≤ 2 * M / m * |u - t| ^ 2 := by
  have hρ : 0 ≤ ρ := (abs_nonneg _).trans hu
  have key : ‖(φ u - φ' u * u) - (φ t - φ' u * t)‖ ≤ (2 * M * |u - t|) * ‖u - t‖ := by
    refine (convex_uIcc t u).norm_image_sub_le_of_norm_hasDerivWithin_le (f := fun w => φ w - φ' u * w) (f' := fun w => φ' w - φ' u * 1) ?_ ?_
      Set.left_mem_uIcc Set.right_mem_uIcc
    · intro w hw
      exact ((hd w (within_segment (by simpa using hρ) hu hw)).sub ((hasDerivAt_id' w).const_mul (φ' u))).hasDerivWithinAt
    · intro w hw
      have h1 := within_segment (c := t) (by simpa using hρ) hu hw
      have h2 : |w - t| ≤ |u - t| := within_segment (c := t) (by simp) le_rfl hw
      rw [Real.norm_eq_abs, mul_one]
      calc |φ' w - φ' u| = |(φ' w - φ' t) - (φ' u - φ' t)| := by ring_nf
        _ ≤ |φ' w - φ' t| + |φ' u - φ' t| := abs_sub _ _
        _ ≤ M * |u - t| + M * |u - t| := add_le_add ((hb w h1).trans (mul_le_mul_of_nonneg_left h2 hM)) (hb u hu)
        _ = _ := by ring
  rw [h0, Real.norm_eq_abs, Real.norm_eq_abs] at key
  have hne : φ' u ≠ 0 := abs_pos.1 (hm.trans_le (hs u hu))
  have e : u - φ u / φ' u - t = -((φ u - φ' u * u) - (0 - φ' u * t)) / φ' u := by field_simp; ring
  rw [e, abs_div, abs_neg]
  calc _ ≤ (2 * M * |u - t| * |u - t|) / m := div_le_div₀ (by positivity) key hm (hs u hu)
    _ = _ := by ring

/-- The value is at most the largest slope times the distance from the zero. -/
theorem value_bound {B : ℝ} (hd : ∀ w, |w - c| ≤ ρ → HasDerivAt φ (φ' w) w) (hB : ∀ w, |w - c| ≤ ρ → |φ' w| ≤ B)
    (ht : |t - c| ≤ ρ) (hu : |u - c| ≤ ρ) : |φ u - φ t| ≤ B * |u - t| :=
  (convex_uIcc t u).norm_image_sub_le_of_norm_hasDerivWithin_le (f := φ) (f' := φ')
    (fun w hw => (hd w (within_segment ht hu hw)).hasDerivWithinAt) (fun w hw => hB w (within_segment ht hu hw)) Set.left_mem_uIcc Set.right_mem_uIcc

/-- A function that grows at least at rate `m` and is small has a zero near. -/
theorem zero_near {δ : ℝ} (hδ : 0 ≤ δ) (hd : ∀ w, |w - c| ≤ δ → HasDerivAt φ (φ' w) w) (hs : ∀ w, |w - c| ≤ δ → m ≤ φ' w) (h : |φ c| ≤ m * δ) :
    ∃ t, |t - c| ≤ δ ∧ φ t = 0 := by
  have hin : ∀ w ∈ Set.Icc (c - δ) (c + δ), |w - c| ≤ δ := fun w hw => abs_le.2 ⟨by linarith [hw.1], by linarith [hw.2]⟩
  have hcont : ContinuousOn φ (Set.Icc (c - δ) (c + δ)) := fun w hw => (hd w (hin w hw)).continuousAt.continuousWithinAt
  have grow := (convex_Icc (c - δ) (c + δ)).mul_sub_le_image_sub_of_le_deriv hcont
    (fun w hw => (hd w (hin w (interior_subset hw))).differentiableAt.differentiableWithinAt)
    (C := m) (fun w hw => by rw [(hd w (hin w (interior_subset hw))).deriv]; exact hs w (hin w (interior_subset hw)))
  have h1 := grow (c - δ) ⟨le_rfl, by linarith⟩ c ⟨by linarith, by linarith⟩ (by linarith)
  have h2 := grow c ⟨by linarith, by linarith⟩ (c + δ) ⟨by linarith, le_rfl⟩ (by linarith)
  rw [abs_le] at h
  obtain ⟨t, ht, e⟩ := intermediate_value_Icc (by linarith : c - δ ≤ c + δ) hcont (show (0 : ℝ) ∈ Set.Icc (φ (c - δ)) (φ (c + δ)) from
    ⟨by linarith [h.2], by linarith [h.1]⟩)
  exact ⟨t, hin t ht, e⟩

end numbers

/-! ## The iteration on a ray -/

section ray
variable {s : Surface Dbl} {f gx gy : ℝ × ℝ → ℝ} {r v : V3 ℝ} {c t ρ m M θ B : ℝ} {n : ℕ}

/-- Height of the ray above the graph. -/
def rayGap (f : ℝ × ℝ → ℝ) (r v : V3 ℝ) (u : ℝ) : ℝ := (pointAt r v u).z - f (foot r v u)

theorem rayGap_deriv (h : Gentle s f gx gy r v c ρ m M) {u : ℝ} (hu : |u - c| ≤ ρ) : HasDerivAt (rayGap f r v) (closing gx gy r v u) u := by
  have hx : HasDerivAt (fun u => r.x + u * v.x) v.x u := by simpa using ((hasDerivAt_id' u).mul_const v.x).const_add r.x
  have hy : HasDerivAt (fun u => r.y + u * v.y) v.y u := by simpa using ((hasDerivAt_id' u).mul_const v.y).const_add r.y
  have hz : HasDerivAt (fun u => r.z + u * v.z) v.z u := by simpa using ((hasDerivAt_id' u).mul_const v.z).const_add r.z
  have hf := (h.slopes u hu).comp_hasDerivAt (f := fun u => foot r v u) u (hx.prodMk hy)
  refine (hz.sub hf).congr_deriv ?_
  simp [closing]; ring

theorem newtonStep_at {u : ℝ} (hs : s.sag (.fin (pointAt r v u).x) (.fin (pointAt r v u).y) = .fin (f (foot r v u)))
    (hn : s.normal (.fin (pointAt r v u).x) (.fin (pointAt r v u).y) = (unitNormal (gx (foot r v u)) (gy (foot r v u))).fin)
    (hc : closing gx gy r v u ≠ 0) :
    newtonStep s.sag s.normal r.fin v.fin (.fin u) = .fin (u - rayGap f r v u / closing gx gy r v u) := by
  have ex : (r + v.smulR u).x = (pointAt r v u).x := by simp only [V3.add_x, V3.smulR_x, pointAt]; ring
  have ey : (r + v.smulR u).y = (pointAt r v u).y := by simp only [V3.add_y, V3.smulR_y, pointAt]; ring
  have hz := (unitNormal_ratio (gx (foot r v u)) (gy (foot r v u))).1
  have hd : V3.dot (unitNormal (gx (foot r v u)) (gy (foot r v u))) v =
      (unitNormal (gx (foot r v u)) (gy (foot r v u))).z * closing gx gy r v u := by
    simp only [V3.dot, unitNormal, closing]; ring
  unfold newtonStep
  simp only [V3.fin_smulR, V3.fin_add, V3.fin_x, V3.fin_y, V3.fin_z, ex, ey, hs, hn, V3.fin_dot, Dbl.sub_fin, Dbl.mul_fin, Dbl.add_fin]
  rw [hd, Dbl.div_fin (mul_ne_zero hz hc), Dbl.fin_inj, div_eq_iff (mul_ne_zero hz hc)]
  have e1 : (unitNormal (gx (foot r v u)) (gy (foot r v u))).x = -gx (foot r v u) * (unitNormal (gx (foot r v u)) (gy (foot r v u))).z := rfl
  have e2 : (unitNormal (gx (foot r v u)) (gy (foot r v u))).y = -gy (foot r v u) * (unitNormal (gx (foot r v u)) (gy (foot r v u))).z := rfl
  rw [e1, e2]
  generalize (unitNormal (gx (foot r v u)) (gy (foot r v u))).z = w
  have e3 : (u - rayGap f r v u / closing gx gy r v u) * (w * closing gx gy r v u) = w * (u * closing gx gy r v u - rayGap f r v u) := by
    field_simp
  rw [e3]
  simp only [rayGap, closing, pointAt]
  ring

theorem newton_at {u : ℝ} {t0 : Dbl} (hi : newtonIter s.sag s.normal r.fin v.fin n t0 = .fin u)
    (hs : s.sag (.fin (pointAt r v u).x) (.fin (pointAt r v u).y) = .fin (f (foot r v u))) :
    newton s.sag s.normal r.fin v.fin t0 n = (decide (|rayGap f r v u| < 1 / 10 ^ 12), .fin u) := by
  have ex : (r + v.smulR u).x = (pointAt r v u).x := by simp only [V3.add_x, V3.smulR_x, pointAt]; ring
  have ey : (r + v.smulR u).y = (pointAt r v u).y := by simp only [V3.add_y, V3.smulR_y, pointAt]; ring
  have ez : (r + v.smulR u).z = (pointAt r v u).z := by simp only [V3.add_z, V3.smulR_z, pointAt]; ring
  unfold newton
  simp only [hi, V3.fin_smulR, V3.fin_add, V3.fin_x, V3.fin_y, V3.fin_z, ex, ey, ez, hs, Dbl.sub_fin, Dbl.abs_fin, Dbl.const_dbl, Dbl.lt_fin]
  push_cast
  rw [abs_sub_comm]
  rfl

theorem meets_iff (h : Gentle s f gx gy r v c ρ m M) {u : ℝ} (hu : |u - c| ≤ ρ) : Meets s r v u ↔ rayGap f r v u = 0 := by
  unfold Meets rayGap
  rw [h.sag u hu, Dbl.fin_inj]
  constructor <;> intro h <;> linarith

theorem iter_add {F : Type} [Arith F] (sag : F → F → F) (normal : F → F → V3 F) (r v : V3 F) (n : ℕ) (dt : F) :
    newtonIter sag normal r v (n + 1) dt = newtonStep sag normal r v (newtonIter sag normal r v n dt) := by
  induction n generalizing dt with
  | zero => rfl
  | succ n ih => rw [newtonIter, ih, newtonIter]

theorem startsAt_time {dt : Dbl} {t0 : ℝ} (h : StartsAt r v dt n t0 s) :
    s.timeToIntersect r.fin v.fin dt n = newton s.sag s.normal r.fin v.fin (.fin t0) n := by
  cases h with
  | polynomial p h => rw [h]; rfl
  | bicubic T h => rw [h]; rfl
  | asphere R k cs h =>
    change quadricTime R k r.fin v.fin dt = _ at h
    simp only [asphere, h]
  | sum s ss h => simp only [sum, sumTime, h]

/-! ## C120 -/

/-- C120: the error of the time after `n` steps.  It goes down with the power `2 ^ n - 1` of a number below one. -/
theorem C120_converges (h : Gentle s f gx gy r v t ρ m M) (hm : 0 < m) (hM : 0 ≤ M) (ht : Meets s r v t) (hθ : 2 * M * ρ ≤ θ * m) (h1 : θ ≤ 1)
    {t0 : ℝ} (h0 : |t0 - t| ≤ ρ) (n : ℕ) :
    ∃ u, newtonIter s.sag s.normal r.fin v.fin n (.fin t0) = .fin u ∧ |u - t| ≤ ρ * θ ^ (2 ^ n - 1) := by
  have hρ : 0 ≤ ρ := (abs_nonneg _).trans h0
  have hθ0 : 0 ≤ θ := by
    by_contra hn
    have : θ * m < 0 := mul_neg_of_neg_of_pos (not_le.1 hn) hm
    nlinarith [mul_nonneg hM hρ]
  induction n with
  | zero => exact ⟨t0, rfl, by simpa using h0⟩
  | succ n ih =>
    obtain ⟨u, e, hu⟩ := ih
    have hin : |u - t| ≤ ρ := hu.trans (mul_le_of_le_one_right hρ (pow_le_one₀ hθ0 h1))
    have hz := (meets_iff h (by simpa using hρ)).1 ht
    refine ⟨u - rayGap f r v u / closing gx gy r v u, ?_, ?_⟩
    · rw [iter_add, e]
      exact newtonStep_at (h.sag u hin) (h.normal u hin) (abs_pos.1 (hm.trans_le (h.steep u hin)))
    · refine (step_error hm hM (fun w hw => rayGap_deriv h hw) hz h.steep h.bends hin).trans ?_
      have hp : (0 : ℝ) ≤ θ ^ (2 ^ n - 1) := pow_nonneg hθ0 _
      have e2 : 2 ^ (n + 1) - 1 = 1 + (2 ^ n - 1) + (2 ^ n - 1) := by have := Nat.one_le_two_pow (n := n); omega
      calc 2 * M / m * |u - t| ^ 2 ≤ 2 * M / m * (ρ * θ ^ (2 ^ n - 1)) ^ 2 := by
            refine mul_le_mul_of_nonneg_left (pow_le_pow_left₀ (abs_nonneg _) hu 2) (by positivity)
        _ = (2 * M * ρ) / m * (ρ * θ ^ (2 ^ n - 1) * θ ^ (2 ^ n - 1)) := by ring
        _ ≤ θ * (ρ * θ ^ (2 ^ n - 1) * θ ^ (2 ^ n - 1)) := by
            refine mul_le_mul_of_nonneg_right ?_ (by positivity)
            rw [div_le_iff₀ hm]; exact hθ
        _ = ρ * θ ^ (2 ^ (n + 1) - 1) := by rw [e2, pow_add, pow_add]; ring

/-- C120: the ray is found if the error left after `n` steps, times the largest closing speed, is below the tolerance. -/
theorem C120_found (h : Gentle s f gx gy r v t ρ m M) (hm : 0 < m) (hM : 0 ≤ M) (ht : Meets s r v t) (hθ : 2 * M * ρ ≤ θ * m) (h1 : θ ≤ 1)
    (hB : ∀ u, |u - t| ≤ ρ → |closing gx gy r v u| ≤ B) {dt : Dbl} {t0 : ℝ} (hs : StartsAt r v dt n t0 s) (h0 : |t0 - t| ≤ ρ)
    (hn : B * (ρ * θ ^ (2 ^ n - 1)) < 1 / 10 ^ 12) :
    ∃ u, s.timeToIntersect r.fin v.fin dt n = (true, .fin u) ∧ |u - t| ≤ ρ * θ ^ (2 ^ n - 1) := by
  obtain ⟨u, e, hu⟩ := C120_converges h hm hM ht hθ h1 h0 n
  have hρ : 0 ≤ ρ := (abs_nonneg _).trans h0
  have hθ0 : 0 ≤ θ := by
    by_contra hn
    have : θ * m < 0 := mul_neg_of_neg_of_pos (not_le.1 hn) hm
    nlinarith [mul_nonneg hM hρ]
  have hin : |u - t| ≤ ρ := hu.trans (mul_le_of_le_one_right hρ (pow_le_one₀ hθ0 h1))
  refine ⟨u, ?_, hu⟩
  rw [startsAt_time hs, newton_at e (h.sag u hin), Prod.mk.injEq]
  refine ⟨decide_eq_true ?_, rfl⟩
  have hc : |t - t| ≤ ρ := by simpa using hρ
  have := value_bound (fun w hw => rayGap_deriv h hw) hB hc hin
  rw [(meets_iff h hc).1 ht, sub_zero] at this
  have hB0 : 0 ≤ B := (abs_nonneg _).trans (hB t hc)
  exact (this.trans (mul_le_mul_of_nonneg_left hu hB0)).trans_lt hn

/-- C120: in the same stretch of the line there is no other meeting point. -/
theorem C120_only (h : Gentle s f gx gy r v c ρ m M) (hm : 0 < m) {t u : ℝ} (ht : Meets s r v t) (hu : Meets s r v u)
    (h1 : |t - c| ≤ ρ) (h2 : |u - c| ≤ ρ) : t = u := by
  rw [meets_iff h h1] at ht
  rw [meets_iff h h2] at hu
  by_contra hne
  rcases lt_or_gt_of_ne hne with hlt | hlt
  · obtain ⟨w, hw, e⟩ := exists_hasDerivAt_eq_zero hlt (f := rayGap f r v) (f' := closing gx gy r v)
      (fun w hw => (rayGap_deriv h (within_segment h1 h2 (by rw [Set.uIcc_of_le hlt.le]; exact hw))).continuousAt.continuousWithinAt) (ht.trans hu.symm)
      (fun w hw => rayGap_deriv h (within_segment h1 h2 (by rw [Set.uIcc_of_le hlt.le]; exact ⟨hw.1.le, hw.2.le⟩)))
    have := h.steep w (within_segment h1 h2 (by rw [Set.uIcc_of_le hlt.le]; exact ⟨hw.1.le, hw.2.le⟩))
    rw [e, abs_zero] at this; linarith
  · obtain ⟨w, hw, e⟩ := exists_hasDerivAt_eq_zero hlt (f := rayGap f r v) (f' := closing gx gy r v)
      (fun w hw => (rayGap_deriv h (within_segment h2 h1 (by rw [Set.uIcc_of_le hlt.le]; exact hw))).continuousAt.continuousWithinAt) (hu.trans ht.symm)
      (fun w hw => rayGap_deriv h (within_segment h2 h1 (by rw [Set.uIcc_of_le hlt.le]; exact ⟨hw.1.le, hw.2.le⟩)))
    have := h.steep w (within_segment h2 h1 (by rw [Set.uIcc_of_le hlt.le]; exact ⟨hw.1.le, hw.2.le⟩))
    rw [e, abs_zero] at this; linarith

/-- C120 without knowing the meeting point: if the ray starts the iteration at height at most `ε` from the surface, there is a meeting point within
time `ε / m`, only one within `2 ε / m`, and it is found. -/
theorem C120_figure {ε t0 : ℝ} (h : Gentle s f gx gy r v t0 (2 * (ε / m)) m M) (hm : 0 < m) (hM : 0 ≤ M)
    (hL : ∀ u w, |u - t0| ≤ 2 * (ε / m) → |w - t0| ≤ 2 * (ε / m) → |closing gx gy r v u - closing gx gy r v w| ≤ M * |u - w|)
    (hε : |f (foot r v t0) - (pointAt r v t0).z| ≤ ε) (hθ : 2 * M * (ε / m) ≤ θ * m) (h1 : θ ≤ 1)
    (hB : ∀ u, |u - t0| ≤ 2 * (ε / m) → |closing gx gy r v u| ≤ B) {dt : Dbl} (hs : StartsAt r v dt n t0 s)
    (hn : B * (ε / m * θ ^ (2 ^ n - 1)) < 1 / 10 ^ 12) :
    ∃ t, Meets s r v t ∧ |t - t0| ≤ ε / m ∧ (∀ t', Meets s r v t' → |t' - t0| ≤ 2 * (ε / m) → t' = t) ∧
      ∃ u, s.timeToIntersect r.fin v.fin dt n = (true, .fin u) ∧ |u - t| ≤ ε / m * θ ^ (2 ^ n - 1) := by
  have hε0 : 0 ≤ ε := (abs_nonneg _).trans hε
  have hδ : 0 ≤ ε / m := by positivity
  have wide : ∀ {u : ℝ}, |u - t0| ≤ ε / m → |u - t0| ≤ 2 * (ε / m) := fun hu => by linarith
  have hc : |t0 - t0| ≤ 2 * (ε / m) := by simp; linarith
  have hsmall : ∀ u, |u - t0| ≤ ε / m → |closing gx gy r v u - closing gx gy r v t0| ≤ m / 2 := by
    intro u hu
    refine (h.bends u (wide hu)).trans ?_
    have := mul_le_mul_of_nonneg_left hu hM
    have : θ * m ≤ 1 * m := mul_le_mul_of_nonneg_right h1 hm.le
    linarith
  have hgap : |rayGap f r v t0| ≤ m * (ε / m) := by
    rw [mul_div_cancel₀ _ hm.ne']; unfold rayGap; rw [abs_sub_comm]; exact hε
  obtain ⟨t, ht, hz⟩ : ∃ t, |t - t0| ≤ ε / m ∧ rayGap f r v t = 0 := by
    have hk := h.steep t0 hc
    rcases le_or_gt 0 (closing gx gy r v t0) with hp | hp
    · rw [abs_of_nonneg hp] at hk
      refine zero_near hδ (fun w hw => rayGap_deriv h (wide hw)) (fun w hw => ?_) hgap
      have h2 := h.steep w (wide hw)
      have h3 := (abs_le.1 (hsmall w hw)).1
      rwa [abs_of_nonneg (by linarith)] at h2
    · rw [abs_of_neg hp] at hk
      obtain ⟨t, h2, h3⟩ := zero_near (φ := fun u => -rayGap f r v u) (φ' := fun u => -closing gx gy r v u) (m := m) hδ
        (fun w hw => (rayGap_deriv h (wide hw)).neg) (fun w hw => by
          have h2 := h.steep w (wide hw)
          have h3 := (abs_le.1 (hsmall w hw)).2
          rwa [abs_of_nonpos (by linarith)] at h2) (by rw [abs_neg]; exact hgap)
      exact ⟨t, h2, neg_eq_zero.1 h3⟩
  have hmeet := (meets_iff h (wide ht)).2 hz
  have sub : ∀ u, |u - t| ≤ ε / m → |u - t0| ≤ 2 * (ε / m) := fun u hu => by
    have := abs_add_le (u - t) (t - t0)
    rw [sub_add_sub_cancel] at this; linarith
  have g : Gentle s f gx gy r v t (ε / m) m M :=
    ⟨fun u hu => h.sag u (sub u hu), fun u hu => h.normal u (sub u hu), fun u hu => h.slopes u (sub u hu), fun u hu => h.steep u (sub u hu),
      fun u hu => hL u t (sub u hu) (wide ht)⟩
  refine ⟨t, hmeet, ht, fun t' h2 h3 => C120_only h hm h2 hmeet h3 (wide ht), ?_⟩
  exact C120_found g hm hM hmeet hθ h1 (fun u hu => hB u (sub u hu)) hs (by rw [abs_sub_comm]; exact ht) hn

/-- C120: a ray that crosses a smooth surface is found by enough steps from every start near enough. -/
theorem C120_near (hs : ∀ᶠ p in 𝓝 (foot r v t), ∃ f gx gy, SmoothAt s f gx gy p) (ht : Meets s r v t)
    (hg : ∀ n : V3 ℝ, s.normal (.fin (pointAt r v t).x) (.fin (pointAt r v t).y) = n.fin → V3.dot n v ≠ 0) :
    ∃ ρ > 0, ∃ N, ∀ n ≥ N, ∀ dt t0, StartsAt r v dt n t0 s → |t0 - t| ≤ ρ →
      ∃ u, s.timeToIntersect r.fin v.fin dt n = (true, .fin u) ∧ |u - t| ≤ ρ * (1 / 2) ^ (2 ^ n - 1) := by
  obtain ⟨f, gx, gy, h⟩ := hs.self_of_nhds
  have hf : ∀ᶠ p in 𝓝 (foot r v t), HasFDerivAt f (gx p • ContinuousLinearMap.fst ℝ ℝ ℝ + gy p • ContinuousLinearMap.snd ℝ ℝ ℝ) p := by
    filter_upwards [hs, eventually_eventually_nhds.2 h.sag, h.normal] with p ⟨f2, gx2, gy2, hp⟩ h1 h2
    have h3 := hp.normal.self_of_nhds
    rw [h2, V3.fin_inj] at h3
    obtain ⟨e1, e2⟩ := unitNormal_inj h3
    rw [e1, e2]
    refine hp.slopes.congr_of_eventuallyEq ?_
    filter_upwards [h1, hp.sag] with p' g1 g2
    rw [g1, Dbl.fin_inj] at g2
    exact g2
  have hfoot : DifferentiableAt ℝ (foot r v) t := by
    unfold foot pointAt
    fun_prop
  have hcl : DifferentiableAt ℝ (closing gx gy r v) t := by
    have b1 : DifferentiableAt ℝ (fun u => gx (foot r v u)) t := h.bendx.comp t hfoot
    have b2 : DifferentiableAt ℝ (fun u => gy (foot r v u)) t := h.bendy.comp t hfoot
    exact ((differentiableAt_const _).sub (b1.mul_const _)).sub (b2.mul_const _)
  have hk : closing gx gy r v t ≠ 0 := by
    have h1 := hg _ h.normal.self_of_nhds
    intro h0; apply h1
    have : V3.dot (unitNormal (gx (foot r v t)) (gy (foot r v t))) v = (unitNormal (gx (foot r v t)) (gy (foot r v t))).z * closing gx gy r v t := by
      simp only [V3.dot, unitNormal, closing]; ring
    rw [this, h0, mul_zero]
  obtain ⟨K, hKpos, hK⟩ := hcl.isBigO_sub.exists_pos
  have hK := hK.bound
  have hcont := hfoot.continuousAt
  set k := |closing gx gy r v t| with hkdef
  have hkpos : 0 < k := abs_pos.2 hk
  have hlow : ∀ᶠ u in 𝓝 t, k / 2 < |closing gx gy r v u| := hcl.continuousAt.abs.eventually_const_lt (by simpa [← hkdef] using half_lt_self hkpos)
  have hup : ∀ᶠ u in 𝓝 t, |closing gx gy r v u| < 2 * k := hcl.continuousAt.abs.eventually_lt_const (by show k < 2 * k; linarith)
  obtain ⟨δ, hδ, hball⟩ := Metric.eventually_nhds_iff.1 ((((hcont.eventually h.sag).and (hcont.eventually h.normal)).and (hcont.eventually hf)).and
    ((hlow.and hup).and hK))
  have inside : ∀ {ρ : ℝ}, ρ < δ → ∀ u, |u - t| ≤ ρ → dist u t < δ := fun hρ u hu => by rw [Real.dist_eq]; linarith
  obtain ⟨ρ, hρ, hρδ, hρK⟩ : ∃ ρ > 0, ρ < δ ∧ 2 * K * ρ ≤ 1 / 2 * (k / 2) := by
    refine ⟨min (δ / 2) (k / (8 * K)), lt_min (by linarith) (by positivity), (min_le_left _ _).trans_lt (by linarith), ?_⟩
    calc 2 * K * min (δ / 2) (k / (8 * K)) ≤ 2 * K * (k / (8 * K)) := mul_le_mul_of_nonneg_left (min_le_right _ _) (by positivity)
      _ = _ := by field_simp; norm_num
  have g : Gentle s f gx gy r v t ρ (k / 2) K :=
    ⟨fun u hu => (hball (inside hρδ u hu)).1.1.1, fun u hu => (hball (inside hρδ u hu)).1.1.2, fun u hu => (hball (inside hρδ u hu)).1.2,
      fun u hu => (hball (inside hρδ u hu)).2.1.1.le, fun u hu => by simpa [Real.norm_eq_abs] using (hball (inside hρδ u hu)).2.2⟩
  obtain ⟨N, hN⟩ := exists_pow_lt_of_lt_one (show (0 : ℝ) < 1 / 10 ^ 12 / (2 * k * ρ) by positivity) (show (1 / 2 : ℝ) < 1 by norm_num)
  refine ⟨ρ, hρ, N, fun n hn dt t0 hst h0 => ?_⟩
  refine C120_found g (by positivity) hKpos.le ht hρK (by norm_num) (fun u hu => (hball (inside hρδ u hu)).2.1.2.le) hst h0 ?_
  have hle : ((1 : ℝ) / 2) ^ (2 ^ n - 1) ≤ (1 / 2) ^ N := by
    refine pow_le_pow_of_le_one (by norm_num) (by norm_num) ?_
    have := Nat.lt_two_pow_self (n := n)
    omega
  rw [lt_div_iff₀ (by positivity)] at hN
  calc 2 * k * (ρ * (1 / 2) ^ (2 ^ n - 1)) ≤ 2 * k * (ρ * (1 / 2) ^ N) := by gcongr
    _ = (1 / 2) ^ N * (2 * k * ρ) := by ring
    _ < _ := hN

/-- C120: a ray parallel to the axis is met exactly by one or more steps from any start, wherever the surface has a sag and a normal. -/
theorem C120_parallel {z : ℝ} {ν : V3 ℝ} (hsag : s.sag (.fin r.x) (.fin r.y) = .fin z) (hn : s.normal (.fin r.x) (.fin r.y) = ν.fin) (hν : ν.z ≠ 0)
    {k : ℝ} (hk : k ≠ 0) {dt : Dbl} {t0 : ℝ} (hs : StartsAt r ⟨0, 0, k⟩ dt (n + 1) t0 s) :
    s.timeToIntersect r.fin (V3.fin ⟨0, 0, k⟩) dt (n + 1) = (true, .fin ((z - r.z) / k)) ∧ Meets s r ⟨0, 0, k⟩ ((z - r.z) / k) := by
  have hd : V3.dot ν ⟨0, 0, k⟩ ≠ 0 := by simp only [V3.dot]; simpa using ⟨hν, hk⟩
  have step : ∀ u : ℝ, newtonStep s.sag s.normal r.fin (V3.fin ⟨0, 0, k⟩) (.fin u) = .fin ((z - r.z) / k) := by
    intro u
    unfold newtonStep
    simp only [V3.fin_smulR, V3.fin_add, V3.fin_x, V3.fin_y, V3.fin_z, V3.add_x, V3.add_y, V3.smulR_x, V3.smulR_y, zero_mul, add_zero, hsag, hn, V3.fin_dot, Dbl.sub_fin,
      Dbl.mul_fin, Dbl.add_fin, Dbl.div_fin hd, Dbl.fin_inj]
    simp only [V3.dot]
    field_simp
    ring
  have iter : ∀ j (u : ℝ), newtonIter s.sag s.normal r.fin (V3.fin ⟨0, 0, k⟩) (j + 1) (.fin u) = .fin ((z - r.z) / k) := by
    intro j
    induction j with
    | zero => intro u; exact step u
    | succ j ih => intro u; rw [newtonIter, step, ih]
  have hm : Meets s r ⟨0, 0, k⟩ ((z - r.z) / k) := by
    simp only [Meets, pointAt, mul_zero, add_zero, hsag, div_mul_cancel₀ _ hk]; simp
  refine ⟨?_, hm⟩
  rw [startsAt_time hs, newton_at (f := fun _ => z) (iter n t0) (by simpa [pointAt] using hsag), Prod.mk.injEq]
  refine ⟨decide_eq_true ?_, rfl⟩
  simp [rayGap, pointAt, div_mul_cancel₀ _ hk]

/-- C120: polynomial surfaces, rays parallel to the axis. -/
theorem C120_parallel_polynomial {p : PolyData Dbl} {a : ℕ → ℕ → ℝ} {x0 y0 : ℝ} (ha : HoldsCoefs p a) (hg : HoldsGradients p a)
    (hx : p.xorigin = .fin x0) (hy : p.yorigin = .fin y0) (r : V3 ℝ) {k : ℝ} (hk : k ≠ 0) (t0 : ℝ) (n : ℕ) :
    (polynomial p).timeToIntersect r.fin (V3.fin ⟨0, 0, k⟩) (.fin t0) (n + 1) =
      (true, .fin ((polyValue a p.ysize p.xsize (r.x - x0) (r.y - y0) - r.z) / k)) := by
  have hn : (polynomial p).normal (.fin r.x) (.fin r.y) =
      (unitNormal (polyValue (fun i j => (i + 1) * a (i + 1) j) (p.ysize - 1) (p.xsize - 1) (r.x - x0) (r.y - y0))
        (polyValue (fun i j => (j + 1) * a i (j + 1)) (p.ysize - 1) (p.xsize - 1) (r.x - x0) (r.y - y0))).fin := by
    refine polyNormal_fin ?_ ?_
    · rw [hx, hy, Dbl.sub_fin, Dbl.sub_fin, horner2d_fin hg.x]
    · rw [hx, hy, Dbl.sub_fin, Dbl.sub_fin, horner2d_fin hg.y]
  exact (C120_parallel (C25_sag ha hx hy r.x r.y) hn (unitNormal_ratio _ _).1 hk (.polynomial p rfl)).1

/-- The start of an asphere for a ray parallel to the axis: the near sheet of the quadric. -/
theorem quadric_parallel {R k : ℝ} (hR : R ≠ 0) (hk : k + 1 ≠ 0) {r : V3 ℝ} (hd : (r.x, r.y) ∈ quadricDomain R k) {κ : ℝ} (hκ : κ ≠ 0)
    (hstart : OnQuadric R k r → 0 < (k + 1) * (κ * ((k + 1) * r.z - R))) (dt : Dbl) (n : ℕ) :
    (quadric (Dbl.fin R) (Dbl.fin k)).timeToIntersect r.fin (V3.fin ⟨0, 0, κ⟩) dt n = (true, .fin ((conicSag R k (r.x * r.x + r.y * r.y) - r.z) / κ)) := by
  have hp := quadric_root_pos hR hd
  have hs := Real.sqrt_pos.2 hp
  have hss := Real.mul_self_sqrt hp.le
  have hz : conicSag R k (r.x * r.x + r.y * r.y) = R * (1 - Real.sqrt (1 - (r.x * r.x + r.y * r.y) * ((k + 1) / R / R))) / (k + 1) := by
    unfold conicSag
    generalize Real.sqrt (1 - (r.x * r.x + r.y * r.y) * ((k + 1) / R / R)) = q at hs hss
    have : 1 + q ≠ 0 := by positivity
    rw [div_eq_div_iff (mul_ne_zero hR this) hk]
    have e : R * R * (q * q) = R * R - (r.x * r.x + r.y * r.y) * (k + 1) := by rw [hss]; field_simp
    linear_combination e
  refine C96_quadric hk (by simpa using ⟨hk, hκ⟩) ?_ (fun h => by simpa [V3.dot] using hstart h)
  generalize Real.sqrt (1 - (r.x * r.x + r.y * r.y) * ((k + 1) / R / R)) = q at hs hss hz
  have e : R * R * (q * q) = R * R - (r.x * r.x + r.y * r.y) * (k + 1) := by rw [hss]; field_simp
  have on : ∀ u, OnQuadric R k (pointAt r ⟨0, 0, κ⟩ u) ↔ r.z + u * κ = R * (1 - q) / (k + 1) ∨ r.z + u * κ = R * (1 + q) / (k + 1) := by
    intro u
    simp only [OnQuadric, pointAt, mul_zero, add_zero]
    generalize r.z + u * κ = z
    rw [eq_div_iff hk, eq_div_iff hk]
    have : (r.x ^ 2 + r.y ^ 2 = 2 * R * z - (1 + k) * z ^ 2) ↔ (z * (k + 1) - R * (1 - q)) * (z * (k + 1) - R * (1 + q)) = 0 := by
      constructor
      · intro h; linear_combination (k + 1) * h - e
      · intro h
        have : (k + 1) * (r.x ^ 2 + r.y ^ 2 - (2 * R * z - (1 + k) * z ^ 2)) = 0 := by linear_combination h + e
        rcases mul_eq_zero.1 this with h0 | h0
        · exact absurd h0 hk
        · linarith
    rw [this, mul_eq_zero, sub_eq_zero, sub_eq_zero]
  have ez : r.z + (conicSag R k (r.x * r.x + r.y * r.y) - r.z) / κ * κ = R * (1 - q) / (k + 1) := by rw [div_mul_cancel₀ _ hκ, hz]; ring
  refine ⟨(on _).2 (.inl ez), fun u hu hne => ?_⟩
  rcases (on u).1 hu with h | h
  · exfalso; apply hne
    rw [eq_div_iff hκ, hz]; linarith
  · simp only [offPlane, pointAt]
    rw [ez, h, abs_div, abs_div, abs_mul, abs_mul]
    have hq : |1 - q| < |1 + q| := by
      rw [abs_of_pos (by linarith : 0 < 1 + q), abs_lt]; constructor <;> linarith
    have := abs_pos.2 hR
    have := abs_pos.2 hk
    gcongr

/-- C120: aspheres, rays parallel to the axis. -/
theorem C120_parallel_asphere {R k : ℝ} (hR : R ≠ 0) (hk : k + 1 ≠ 0) (cs : List ℝ) {r : V3 ℝ} (hd : (r.x, r.y) ∈ quadricDomain R k) {κ : ℝ} (hκ : κ ≠ 0)
    (hstart : OnQuadric R k r → 0 < (k + 1) * (κ * ((k + 1) * r.z - R))) (dt : Dbl) (n : ℕ) :
    (asphere (Dbl.fin R) (Dbl.fin k) (cs.map Dbl.fin)).timeToIntersect r.fin (V3.fin ⟨0, 0, κ⟩) dt (n + 1) =
      (true, .fin ((conicSag R k (r.x * r.x + r.y * r.y) + evenPoly 1 cs (r.x * r.x + r.y * r.y) - r.z) / κ)) :=
  (C120_parallel (asphereSag_fin cs hR (quadric_root_pos hR hd).le) (radialNormal_fin (asphereDzdr_at cs hR hd)) (unitNormal_ratio _ _).1 hκ
    (.asphere _ _ _ (quadric_parallel hR hk hd hκ hstart dt (n + 1)))).1

end ray

/-! ## The limit -/

/-- Five steps are not always enough: a ray crosses the trough `z = x ^ 2` at right angles to its axis one metre up, and is lost because it starts
100 m from the crossing. -/
theorem C120_far_violated : Meets (polynomial (trough 1 2)) ⟨-101, 0, 1⟩ ⟨1, 0, 0⟩ 100 ∧
    ((polynomial (trough 1 2)).timeToIntersect (V3.fin ⟨-101, 0, 1⟩) (V3.fin ⟨1, 0, 0⟩) 0 5).1 = false := by
  refine ⟨?_, ?_⟩
  · show polySag _ _ _ = _
    rw [trough_sag]; norm_num [pointAt]
  -- below `-1` every step goes at most half the way to `0`
  have step : ∀ u : ℝ, -101 + u ≤ -1 → ∃ u' : ℝ, newtonStep (polySag (trough 1 2)) (polyNormal (trough 1 2)) (V3.fin ⟨-101, 0, 1⟩) (V3.fin ⟨1, 0, 0⟩) (.fin u) = .fin u' ∧
      -101 + u' ≤ (-101 + u) / 2 := by
    intro u hu
    refine ⟨u - (1 * (-101 + u) ^ 2 - 1) / (2 * (-101 + u)), trough_step (c := 1) (g := 2) (a := -101) (h := 1) (dt := u) (by norm_num) (by linarith), ?_⟩
    have hne : -101 + u ≠ 0 := by linarith
    have e : -101 + (u - (1 * (-101 + u) ^ 2 - 1) / (2 * (-101 + u))) = (-101 + u) / 2 + 1 / (2 * (-101 + u)) := by field_simp; ring
    rw [e]
    have : 1 / (2 * (-101 + u)) ≤ 0 := div_nonpos_of_nonneg_of_nonpos (by norm_num) (by linarith)
    linarith
  obtain ⟨u1, e1, h1⟩ := step 0 (by norm_num)
  obtain ⟨u2, e2, h2⟩ := step u1 (by linarith)
  obtain ⟨u3, e3, h3⟩ := step u2 (by linarith)
  obtain ⟨u4, e4, h4⟩ := step u3 (by linarith)
  obtain ⟨u5, e5, h5⟩ := step u4 (by linarith)
  have it : newtonIter (polynomial (trough 1 2)).sag (polynomial (trough 1 2)).normal (V3.fin ⟨-101, 0, 1⟩) (V3.fin ⟨1, 0, 0⟩) 5 0 = .fin u5 := by
    show newtonIter (polySag (trough 1 2)) (polyNormal (trough 1 2)) _ _ 5 0 = _
    rw [Dbl.zero_dbl]
    simp only [newtonIter, e1, e2, e3, e4, e5]
  show (newton (polynomial (trough 1 2)).sag (polynomial (trough 1 2)).normal _ _ _ _).1 = false
  rw [newton_at (f := fun p => 1 * p.1 ^ 2) it (trough_sag 1 2 _ _)]
  refine decide_eq_false ?_
  simp only [rayGap, foot, pointAt, not_lt, mul_zero, mul_one, add_zero, one_mul]
  rw [abs_sub_comm]
  refine le_trans ?_ (le_abs_self _)
  norm_num
  nlinarith

/-! ## Concrete cases -/

/-- A shallow trough and an oblique ray that starts the iteration 12 mm from it: two steps are enough. -/
theorem shallow_gentle : Gentle (polynomial (trough (1/100) (1/50))) (fun p => 1/100 * p.1 ^ 2) (fun p => 1/50 * p.1) (fun _ => 0) ⟨1, 0, 1⟩ ⟨1/10, 0, -1⟩ 1 (2 * (1/50/1)) 1 (1/5000) where
  sag u _ := trough_sag _ _ _ _
  normal u _ := by
    show polyNormal _ _ _ = _
    rw [trough_normal]
    simp only [unitNormal, V3.fin, V3.map, neg_zero, zero_mul, add_zero, pow_two, add_comm (1 : ℝ)]
    rfl
  slopes u _ := by
    have h1 : HasFDerivAt (fun p : ℝ × ℝ => p.1) (ContinuousLinearMap.fst ℝ ℝ ℝ) (foot ⟨1, 0, 1⟩ ⟨1/10, 0, -1⟩ u) := hasFDerivAt_fst
    refine ((h1.pow 2).const_mul (1/100)).congr_fderiv ?_
    ext <;> simp
    ring
  steep u hu := by
    rw [abs_le] at hu
    simp only [closing, foot, pointAt, zero_mul, sub_zero]
    rw [abs_of_neg (by linarith [hu.1, hu.2])]
    linarith [hu.1, hu.2]
  bends u hu := by
    simp only [closing, foot, pointAt]
    rw [show ((-1 : ℝ) - 1 / 50 * (1 + u * (1 / 10)) * (1 / 10) - 0 * 0 - (-1 - 1 / 50 * (1 + 1 * (1 / 10)) * (1 / 10) - 0 * 0)) = -(1/5000) * (u - 1) by ring, abs_mul]
    norm_num

example : ∃ t, Meets (polynomial (trough (1/100) (1/50))) ⟨1, 0, 1⟩ ⟨1/10, 0, -1⟩ t ∧ |t - 1| ≤ 1/50 ∧
    ∃ u, (polynomial (trough (1/100) (1/50))).timeToIntersect (V3.fin ⟨1, 0, 1⟩) (V3.fin ⟨1/10, 0, -1⟩) (.fin 1) 2 = (true, .fin u) ∧ |u - t| ≤ 1 / 10 ^ 13 := by
  obtain ⟨t, h1, h2, -, u, h3, h4⟩ := C120_figure (θ := 1/100000) (B := 2) (n := 2) (dt := .fin 1) shallow_gentle (by norm_num) (by norm_num) (fun u w _ _ => by
    simp only [closing, foot, pointAt]
    rw [show ((-1 : ℝ) - 1 / 50 * (1 + u * (1 / 10)) * (1 / 10) - 0 * 0 - (-1 - 1 / 50 * (1 + w * (1 / 10)) * (1 / 10) - 0 * 0)) = -(1/5000) * (u - w) by ring, abs_mul]
    norm_num) (by norm_num [foot, pointAt, abs_of_pos]) (by norm_num) (by norm_num) (fun u hu => by
      rw [abs_le] at hu
      simp only [closing, foot, pointAt, zero_mul, sub_zero]
      rw [abs_of_neg (by linarith [hu.1, hu.2])]
      linarith [hu.1, hu.2]) (.polynomial _ rfl) (by norm_num)
  exact ⟨t, h1, by simpa using h2, u, h3, h4.trans (by norm_num)⟩

/-- An asphere on a hyperboloid, a ray parallel to the axis that starts above it. -/
example (n : ℕ) : ∃ t, (asphere (Dbl.fin 20) (Dbl.fin (-1.2)) ([1/1000].map Dbl.fin)).timeToIntersect (V3.fin ⟨1, 1, 5⟩) (V3.fin ⟨0, 0, -1⟩) 0 (n + 1) = (true, .fin t) := by
  refine ⟨_, C120_parallel_asphere (r := ⟨1, 1, 5⟩) (by norm_num) (by norm_num) [1/1000] (by norm_num [quadricDomain]) (by norm_num) ?_ 0 n⟩
  intro h
  norm_num [OnQuadric] at h

/-- A paraboloid with a flat added to it, met at its vertex by an oblique ray. -/
example : ∃ ρ > 0, ∃ N, ∀ n ≥ N, ∀ dt t0, StartsAt ⟨-1, 0, 1⟩ ⟨1, 0, -1⟩ dt n t0 (Surface.sum [paraboloid (Dbl.fin 10), plane]) → |t0 - 1| ≤ ρ →
    ∃ u, (Surface.sum [paraboloid (Dbl.fin 10), plane]).timeToIntersect (V3.fin ⟨-1, 0, 1⟩) (V3.fin ⟨1, 0, -1⟩) dt n = (true, .fin u) ∧
      |u - 1| ≤ ρ * (1 / 2) ^ (2 ^ n - 1) := by
  have hx : (pointAt ⟨-1, 0, 1⟩ ⟨1, 0, -1⟩ 1) = ⟨0, 0, 0⟩ := by norm_num [pointAt]
  have hsm : ∀ q, ∃ f gx gy, SmoothAt (Surface.sum [paraboloid (Dbl.fin 10), plane]) f gx gy q := fun q =>
    C98_smooth_sum (by simp only [List.mem_cons, List.not_mem_nil, or_false, forall_eq_or_imp, forall_eq]
                       exact ⟨C98_smooth_paraboloid (by norm_num) q, C98_smooth_plane q⟩)
  refine C120_near (Eventually.of_forall hsm) ?_ ?_
  · unfold Meets
    rw [hx]
    show sumSag _ _ _ = _
    simp [sumSag, plane, paraboloid, paraboloidSag_fin (R := 10) (by norm_num), Dbl.zero_dbl]
  · intro n hn
    rw [hx] at hn
    have e : (Surface.sum [paraboloid (Dbl.fin 10), plane]).normal (.fin 0) (.fin 0) = (⟨0, 0, 1⟩ : V3 ℝ).fin := by
      show sumNormal _ _ _ = _
      have h10 : (10 : ℝ) ≠ 0 := by norm_num
      have h1 : (1 : ℝ) ≠ 0 := one_ne_zero
      simp only [sumNormal, plane, paraboloid, paraboloidNormal, List.foldl_cons, List.foldl_nil, Dbl.zero_dbl, Dbl.one_dbl, Dbl.eq_fin, h10, decide_false, Bool.false_eq_true, if_false,
        Dbl.div_fin h10, Dbl.mul_fin, Dbl.add_fin, zero_mul, mul_zero, add_zero, Dbl.sqrt_fin zero_le_one, Real.sqrt_one, Dbl.div_fin h1, div_one, Dbl.neg_fin, neg_zero, zero_add]
      rfl
    rw [e, V3.fin_inj] at hn
    rw [← hn]; norm_num [V3.dot]

end Batoid.Props
