import Verif.RayVector
import Verif.Props.Frames
import Mathlib.Analysis.SpecialFunctions.Complex.Circle

/-!
# Free propagation, phases, amplitudes, indexing and comparison of ray vectors (C38-C41, C47)
-/

namespace Batoid.Props
open Batoid

/-- A finite ray with the given data. -/
noncomputable def finRay (r v : V3 ℝ) (t w fl : ℝ) (vig fail : Bool) : Ray Dbl :=
  ⟨r.fin, v.fin, .fin t, .fin w, .fin fl, vig, fail⟩

/-! ## C38 -/

/-- A ray moves along its line: `positionAtTime s` is the point reached after `s - t` at constant velocity, and
`propagate s` puts the ray there. -/
theorem C38_straight_line (r v : V3 ℝ) (t w fl : ℝ) (vig fail : Bool) (s : ℝ) :
    (finRay r v t w fl vig fail).positionAtTime (.fin s) = (⟨r.x + (s - t) * v.x, r.y + (s - t) * v.y, r.z + (s - t) * v.z⟩ : V3 ℝ).fin ∧
      (finRay r v t w fl vig fail).propagate (.fin s) =
        finRay ⟨r.x + (s - t) * v.x, r.y + (s - t) * v.y, r.z + (s - t) * v.z⟩ v s w fl vig fail := by
  have h : r.fin + v.fin.smulR (Dbl.fin s - Dbl.fin t) = (⟨r.x + (s - t) * v.x, r.y + (s - t) * v.y, r.z + (s - t) * v.z⟩ : V3 ℝ).fin := by
    rw [Dbl.sub_fin, V3.fin_smulR, V3.fin_add, V3.fin_inj]
    ext <;> simp <;> ring
  exact ⟨h, by simp only [Ray.propagate, finRay, h]⟩

/-- In any arithmetic propagation changes only position and time, and the time becomes the target. -/
theorem C38_keeps_the_rest {F : Type} [Arith F] (ray : Ray F) (s : F) :
    (ray.propagate s).v = ray.v ∧ (ray.propagate s).wavelength = ray.wavelength ∧ (ray.propagate s).flux = ray.flux ∧
      (ray.propagate s).vignetted = ray.vignetted ∧ (ray.propagate s).failed = ray.failed ∧ (ray.propagate s).t = s ∧
      (ray.propagate s).r = ray.positionAtTime s := by
  simp [Ray.propagate, Ray.positionAtTime]

/-- All rays of the vector are finite. -/
def AllFinite (rv : RayVec Dbl) : Prop :=
  ∀ ray ∈ rv.rays, ∃ r v t w fl vig fail, ray = finRay r v t w fl vig fail

/-- Any history of propagations ends where the last one alone would have gone; in particular going away and coming
back restores every ray. -/
theorem C38_last_target_counts (rv : RayVec Dbl) (h : AllFinite rv) (ts : List ℝ) (s : ℝ) :
    (ts.foldl (fun rv t => rv.propagate (.fin t)) rv).propagate (.fin s) = rv.propagate (.fin s) := by
  induction ts generalizing rv with
  | nil => rfl
  | cons t ts ih =>
    have hstep : AllFinite (rv.propagate (.fin t)) := by
      intro ray hray
      obtain ⟨ray0, h0, rfl⟩ := List.mem_map.mp hray
      obtain ⟨r, v, t', w, fl, vig, fail, rfl⟩ := h ray0 h0
      exact ⟨_, _, _, _, _, _, _, (C38_straight_line r v t' w fl vig fail t).2⟩
    rw [List.foldl_cons, ih _ hstep]
    simp only [RayVec.propagate, RayVec.mk.injEq, and_true, List.map_map]
    apply List.map_congr_left
    intro ray hray
    obtain ⟨r, v, t', w, fl, vig, fail, rfl⟩ := h ray hray
    simp only [Function.comp_apply]
    rw [(C38_straight_line r v t' w fl vig fail t).2, (C38_straight_line _ v t w fl vig fail s).2,
      (C38_straight_line r v t' w fl vig fail s).2]
    congr 1
    ext <;> simp <;> ring

/-- Propagating rays of equal time `t` to `s` and back restores them. -/
theorem C38_invertible (rv : RayVec Dbl) (h : AllFinite rv) (t s : ℝ) (ht : ∀ ray ∈ rv.rays, ray.t = .fin t) :
    (rv.propagate (.fin s)).propagate (.fin t) = rv := by
  have := C38_last_target_counts rv h [s] t
  simp only [List.foldl_cons, List.foldl_nil] at this
  rw [this]
  cases rv with
  | mk rays cs =>
    simp only [RayVec.propagate, RayVec.mk.injEq, and_true]
    conv_rhs => rw [← List.map_id rays]
    apply List.map_congr_left
    intro ray hray
    have h1 := ht ray hray
    obtain ⟨r, v, t', w, fl, vig, fail, rfl⟩ := h ray hray
    simp only [finRay, Dbl.fin_inj] at h1
    subst h1
    rw [(C38_straight_line r v t' w fl vig fail t').2, id]
    congr 1
    ext <;> simp

example : ((finRay ⟨1, 2, 3⟩ ⟨0, 3 / 5, 4 / 5⟩ 0 1 1 false false).propagate (.fin 5)).r = (⟨1, 5, 7⟩ : V3 ℝ).fin := by
  rw [(C38_straight_line ..).2]
  simp only [finRay, V3.fin_inj]
  ext <;> norm_num

/-! ## C40 -/

/-- The phase as a real function: `2 pi / wavelength` times optical path from the ray's wavefront, minus elapsed time. -/
noncomputable def phaseR (r v : V3 ℝ) (t w : ℝ) (q : V3 ℝ) (s : ℝ) : ℝ :=
  2 * Real.pi / w * (V3.dot (q - r) v / V3.dot v v - (s - t))

theorem phase_fin {r v : V3 ℝ} {t w fl : ℝ} {vig fail : Bool} (hv : v ≠ ⟨0, 0, 0⟩) (hw : w ≠ 0) (q : V3 ℝ) (s : ℝ) :
    (finRay r v t w fl vig fail).phase q.fin (.fin s) = .fin (phaseR r v t w q s) := by
  have h2 : V3.dot v v ≠ 0 := (V3.normSq_pos hv).ne'
  simp only [Ray.phase, finRay, V3.fin_sub, V3.fin_dot, Dbl.div_fin h2, Dbl.sub_fin, Dbl.ofNat_dbl', Dbl.pi_def, Dbl.mul_fin,
    Dbl.div_fin hw, Dbl.fin_inj, phaseR]
  ring

/-- The phase vanishes at the ray's own position and time. -/
theorem C40_zero_on_wavefront {r v : V3 ℝ} {t w fl : ℝ} {vig fail : Bool} (hv : v ≠ ⟨0, 0, 0⟩) (hw : w ≠ 0) :
    (finRay r v t w fl vig fail).phase r.fin (.fin t) = .fin 0 := by
  rw [phase_fin hv hw, Dbl.fin_inj]
  simp [phaseR, V3.dot]

/-- The phase is the same at two points if and only if they differ by a vector perpendicular to the velocity. -/
theorem C40_plane_wave {r v : V3 ℝ} {t w fl : ℝ} {vig fail : Bool} (hv : v ≠ ⟨0, 0, 0⟩) (hw : w ≠ 0) (q q' : V3 ℝ) (s : ℝ) :
    (finRay r v t w fl vig fail).phase q.fin (.fin s) = (finRay r v t w fl vig fail).phase q'.fin (.fin s) ↔
      V3.dot (q - q') v = 0 := by
  have h2 : V3.dot v v ≠ 0 := (V3.normSq_pos hv).ne'
  rw [phase_fin hv hw, phase_fin hv hw, Dbl.fin_inj, phaseR, phaseR]
  have hp : 2 * Real.pi / w ≠ 0 := by positivity
  have hlin : V3.dot (q - r) v - V3.dot (q' - r) v = V3.dot (q - q') v := by simp [V3.dot]; ring
  constructor
  · intro h
    have := mul_left_cancel₀ hp h
    have h3 : V3.dot (q - r) v / V3.dot v v = V3.dot (q' - r) v / V3.dot v v := by linarith
    rw [div_left_inj' h2] at h3
    linarith
  · intro h
    have : V3.dot (q - r) v = V3.dot (q' - r) v := by linarith
    rw [this]

/-- Propagating the ray does not change the field it describes. -/
theorem C40_propagation_invariant {r v : V3 ℝ} {t w fl : ℝ} {vig fail : Bool} (hv : v ≠ ⟨0, 0, 0⟩) (hw : w ≠ 0) (u : ℝ) (q : V3 ℝ) (s : ℝ) :
    ((finRay r v t w fl vig fail).propagate (.fin u)).phase q.fin (.fin s) = (finRay r v t w fl vig fail).phase q.fin (.fin s) := by
  have h2 : V3.dot v v ≠ 0 := (V3.normSq_pos hv).ne'
  rw [(C38_straight_line ..).2, phase_fin hv hw, phase_fin hv hw, Dbl.fin_inj, phaseR, phaseR]
  have : V3.dot (q - ⟨r.x + (u - t) * v.x, r.y + (u - t) * v.y, r.z + (u - t) * v.z⟩) v = V3.dot (q - r) v - (u - t) * V3.dot v v := by
    simp [V3.dot]; ring
  rw [this]
  field_simp
  ring

/-- One vacuum wavelength of time lowers the phase by a full turn, so the amplitude repeats. -/
theorem C40_period {r v : V3 ℝ} {t w fl : ℝ} {vig fail : Bool} (hv : v ≠ ⟨0, 0, 0⟩) (hw : w ≠ 0) (q : V3 ℝ) (s : ℝ) :
    (finRay r v t w fl vig fail).phase q.fin (.fin (s + w)) = (finRay r v t w fl vig fail).phase q.fin (.fin s) - .fin (2 * Real.pi) ∧
      (finRay r v t w fl vig fail).amplitude q.fin (.fin (s + w)) = (finRay r v t w fl vig fail).amplitude q.fin (.fin s) := by
  have e : phaseR r v t w q (s + w) = phaseR r v t w q s - 2 * Real.pi := by
    simp only [phaseR]
    field_simp
    ring
  constructor
  · rw [phase_fin hv hw, phase_fin hv hw, Dbl.sub_fin, e]
  · simp only [Ray.amplitude, phase_fin hv hw, e, Dbl.cos_fin, Dbl.sin_fin, Real.cos_sub_two_pi, Real.sin_sub_two_pi]

/-- The phase is `k . (q - r) - omega (s - t)` with the wave vector `k` and frequency `omega` reported by the ray vector,
`k` is parallel to the velocity and its length is `2 pi n / wavelength` with `n = 1/|v|`. -/
theorem C40_wave_vector {r v : V3 ℝ} {t w fl : ℝ} {vig fail : Bool} (hv : v ≠ ⟨0, 0, 0⟩) (hw : 0 < w) :
    ∃ k : V3 ℝ, ∃ om : ℝ, RayVec.waveVector (finRay r v t w fl vig fail) = k.fin ∧ RayVec.omega (finRay r v t w fl vig fail) = .fin om ∧
      V3.cross k v = ⟨0, 0, 0⟩ ∧ 0 < V3.dot k v ∧ Real.sqrt (V3.dot k k) = 2 * Real.pi * (1 / Real.sqrt (V3.dot v v)) / w ∧ om = 2 * Real.pi / w ∧
      ∀ q s, (finRay r v t w fl vig fail).phase q.fin (.fin s) = .fin (V3.dot k (q - r) - om * (s - t)) := by
  have hpos : 0 < V3.dot v v := V3.normSq_pos hv
  have h2 : V3.dot v v ≠ 0 := hpos.ne'
  refine ⟨v.smulR (2 * Real.pi / w / V3.dot v v), 2 * Real.pi / w, ?_, ?_, ?_, ?_, ?_, rfl, ?_⟩
  · simp only [RayVec.waveVector, finRay, V3.fin_dot, V3.fin_x, V3.fin_y, V3.fin_z, Dbl.ofNat_dbl', Dbl.pi_def, Dbl.mul_fin,
      Dbl.div_fin hw.ne', Dbl.div_fin h2, V3.fin_mk, V3.fin_inj]
    ext <;> simp <;> ring
  · simp only [RayVec.omega, finRay, Dbl.ofNat_dbl', Dbl.pi_def, Dbl.mul_fin, Dbl.div_fin hw.ne']
  · ext <;> simp <;> ring
  · have : V3.dot (v.smulR (2 * Real.pi / w / V3.dot v v)) v = 2 * Real.pi / w := by
      have : V3.dot (v.smulR (2 * Real.pi / w / V3.dot v v)) v = 2 * Real.pi / w / V3.dot v v * V3.dot v v := by
        simp [V3.dot]; ring
      rw [this, div_mul_cancel₀ _ h2]
    rw [this]; positivity
  · have hk : V3.dot (v.smulR (2 * Real.pi / w / V3.dot v v)) (v.smulR (2 * Real.pi / w / V3.dot v v)) =
        (2 * Real.pi * (1 / Real.sqrt (V3.dot v v)) / w) ^ 2 := by
      have hs : Real.sqrt (V3.dot v v) ^ 2 = V3.dot v v := Real.sq_sqrt hpos.le
      have e1 : V3.dot (v.smulR (2 * Real.pi / w / V3.dot v v)) (v.smulR (2 * Real.pi / w / V3.dot v v)) =
          (2 * Real.pi / w / V3.dot v v) ^ 2 * V3.dot v v := by simp [V3.dot]; ring
      rw [e1]
      have e2 : (2 * Real.pi * (1 / Real.sqrt (V3.dot v v)) / w) ^ 2 = (2 * Real.pi / w) ^ 2 / Real.sqrt (V3.dot v v) ^ 2 := by
        have : Real.sqrt (V3.dot v v) ≠ 0 := (Real.sqrt_pos.mpr hpos).ne'
        field_simp
      rw [e2, hs]
      field_simp
    rw [hk, Real.sqrt_sq]
    positivity
  · intro q s
    rw [phase_fin hv hw.ne', Dbl.fin_inj, phaseR]
    have : V3.dot (v.smulR (2 * Real.pi / w / V3.dot v v)) (q - r) = 2 * Real.pi / w / V3.dot v v * V3.dot (q - r) v := by
      simp [V3.dot]; ring
    rw [this]; ring

example : ∃ k : V3 ℝ, RayVec.waveVector (finRay ⟨1, 2, 3⟩ ⟨0, 0, 1⟩ 0 1 1 false false) = k.fin := by
  obtain ⟨k, _, h, _⟩ := C40_wave_vector (r := ⟨1, 2, 3⟩) (v := ⟨0, 0, 1⟩) (t := 0) (w := 1) (fl := 1) (vig := false) (fail := false)
    (by intro h; have := congrArg V3.z h; simp at this) one_pos
  exact ⟨k, h⟩

/-! ## C39 -/

theorem dbl_add_comm (a b : Dbl) : a + b = b + a := by
  cases a <;> cases b <;> first | rfl | (simp only [Dbl.add_fin, Dbl.fin_inj]; ring)

theorem dbl_add_assoc (a b c : Dbl) : a + b + c = a + (b + c) := by
  cases a <;> cases b <;> cases c <;> first | rfl | (simp only [Dbl.add_fin, Dbl.fin_inj]; ring)

theorem dbl_zero_add (a : Dbl) : 0 + a = a := by
  rw [Dbl.zero_dbl]
  cases a <;> first | rfl | simp

/-- The rays `sumAmplitude` counts: not failed and, when vignetted rays are ignored, not vignetted. -/
def Counted (ignoreVignetted : Bool) (ray : Ray Dbl) : Bool := !ray.failed && !(ignoreVignetted && ray.vignetted)

/-- The contribution of one ray. -/
noncomputable def contribution (q : V3 Dbl) (s : Dbl) (ray : Ray Dbl) : Dbl × Dbl :=
  ((ray.amplitude q s).1 * ray.flux, (ray.amplitude q s).2 * ray.flux)

/-- Componentwise sum of pairs. -/
noncomputable def pairAdd (a b : Dbl × Dbl) : Dbl × Dbl := (a.1 + b.1, a.2 + b.2)

theorem pairAdd_assoc (a b c : Dbl × Dbl) : pairAdd (pairAdd a b) c = pairAdd a (pairAdd b c) := by
  simp [pairAdd, dbl_add_assoc]

theorem pairAdd_comm (a b : Dbl × Dbl) : pairAdd a b = pairAdd b a := by
  simp only [pairAdd, dbl_add_comm a.1, dbl_add_comm a.2]

theorem sumStep_eq (q : V3 Dbl) (s : Dbl) (ig : Bool) (acc : Dbl × Dbl) (ray : Ray Dbl) :
    RayVec.sumAmplitudeStep q s ig acc ray = if Counted ig ray then pairAdd acc (contribution q s ray) else acc := rfl

theorem foldl_start (q : V3 Dbl) (s : Dbl) (ig : Bool) (rays : List (Ray Dbl)) (a b : Dbl × Dbl) :
    rays.foldl (RayVec.sumAmplitudeStep q s ig) (pairAdd a b) = pairAdd a (rays.foldl (RayVec.sumAmplitudeStep q s ig) b) := by
  induction rays generalizing a b with
  | nil => rfl
  | cons ray rays ih =>
    rw [List.foldl_cons, List.foldl_cons, sumStep_eq, sumStep_eq]
    split
    · rw [pairAdd_assoc, ih]
    · exact ih a b

/-- Order does not matter, whatever the rays contain (also infinities and NaN). -/
theorem C39_order (rv rv' : RayVec Dbl) (h : rv.rays.Perm rv'.rays) (q : V3 Dbl) (s : Dbl) (ig : Bool) :
    rv.sumAmplitude q s ig = rv'.sumAmplitude q s ig := by
  unfold RayVec.sumAmplitude
  refine h.foldl_eq' ?_ _
  intro x _ y _ z
  simp only [sumStep_eq]
  split <;> split <;> try rfl
  rw [pairAdd_assoc, pairAdd_comm (contribution q s x), ← pairAdd_assoc]

/-- The sum over joined ray vectors is the sum of the sums. -/
theorem C39_concatenation (a b : List (Ray Dbl)) (cs : CoordSys Dbl) (q : V3 Dbl) (s : Dbl) (ig : Bool) :
    (RayVec.mk (a ++ b) cs).sumAmplitude q s ig =
      (((RayVec.mk a cs).sumAmplitude q s ig).1 + ((RayVec.mk b cs).sumAmplitude q s ig).1,
        ((RayVec.mk a cs).sumAmplitude q s ig).2 + ((RayVec.mk b cs).sumAmplitude q s ig).2) := by
  unfold RayVec.sumAmplitude
  rw [List.foldl_append]
  have h0 : ∀ p : Dbl × Dbl, pairAdd p (0, 0) = p := by
    intro p; simp only [pairAdd]; rw [dbl_add_comm, dbl_zero_add, dbl_add_comm, dbl_zero_add]
  conv_lhs => rw [← h0 (List.foldl _ (0, 0) a)]
  rw [foldl_start]
  rfl

/-- In any arithmetic rays that do not count could be deleted or replaced by others that do not count: failed rays have
no influence whatever data they hold, vignetted rays none by default. -/
theorem C39_ignored_rays {F : Type} [Arith F] (rv : RayVec F) (q : V3 F) (s : F) (ig : Bool) :
    rv.sumAmplitude q s ig =
      (RayVec.mk (rv.rays.filter fun ray => !ray.failed && !(ig && ray.vignetted)) rv.coordSys).sumAmplitude q s ig := by
  unfold RayVec.sumAmplitude
  generalize ((0, 0) : F × F) = acc
  simp only
  induction rv.rays generalizing acc with
  | nil => rfl
  | cons ray rays ih =>
    rw [List.filter_cons]
    by_cases h : (!ray.failed && !(ig && ray.vignetted)) = true
    · rw [if_pos h, List.foldl_cons, List.foldl_cons, ih]
    · rw [if_neg h, List.foldl_cons, ih]
      have : RayVec.sumAmplitudeStep q s ig acc ray = acc := by unfold RayVec.sumAmplitudeStep; rw [if_neg h]
      rw [this]

/-- The rays that count are finite, move and have a wavelength. -/
def GoodRays (ig : Bool) (rays : List (Ray Dbl)) : Prop :=
  ∀ ray ∈ rays, Counted ig ray = true → ∃ r v t w fl vig fail, ray = finRay r v t w fl vig fail ∧ v ≠ ⟨0, 0, 0⟩ ∧ w ≠ 0

/-- The plane wave of one ray as a complex number. -/
noncomputable def wave (r v : V3 ℝ) (t w fl : ℝ) (q : V3 ℝ) (s : ℝ) : ℂ := fl * Complex.exp (Complex.I * (phaseR r v t w q s : ℝ))

/-- Real data of a ray (zero where it is not finite). -/
noncomputable def realPart : Dbl → ℝ
  | .fin r => r
  | _ => 0

/-- The wave of a ray given as model data. -/
noncomputable def waveOf (q : V3 ℝ) (s : ℝ) (ray : Ray Dbl) : ℂ :=
  wave (ray.r.map realPart) (ray.v.map realPart) (realPart ray.t) (realPart ray.wavelength) (realPart ray.flux) q s

/-- `sumAmplitude` is the flux weighted sum of the plane waves of the rays that count. -/
theorem C39_sum (rv : RayVec Dbl) (ig : Bool) (h : GoodRays ig rv.rays) (q : V3 ℝ) (s : ℝ) :
    ∃ z : ℂ, rv.sumAmplitude q.fin (.fin s) ig = (.fin z.re, .fin z.im) ∧
      z = ((rv.rays.filter (Counted ig)).map (waveOf q s)).sum := by
  refine ⟨_, ?_, rfl⟩
  have key : ∀ (rays : List (Ray Dbl)), GoodRays ig rays → ∀ a b : ℝ,
      rays.foldl (RayVec.sumAmplitudeStep q.fin (.fin s) ig) (.fin a, .fin b) =
        (.fin (a + (((rays.filter (Counted ig)).map (waveOf q s)).sum).re), .fin (b + (((rays.filter (Counted ig)).map (waveOf q s)).sum).im)) := by
    intro rays
    induction rays with
    | nil => intro _ a b; simp
    | cons ray rays ih =>
      intro hg a b
      have hg' : GoodRays ig rays := fun x hx => hg x (List.mem_cons_of_mem _ hx)
      rw [List.foldl_cons, sumStep_eq]
      by_cases hc : Counted ig ray = true
      · obtain ⟨r, v, t, w, fl, vig, fail, rfl, hv, hw⟩ := hg ray (by simp) hc
        rw [if_pos hc, List.filter_cons_of_pos hc, List.map_cons, List.sum_cons]
        have hcon : contribution q.fin (.fin s) (finRay r v t w fl vig fail) =
            (.fin (waveOf q s (finRay r v t w fl vig fail)).re, .fin (waveOf q s (finRay r v t w fl vig fail)).im) := by
          have e1 : waveOf q s (finRay r v t w fl vig fail) = fl * Complex.exp (Complex.I * (phaseR r v t w q s : ℝ)) := rfl
          rw [e1, mul_comm Complex.I, Complex.exp_mul_I, ← Complex.ofReal_cos, ← Complex.ofReal_sin]
          simp only [contribution, Ray.amplitude, phase_fin hv hw, Dbl.cos_fin, Dbl.sin_fin]
          have e2 : (finRay r v t w fl vig fail).flux = .fin fl := rfl
          rw [e2]
          generalize Real.cos _ = c
          generalize Real.sin _ = d
          simp [mul_comm]
        rw [hcon]
        simp only [pairAdd, Dbl.add_fin]
        rw [ih hg']
        simp [add_assoc]
      · rw [if_neg hc, List.filter_cons_of_neg hc]
        exact ih hg' a b
  have := key rv.rays h 0 0
  unfold RayVec.sumAmplitude
  rw [Dbl.zero_dbl, this]
  simp

/-- A vector with one counted ray, one vignetted ray and one failed ray full of NaN. -/
noncomputable def demoVec : RayVec Dbl :=
  ⟨[finRay ⟨0, 0, 0⟩ ⟨0, 0, 1⟩ 0 1 2 false false, finRay ⟨0, 0, 0⟩ ⟨0, 0, 1⟩ 0 1 5 true false,
    ⟨⟨.nan, .nan, .nan⟩, ⟨.nan, .nan, .nan⟩, .nan, .nan, .nan, false, true⟩], (CoordSys.std ℝ).fin⟩

example : demoVec.sumAmplitude (⟨0, 0, 0⟩ : V3 ℝ).fin (.fin 0) true = (.fin 2, .fin 0) ∧ GoodRays true demoVec.rays := by
  have hg : GoodRays true demoVec.rays := by
    intro ray hray hc
    simp only [demoVec, List.mem_cons, List.not_mem_nil, or_false] at hray
    rcases hray with rfl | rfl | rfl
    · exact ⟨_, _, _, _, _, _, _, rfl, by intro h; have := congrArg V3.z h; simp at this, one_ne_zero⟩
    · simp [Counted, finRay] at hc
    · simp [Counted] at hc
  refine ⟨?_, hg⟩
  obtain ⟨z, h1, h2⟩ := C39_sum demoVec true hg ⟨0, 0, 0⟩ 0
  rw [h1, h2]
  have : (demoVec.rays.filter (Counted true)) = [finRay ⟨0, 0, 0⟩ ⟨0, 0, 1⟩ 0 1 2 false false] := by
    simp [demoVec, Counted, finRay]
  rw [this]
  simp [waveOf, wave, finRay, realPart, phaseR, V3.dot, V3.map]

/-! ## C41 -/

theorem toGlobal_fin (c : CoordSys ℝ) (r : V3 ℝ) : c.fin.toGlobal r.fin = (c.toGlobal r).fin := by
  simp [CoordSys.toGlobal, CoordSys.fin]

theorem filterMap_get {α : Type} (l : List α) (a m : ℕ) : (List.range m).filterMap (fun x => l[a + x]?) = (l.drop a).take m := by
  induction m with
  | zero => simp
  | succ m ih =>
    rw [List.range_succ, List.filterMap_append, ih, List.take_succ, List.getElem?_drop]
    congr 1

theorem slice_unit {α : Type} (l : List α) (a b : ℕ) : Py.slice l (some a) (some b) none = .ok ((l.take b).drop a) := by
  have e1 : Py.adjustIndices l.length (some a) (some b) 1 = (((min a l.length : ℕ) : ℤ), ((min b l.length : ℕ) : ℤ)) := by
    simp only [Py.adjustIndices]
    norm_num
  have hlen : Py.rangeLen ((min a l.length : ℕ) : ℤ) ((min b l.length : ℕ) : ℤ) 1 = min b l.length - min a l.length := by
    unfold Py.rangeLen
    simp only [zero_lt_one, if_true, Int.ediv_one]
    split <;> omega
  simp only [Py.slice, Option.getD_none, one_ne_zero, if_false, e1]
  congr 1
  unfold Py.range
  rw [hlen, List.filterMap_map]
  have hsome : ∀ x ∈ List.range (min b l.length - min a l.length),
      ((fun i : ℤ => l[i.toNat]?) ∘ fun k : ℕ => ((min a l.length : ℕ) : ℤ) + (k : ℤ) * 1) x = (fun x => l[min a l.length + x]?) x := by
    intro x _
    simp only [Function.comp_apply]
    congr 1
    omega
  rw [List.filterMap_congr hsome, filterMap_get, List.drop_take]
  rcases Nat.le_total a l.length with h | h
  · rw [Nat.min_eq_left h]
    rcases Nat.le_total b l.length with hb | hb
    · rw [Nat.min_eq_left hb]
    · rw [Nat.min_eq_right hb, List.take_of_length_le (by simp), List.take_of_length_le (by simp; omega)]
  · rw [Nat.min_eq_right h, List.drop_length, List.drop_of_length_le h]; simp

/-- `rv[i]` for `0 <= i < len(rv)` holds exactly ray `i`, in the same coordinate system. -/
theorem C41_index_partial {F : Type} [Arith F] (rv : RayVec F) (i : ℕ) (h : i < rv.rays.length) :
    rv.getItem (.int i) = .ok ⟨[rv.rays[i]], rv.coordSys⟩ := by
  have h1 : ¬ ((rv.rays.length : ℤ) ≤ i) := by omega
  simp only [RayVec.getItem, Int.natCast_nonneg, if_true, if_neg h1]
  have := slice_unit rv.rays i (i + 1)
  rw [Nat.cast_add, Nat.cast_one] at this
  rw [this]
  have e : (rv.rays.take (i + 1)).drop i = [rv.rays[i]] := by
    rw [List.drop_take, Nat.add_sub_cancel_left, List.take_one_drop_eq_of_lt_length h]
    rfl
  rw [e]; rfl

/-- Integers outside `-len(rv) .. len(rv)-1` raise `IndexError`. -/
theorem C41_out_of_range {F : Type} [Arith F] (rv : RayVec F) (i : ℤ) (h : (rv.rays.length : ℤ) ≤ i ∨ i < -(rv.rays.length : ℤ)) :
    rv.getItem (.int i) = .error .indexError := by
  simp only [RayVec.getItem]
  rcases h with h | h
  · rw [if_pos (by omega), if_pos h]
  · rw [if_neg (by omega), if_pos h]

/-- What a negative index really selects: `rv[-k]` holds the last `k` rays. -/
theorem C41_negative_index {F : Type} [Arith F] (rv : RayVec F) (k : ℕ) (h1 : 1 ≤ k) (hk : k ≤ rv.rays.length) :
    rv.getItem (.int (-(k : ℤ))) = .ok ⟨rv.rays.drop (rv.rays.length - k), rv.coordSys⟩ := by
  have e1 : (rv.rays.length : ℤ) + -(k : ℤ) = ((rv.rays.length - k : ℕ) : ℤ) := by omega
  have e2 : (rv.rays.length : ℤ) - -(k : ℤ) + 1 = ((rv.rays.length + k + 1 : ℕ) : ℤ) := by omega
  simp only [RayVec.getItem]
  rw [if_neg (by omega), if_neg (by omega), e1, e2, slice_unit, List.take_of_length_le (by omega)]
  rfl

/-- The last ray is `rv[-1]`. -/
theorem C41_last_ray {F : Type} [Arith F] (rv : RayVec F) (h : rv.rays ≠ []) :
    rv.getItem (.int (-1)) = .ok ⟨[rv.rays.getLast h], rv.coordSys⟩ := by
  have hl : 1 ≤ rv.rays.length := List.length_pos_iff.mpr h
  have := C41_negative_index rv 1 le_rfl hl
  rw [Nat.cast_one] at this
  rw [this]
  have : rv.rays.drop (rv.rays.length - 1) = [rv.rays.getLast h] := List.drop_length_sub_one h
  rw [this]

/-- Negative indices other than -1 do not count from the end: of any two or more rays, `rv[-2]` holds two. -/
theorem C41_negative_index_violated {F : Type} [Arith F] (rv : RayVec F) (h : 2 ≤ rv.rays.length) :
    ∃ rv', rv.getItem (.int (-2)) = .ok rv' ∧ rv'.rays.length = 2 := by
  refine ⟨_, C41_negative_index rv 2 (by norm_num) h, ?_⟩
  simp only [List.length_drop]
  omega

/-- `rv[a:b]` for `a, b >= 0`, open ends, and the usual negative bounds. -/
theorem C41_slice {F : Type} [Arith F] (rv : RayVec F) (a b : ℕ) :
    rv.getItem (.slice (some a) (some b) none) = .ok ⟨(rv.rays.take b).drop a, rv.coordSys⟩ ∧
      rv.getItem (.slice (some a) none none) = .ok ⟨rv.rays.drop a, rv.coordSys⟩ ∧
      rv.getItem (.slice none (some b) none) = .ok ⟨rv.rays.take b, rv.coordSys⟩ ∧
      (1 ≤ a → a ≤ rv.rays.length → rv.getItem (.slice (some (-(a : ℤ))) none none) = .ok ⟨rv.rays.drop (rv.rays.length - a), rv.coordSys⟩) ∧
      (1 ≤ b → b ≤ rv.rays.length → rv.getItem (.slice none (some (-(b : ℤ))) none) = .ok ⟨rv.rays.take (rv.rays.length - b), rv.coordSys⟩) := by
  have hn : ∀ s, Py.slice rv.rays s none none = Py.slice rv.rays s (some (rv.rays.length : ℤ)) none := by
    intro s
    simp only [Py.slice, Py.adjustIndices, Option.getD_none]
    rw [if_neg (show ¬ (rv.rays.length : ℤ) < 0 by omega)]
    norm_num
  have h0 : ∀ s, Py.slice rv.rays none s none = Py.slice rv.rays (some ((0 : ℕ) : ℤ)) s none := by
    intro s
    simp only [Py.slice, Py.adjustIndices, Option.getD_none]
    norm_num
  have hneg1 : ∀ k : ℕ, 1 ≤ k → k ≤ rv.rays.length → ∀ s, Py.slice rv.rays (some (-(k : ℤ))) s none =
      Py.slice rv.rays (some ((rv.rays.length - k : ℕ) : ℤ)) s none := by
    intro k h1 hk s
    simp only [Py.slice, Py.adjustIndices, Option.getD_none]
    rw [if_pos (show -(k : ℤ) < 0 by omega), if_neg (show ¬ ((rv.rays.length - k : ℕ) : ℤ) < 0 by omega)]
    simp only [one_ne_zero, if_false, show ¬ (1 : ℤ) < 0 by norm_num]
    rw [max_eq_left (by omega), min_eq_left (by omega), show -(k : ℤ) + rv.rays.length = ((rv.rays.length - k : ℕ) : ℤ) by omega]
  have hneg2 : ∀ k : ℕ, 1 ≤ k → k ≤ rv.rays.length → ∀ s, Py.slice rv.rays s (some (-(k : ℤ))) none =
      Py.slice rv.rays s (some ((rv.rays.length - k : ℕ) : ℤ)) none := by
    intro k h1 hk s
    simp only [Py.slice, Py.adjustIndices, Option.getD_none]
    rw [if_pos (show -(k : ℤ) < 0 by omega), if_neg (show ¬ ((rv.rays.length - k : ℕ) : ℤ) < 0 by omega)]
    simp only [one_ne_zero, if_false, show ¬ (1 : ℤ) < 0 by norm_num]
    rw [max_eq_left (by omega), min_eq_left (by omega), show -(k : ℤ) + rv.rays.length = ((rv.rays.length - k : ℕ) : ℤ) by omega]
  refine ⟨?_, ?_, ?_, ?_, ?_⟩
  · simp only [RayVec.getItem]; rw [slice_unit]; rfl
  · simp only [RayVec.getItem]; rw [hn, slice_unit, List.take_length]; rfl
  · simp only [RayVec.getItem]; rw [h0, slice_unit, List.drop_zero]; rfl
  · intro h1 h2
    simp only [RayVec.getItem]; rw [hn, hneg1 a h1 h2, slice_unit, List.take_length]; rfl
  · intro h1 h2
    simp only [RayVec.getItem]; rw [h0, hneg2 b h1 h2, slice_unit, List.drop_zero]; rfl

/-- `rv[::-1]` reverses. -/
theorem C41_reverse {F : Type} [Arith F] (rv : RayVec F) :
    rv.getItem (.slice none none (some (-1))) = .ok ⟨rv.rays.reverse, rv.coordSys⟩ := by
  have hs : Py.slice rv.rays none none (some (-1)) = .ok rv.rays.reverse := by
    simp only [Py.slice, Py.adjustIndices, Option.getD_some]
    norm_num
    have hlen : Py.rangeLen ((rv.rays.length : ℤ) - 1) (-1) (-1) = rv.rays.length := by
      unfold Py.rangeLen
      rw [if_neg (by norm_num)]
      simp only [neg_neg, Int.ediv_one]
      split <;> omega
    unfold Py.range
    rw [hlen, List.filterMap_map]
    generalize hn : rv.rays.length = n
    have key : ∀ (l : List (Ray F)), (List.range l.length).filterMap (((fun i : ℤ => l[i.toNat]?) ∘ fun k : ℕ => ((l.length : ℤ) - 1) + (k : ℤ) * -1)) = l.reverse := by
      intro l
      have : ∀ x ∈ List.range l.length, ((fun i : ℤ => l[i.toNat]?) ∘ fun k : ℕ => ((l.length : ℤ) - 1) + (k : ℤ) * -1) x = (fun x => l.reverse[0 + x]?) x := by
        intro x hx
        rw [List.mem_range] at hx
        simp only [Function.comp_apply, Nat.zero_add]
        rw [List.getElem?_reverse hx]
        congr 1
        omega
      rw [List.filterMap_congr this, filterMap_get]
      simp
    subst hn
    exact key rv.rays
  simp only [RayVec.getItem, hs]; rfl

/-- `rv[mask]` keeps exactly the rays at the true positions, in order; a mask of another length raises. -/
theorem C41_mask {F : Type} [Arith F] (rv : RayVec F) (m : List Bool) :
    (m.length = rv.rays.length → ∃ l, rv.getItem (.mask m) = .ok ⟨l, rv.coordSys⟩ ∧ l.Sublist rv.rays ∧ l.length = m.count true ∧
      ∀ ray, ray ∈ l ↔ ∃ i : ℕ, rv.rays[i]? = some ray ∧ m[i]? = some true) ∧
      (m.length ≠ rv.rays.length → rv.getItem (.mask m) = .error .indexError) := by
  constructor
  · intro h
    refine ⟨((rv.rays.zip m).filter (·.2)).map (·.1), ?_, ?_, ?_, ?_⟩
    · simp only [RayVec.getItem, Py.mask, if_pos h]; rfl
    · have h1 : ((rv.rays.zip m).filter (·.2)).map (·.1) |>.Sublist ((rv.rays.zip m).map (·.1)) := List.filter_sublist.map _
      rwa [List.map_fst_zip (by omega)] at h1
    · rw [List.length_map, ← List.countP_eq_length_filter]
      have h2 : m.count true = ((rv.rays.zip m).map (·.2)).countP id := by
        rw [List.map_snd_zip (by omega), List.count_eq_countP]
        apply List.countP_congr
        intro x _; cases x <;> simp
      rw [h2, List.countP_map]; rfl
    · intro ray
      rw [List.mem_map]
      constructor
      · rintro ⟨⟨r, b⟩, hb, rfl⟩
        rw [List.mem_filter] at hb
        obtain ⟨hb, hb'⟩ := hb
        simp only at hb'
        subst hb'
        obtain ⟨i, hi⟩ := List.mem_iff_getElem?.mp hb
        rw [List.getElem?_zip_eq_some] at hi
        exact ⟨i, hi⟩
      · rintro ⟨i, hi⟩
        refine ⟨(ray, true), ?_, rfl⟩
        rw [List.mem_filter]
        refine ⟨?_, rfl⟩
        rw [List.mem_iff_getElem?]
        exact ⟨i, by rw [List.getElem?_zip_eq_some]; exact hi⟩
  · intro h
    simp only [RayVec.getItem, Py.mask, if_neg h]; rfl

/-- Integer arrays select one ray per entry, negative entries counting from the end. -/
theorem C41_fancy {F : Type} [Arith F] (rv : RayVec F) (is : List ℤ) (h : ∀ i ∈ is, -(rv.rays.length : ℤ) ≤ i ∧ i < rv.rays.length) :
    ∃ l, rv.getItem (.fancy is) = .ok ⟨l, rv.coordSys⟩ ∧ l.length = is.length ∧
      ∀ j (hj : j < is.length), l[j]? = rv.rays[(if is[j] < 0 then is[j] + rv.rays.length else is[j]).toNat]? := by
  have key : ∀ is : List ℤ, (∀ i ∈ is, -(rv.rays.length : ℤ) ≤ i ∧ i < rv.rays.length) →
      ∃ l, Py.fancy rv.rays is = .ok l ∧ l.length = is.length ∧
        ∀ j (hj : j < is.length), l[j]? = rv.rays[(if is[j] < 0 then is[j] + rv.rays.length else is[j]).toNat]? := by
    intro is
    induction is with
    | nil => intro _; exact ⟨[], rfl, rfl, fun j hj => absurd hj (by simp)⟩
    | cons i is ih =>
      intro h
      obtain ⟨l, h1, h2, h3⟩ := ih (fun x hx => h x (List.mem_cons_of_mem _ hx))
      obtain ⟨hi1, hi2⟩ := h i (by simp)
      have hlt : (if i < 0 then i + (rv.rays.length : ℤ) else i).toNat < rv.rays.length := by split <;> omega
      refine ⟨rv.rays[(if i < 0 then i + (rv.rays.length : ℤ) else i).toNat] :: l, ?_, by simp [h2], ?_⟩
      · simp only [Py.fancy, List.getElem?_eq_getElem hlt, hi1, decide_true, h1]
      · intro j hj
        cases j with
        | zero => simp only [List.getElem?_cons_zero, List.getElem_cons_zero, List.getElem?_eq_getElem hlt]
        | succ j => simpa using h3 j (by simpa using hj)
  obtain ⟨l, h1, h2⟩ := key is h
  exact ⟨l, by simp only [RayVec.getItem, h1]; rfl, h2⟩

/-- Slicing the concatenation at the offsets of a part gives that part's rays; when all parts are expressed in the same
coordinate system it gives the part itself. -/
theorem C41_concatenate_partial {F : Type} [Arith F] (pre post : List (RayVec F)) (rv : RayVec F) (cs : CoordSys F)
    (hframe : ∀ x ∈ pre ++ rv :: post, x.coordSys = cs) :
    ∃ whole, RayVec.concatenate (pre ++ rv :: post) = .ok whole ∧
      whole.getItem (.slice (some ((pre.map (·.rays.length)).sum : ℕ)) (some ((pre.map (·.rays.length)).sum + rv.rays.length : ℕ)) none) = .ok rv := by
  have hw : RayVec.concatenate (pre ++ rv :: post) = .ok ⟨(pre ++ rv :: post).flatMap (·.rays), cs⟩ := by
    cases pre with
    | nil =>
      have := hframe rv (by simp)
      simp [RayVec.concatenate, this]
    | cons p pre =>
      have := hframe p (by simp)
      simp [RayVec.concatenate, this]
  refine ⟨_, hw, ?_⟩
  rw [(C41_slice _ _ _).1]
  have hl : (pre.flatMap (·.rays)).length = (pre.map (·.rays.length)).sum := by
    rw [List.length_flatMap]
  have e : (((pre ++ rv :: post).flatMap (·.rays)).take ((pre.map (·.rays.length)).sum + rv.rays.length)).drop (pre.map (·.rays.length)).sum = rv.rays := by
    rw [← hl, List.flatMap_append, List.flatMap_cons, List.drop_take, Nat.add_sub_cancel_left, List.drop_left, List.take_left]
  simp only [e]
  have := hframe rv (by simp)
  rw [← this]

/-- Joining no ray vectors raises `ValueError`. -/
theorem C41_concatenate_empty {F : Type} [Arith F] : RayVec.concatenate ([] : List (RayVec F)) = .error .valueError := rfl

/-- Coordinate systems other than the first are dropped: a ray at the origin of a frame shifted by one metre is moved
to the global origin by joining it behind a vector in the global frame. -/
theorem C41_concatenate_frames_violated :
    ∃ a b whole part : RayVec Dbl, RayVec.concatenate [a, b] = .ok whole ∧
      whole.getItem (.slice (some 1) (some 2) none) = .ok part ∧ part.rays = b.rays ∧
      part.rays.map (physical part.coordSys) ≠ b.rays.map (physical b.coordSys) := by
  let ray := finRay ⟨0, 0, 0⟩ ⟨0, 0, 1⟩ 0 1 1 false false
  let c : CoordSys ℝ := ⟨⟨0, 0, 1⟩, M3.one⟩
  refine ⟨⟨[ray], (CoordSys.std ℝ).fin⟩, ⟨[ray], c.fin⟩, ⟨[ray, ray], (CoordSys.std ℝ).fin⟩, ⟨[ray], (CoordSys.std ℝ).fin⟩, rfl, ?_, rfl, ?_⟩
  · exact (C41_slice (RayVec.mk [ray, ray] (CoordSys.std ℝ).fin) 1 2).1
  · intro h
    simp only [List.map_cons, List.map_nil, List.cons.injEq, and_true] at h
    have h1 := congrArg (fun p => p.1) h
    simp only [physical] at h1
    have e1 : ray.r = (⟨0, 0, 0⟩ : V3 ℝ).fin := rfl
    rw [e1, toGlobal_fin, toGlobal_fin, V3.fin_inj] at h1
    have := congrArg V3.z h1
    simp [CoordSys.toGlobal, CoordSys.std, c, M3.mulVec, M3.one] at this

example : demoVec.getItem (.int (-3)) = .ok demoVec := by
  have := C41_negative_index demoVec 3 (by norm_num) (by simp [demoVec])
  simpa [demoVec] using this

/-! ## C47 -/

/-- No entry of the ray is NaN. -/
def NoNaN (ray : Ray Dbl) : Prop :=
  ray.r.x ≠ .nan ∧ ray.r.y ≠ .nan ∧ ray.r.z ≠ .nan ∧ ray.v.x ≠ .nan ∧ ray.v.y ≠ .nan ∧ ray.v.z ≠ .nan ∧
    ray.t ≠ .nan ∧ ray.wavelength ≠ .nan ∧ ray.flux ≠ .nan

theorem dbl_eq_iff {a b : Dbl} (h : a ≠ .nan) : Arith.eq a b = true ↔ a = b := by
  cases a <;> cases b <;> simp_all <;> first | rfl | (show Dbl.eq _ _ = _; rfl)

theorem rayEq_iff {a b : Ray Dbl} (h : NoNaN a) : RayVec.rayEq a b = true ↔ a = b := by
  obtain ⟨h1, h2, h3, h4, h5, h6, h7, h8, h9⟩ := h
  simp only [RayVec.rayEq, Bool.and_eq_true, dbl_eq_iff h1, dbl_eq_iff h2, dbl_eq_iff h3, dbl_eq_iff h4, dbl_eq_iff h5, dbl_eq_iff h6,
    dbl_eq_iff h7, dbl_eq_iff h8, dbl_eq_iff h9, beq_iff_eq]
  constructor
  · rintro ⟨⟨⟨⟨⟨⟨⟨⟨⟨⟨a1, a2⟩, a3⟩, a4⟩, a5⟩, a6⟩, a7⟩, a8⟩, a9⟩, a10⟩, a11⟩
    ext1
    · ext1 <;> assumption
    · ext1 <;> assumption
    all_goals assumption
  · rintro rfl; simp

/-- Among ray vectors of one length in one coordinate system without NaN, `==` holds exactly for identical rays: hence
it is an equivalence relation there and equal vectors are physically equal. -/
theorem C47_equality_partial {a b : RayVec Dbl} (hn : ∀ ray ∈ a.rays, NoNaN ray) (hl : a.rays.length = b.rays.length)
    (hc : a.coordSys = b.coordSys) :
    a.eq b = some true ↔ a.rays.map (physical a.coordSys) = b.rays.map (physical b.coordSys) ∧ a = b := by
  have key : ∀ (l l' : List (Ray Dbl)), (∀ ray ∈ l, NoNaN ray) → l.length = l'.length →
      ((l.zip l').all (fun p => RayVec.rayEq p.1 p.2) = true ↔ l = l') := by
    intro l
    induction l with
    | nil => intro l' _ h; cases l' with
      | nil => simp
      | cons => simp at h
    | cons x l ih =>
      intro l' hn h
      cases l' with
      | nil => simp at h
      | cons y l' =>
        rw [List.zip_cons_cons, List.all_cons, Bool.and_eq_true, ih l' (fun r hr => hn r (List.mem_cons_of_mem _ hr)) (by simpa using h),
          rayEq_iff (hn x (by simp)), List.cons.injEq]
  simp only [RayVec.eq]
  rw [if_neg (by omega), Option.some.injEq, key _ _ hn hl]
  constructor
  · intro h
    have : a = b := by
      cases a; cases b; simp_all
    exact ⟨by rw [this], this⟩
  · rintro ⟨_, rfl⟩; rfl

/-- The coordinate system is not compared: rays one metre apart compare equal. -/
theorem C47_frame_ignored_violated :
    ∃ a b : RayVec Dbl, a.eq b = some true ∧ a.rays.map (physical a.coordSys) ≠ b.rays.map (physical b.coordSys) := by
  let ray := finRay ⟨0, 0, 0⟩ ⟨0, 0, 1⟩ 0 1 1 false false
  let c : CoordSys ℝ := ⟨⟨0, 0, 1⟩, M3.one⟩
  refine ⟨⟨[ray], (CoordSys.std ℝ).fin⟩, ⟨[ray], c.fin⟩, ?_, ?_⟩
  · have hn : NoNaN ray := by simp [NoNaN, ray, finRay]
    simp [RayVec.eq, (rayEq_iff hn).mpr rfl]
  · intro h
    simp only [List.map_cons, List.map_nil, List.cons.injEq, and_true] at h
    have h1 := congrArg (fun p => p.1) h
    simp only [physical] at h1
    have e1 : ray.r = (⟨0, 0, 0⟩ : V3 ℝ).fin := rfl
    rw [e1, toGlobal_fin, toGlobal_fin, V3.fin_inj] at h1
    have := congrArg V3.z h1
    simp [CoordSys.toGlobal, CoordSys.std, c, M3.mulVec, M3.one] at this

/-- The length of the right operand is not compared: a vector "equals" every extension of itself, while the comparison
the other way round reads past the end of the shorter array. -/
theorem C47_length_ignored_violated (rays more : List (Ray Dbl)) (cs : CoordSys Dbl) (hn : ∀ ray ∈ rays, NoNaN ray) (hm : more ≠ []) :
    (RayVec.mk rays cs).eq ⟨rays ++ more, cs⟩ = some true ∧ (RayVec.mk (rays ++ more) cs).eq ⟨rays, cs⟩ = none := by
  constructor
  · simp only [RayVec.eq]
    rw [if_neg (by simp), Option.some.injEq, List.all_eq_true]
    intro p hp
    obtain ⟨i, hi⟩ := List.mem_iff_getElem?.mp hp
    rw [List.getElem?_zip_eq_some] at hi
    obtain ⟨h1, h2⟩ := hi
    have hlt : i < rays.length := by
      by_contra hge
      rw [List.getElem?_eq_none (by omega)] at h1
      cases h1
    rw [List.getElem?_append_left hlt, h1] at h2
    injection h2 with h2
    rw [← h2]
    exact (rayEq_iff (hn _ (List.mem_iff_getElem?.mpr ⟨i, h1⟩))).mpr rfl
  · simp only [RayVec.eq]
    rw [if_pos]
    have := List.length_pos_iff.mpr hm
    simp only [List.length_append]; omega

example : (RayVec.mk [finRay ⟨0, 0, 0⟩ ⟨0, 0, 1⟩ 0 1 1 false false] (CoordSys.std ℝ).fin).eq
    ⟨[finRay ⟨0, 0, 0⟩ ⟨0, 0, 1⟩ 0 1 1 false false], (CoordSys.std ℝ).fin⟩ = some true :=
  (C47_equality_partial (by simp [NoNaN, finRay]) rfl rfl).mpr ⟨rfl, rfl⟩

end Batoid.Props
