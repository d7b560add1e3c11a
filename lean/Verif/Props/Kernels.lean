import Verif.Ops
import Verif.Props.Frames

/-!
# Properties C12-C15, C17, C69: flags, failed rays, splitting, obscuring, flux

Everything in this file that is stated for `[Arith F]` holds for any floating point arithmetic.
-/

namespace Batoid.Props
open Batoid

section anyArith
variable {F : Type} [Arith F]

/-! ## C12 -/

theorem onRay_failed (from_ : CoordSys F) {op : RayOp F} (h : op.isSurfaceOp = true) {ray : Ray F}
    (hf : ray.failed = true) : op.onRay from_ ray = ray := by
  cases op <;> simp [RayOp.isSurfaceOp] at h <;>
    simp [RayOp.onRay, Ray.intersect, Ray.reflect, Ray.refract, Ray.rSplit, Ray.refractScreen, hf]

/-- C12: once a ray is failed, no surface operation with any arguments changes anything stored for
it; this holds for every history, position in the batch, and floating point arithmetic. -/
theorem C12_failed_untouched (ops : List (RayOp F)) (h : ∀ op ∈ ops, op.isSurfaceOp = true)
    (rv : RayVec F) (i : ℕ) (ray : Ray F) (hi : rv.rays[i]? = some ray) (hf : ray.failed = true) :
    (RayOp.runAll rv ops).rays[i]? = some ray := by
  induction ops generalizing rv with
  | nil => exact hi
  | cons op ops ih =>
    refine ih (fun o ho => h o (by simp [ho])) (op.run rv) ?_
    rw [RayOp.run_rays, List.getElem?_map, hi]
    simp [onRay_failed rv.coordSys (h op (by simp)) hf]

theorem onRay_flags (from_ : CoordSys F) (op : RayOp F) (ray : Ray F) :
    (ray.failed = true → (op.onRay from_ ray).failed = true) ∧
    (ray.vignetted = true → (op.onRay from_ ray).vignetted = true) := by
  cases op
  case intersect s cs c n =>
    simp only [RayOp.onRay, Ray.intersect]
    split
    · simp
    · split <;> simp_all [Ray.markFailed]
  case reflect s cs c n =>
    simp only [RayOp.onRay, Ray.reflect]
    split
    · simp
    · split <;> simp_all [Ray.markFailed]
  case refract s m1 m2 cs c n =>
    simp only [RayOp.onRay, Ray.refract]
    split
    · simp
    · split
      · simp [Ray.markFailed]
      · split <;> simp_all
  case splitRefracted s m1 m2 c cs n =>
    simp only [RayOp.onRay, Ray.rSplit]
    split
    · simp
    · split
      · simp [Ray.markFailed]
      · simp only; split <;> simp_all
  case splitReflected s m1 m2 c cs n =>
    simp only [RayOp.onRay, Ray.rSplit]
    split
    · simp
    · split <;> simp_all [Ray.markFailed]
  case refractScreen s sc cs n =>
    simp only [RayOp.onRay, Ray.refractScreen]
    split
    · simp
    · split <;> simp_all [Ray.markFailed]
  case obscure o => simp only [RayOp.onRay, Ray.obscure]; constructor <;> intro h <;> simp [h]
  all_goals simp [RayOp.onRay, Ray.forward, Ray.reverse, Ray.propagate]

/-- C12: no history of operations ever clears a failed or vignetted flag, and none adds or drops
rays. -/
theorem C12_flags_monotone (ops : List (RayOp F)) (rv : RayVec F) (i : ℕ) (ray : Ray F)
    (hi : rv.rays[i]? = some ray) :
    (RayOp.runAll rv ops).rays.length = rv.rays.length ∧
    ∃ ray', (RayOp.runAll rv ops).rays[i]? = some ray' ∧
      (ray.failed = true → ray'.failed = true) ∧ (ray.vignetted = true → ray'.vignetted = true) := by
  induction ops generalizing rv ray with
  | nil => exact ⟨rfl, ray, hi, id, id⟩
  | cons op ops ih =>
    have h1 : (op.run rv).rays[i]? = some (op.onRay rv.coordSys ray) := by
      rw [RayOp.run_rays, List.getElem?_map, hi]; rfl
    obtain ⟨hl, ray', h2, hf, hv⟩ := ih (op.run rv) _ h1
    have hfl := onRay_flags rv.coordSys op ray
    refine ⟨?_, ray', h2, fun h => hf (hfl.1 h), fun h => hv (hfl.2 h)⟩
    simpa [RayOp.run_rays, RayOp.runAll] using hl

/-! ## C13 -/

/-- Every failed ray is vignetted. -/
def FailedVignetted (rv : RayVec F) : Prop := ∀ ray ∈ rv.rays, ray.failed = true → ray.vignetted = true

theorem onRay_failedVignetted (from_ : CoordSys F) (op : RayOp F) (ray : Ray F)
    (h : ray.failed = true → ray.vignetted = true) :
    (op.onRay from_ ray).failed = true → (op.onRay from_ ray).vignetted = true := by
  cases op
  case intersect s cs c n =>
    simp only [RayOp.onRay, Ray.intersect]
    split
    · exact h
    · split <;> simp_all [Ray.markFailed]
  case reflect s cs c n =>
    simp only [RayOp.onRay, Ray.reflect]
    split
    · exact h
    · split <;> simp_all [Ray.markFailed]
  case refract s m1 m2 cs c n =>
    simp only [RayOp.onRay, Ray.refract]
    split
    · exact h
    · split
      · simp [Ray.markFailed]
      · split <;> simp_all
  case splitRefracted s m1 m2 c cs n =>
    simp only [RayOp.onRay, Ray.rSplit]
    split
    · exact h
    · split
      · simp [Ray.markFailed]
      · simp only; split <;> simp_all
  case splitReflected s m1 m2 c cs n =>
    simp only [RayOp.onRay, Ray.rSplit]
    split
    · exact h
    · split <;> simp_all [Ray.markFailed]
  case refractScreen s sc cs n =>
    simp only [RayOp.onRay, Ray.refractScreen]
    split
    · exact h
    · split <;> simp_all [Ray.markFailed]
  case obscure o =>
    simp only [RayOp.onRay, Ray.obscure]; intro hf; simp [h hf]
  all_goals simpa [RayOp.onRay, Ray.forward, Ray.reverse, Ray.propagate] using h

/-- C13: "failed implies vignetted" is an invariant of every history of operations. -/
theorem C13_failed_vignetted (ops : List (RayOp F)) (rv : RayVec F) (h : FailedVignetted rv) :
    FailedVignetted (RayOp.runAll rv ops) := by
  induction ops generalizing rv with
  | nil => exact h
  | cons op ops ih =>
    apply ih
    intro ray hray
    rw [RayOp.run_rays, List.mem_map] at hray
    obtain ⟨ray0, h0, rfl⟩ := hray
    exact onRay_failedVignetted rv.coordSys op ray0 (h ray0 h0)

/-- C13: in particular a ray that is alive and fails anywhere in the history ends up vignetted. -/
theorem C13_new_failures_vignetted (ops : List (RayOp F)) (rv : RayVec F) (i : ℕ) (ray ray' : Ray F)
    (hi : rv.rays[i]? = some ray) (hlive : ray.failed = false)
    (hi' : (RayOp.runAll rv ops).rays[i]? = some ray') (hf : ray'.failed = true) :
    ray'.vignetted = true := by
  induction ops generalizing rv ray with
  | nil =>
    rw [RayOp.runAll, List.foldl_nil, hi, Option.some.injEq] at hi'
    rw [← hi', hlive] at hf; cases hf
  | cons op ops ih =>
    have h1 : (op.run rv).rays[i]? = some (op.onRay rv.coordSys ray) := by
      rw [RayOp.run_rays, List.getElem?_map, hi]; rfl
    by_cases hf1 : (op.onRay rv.coordSys ray).failed = true
    · have hv1 := onRay_failedVignetted rv.coordSys op ray (by simp [hlive]) hf1
      obtain ⟨-, ray'', h2, -, hv⟩ := C12_flags_monotone ops (op.run rv) i _ h1
      have : ray'' = ray' := by
        have h2' : (RayOp.runAll rv (op :: ops)).rays[i]? = some ray'' := h2
        rw [hi'] at h2'; exact (Option.some.inj h2').symm
      exact this ▸ hv hv1
    · exact ih (op.run rv) _ h1 (by simpa using hf1) hi'

/-! ## C15, structural part -/

/-- C15: the refracted output of `rSplit` is exactly what `refract` with that coating gives, in any
arithmetic and for every ray (live, failed, missing, totally reflected). -/
theorem C15_refracted_is_refract (s : Surface F) (ct : CoordTransform F) (m2 : Medium F) (c : Coating F)
    (niter : ℕ) (ray : Ray F) :
    (Ray.rSplit s ct m2 c niter ray).1 = Ray.refract s ct m2 (some c) niter ray := by
  simp only [Ray.rSplit, Ray.refract, Coating.getCoefs]
  split
  · rfl
  · split
    · rfl
    · rfl

/-- C15: a live ray missing the surface is marked failed and vignetted in both outputs and otherwise
left as it was. -/
theorem C15_miss_fails_both (s : Surface F) (ct : CoordTransform F) (m2 : Medium F) (c : Coating F)
    (niter : ℕ) (ray : Ray F) (hl : ray.failed = false)
    (hm : (s.timeToIntersect (ct.forward ray.r) (ct.forwardVel ray.v) 0 niter).1 = false) :
    (Ray.rSplit s ct m2 c niter ray).1 = { ray with failed := true, vignetted := true } ∧
    (Ray.rSplit s ct m2 c niter ray).2 = { ray with failed := true, vignetted := true } := by
  simp only [Ray.rSplit, hl]
  rcases h : s.timeToIntersect (ct.forward ray.r) (ct.forwardVel ray.v) 0 niter with ⟨b, dt⟩
  rw [h] at hm
  simp only at hm
  subst hm
  simp [Ray.markFailed]

/-- C15: the reflected output has the position, time, wavelength and flags of `reflect` in any
arithmetic. -/
theorem C15_reflected_position (s : Surface F) (ct : CoordTransform F) (m2 : Medium F) (c : Coating F)
    (cr : Option (Coating F)) (niter : ℕ) (ray : Ray F) :
    let a := (Ray.rSplit s ct m2 c niter ray).2
    let b := Ray.reflect s ct cr niter ray
    a.r = b.r ∧ a.t = b.t ∧ a.wavelength = b.wavelength ∧ a.vignetted = b.vignetted ∧ a.failed = b.failed := by
  simp only [Ray.rSplit, Ray.reflect]
  split
  · simp
  · split
    · simp
    · simp

/-- C15: fluxes of the two outputs for a live ray meeting the surface: the incoming flux times the
coating's reflect and transmit coefficients at one and the same angle. -/
theorem C15_flux (s : Surface F) (ct : CoordTransform F) (m2 : Medium F) (c : Coating F)
    (niter : ℕ) (ray : Ray F) (hl : ray.failed = false)
    (hm : (s.timeToIntersect (ct.forward ray.r) (ct.forwardVel ray.v) 0 niter).1 = true) :
    ∃ cosAngle : F,
      (Ray.rSplit s ct m2 c niter ray).2.flux = ray.flux * c.getReflect ray.wavelength cosAngle ∧
      (Ray.rSplit s ct m2 c niter ray).1.flux = ray.flux * c.getTransmit ray.wavelength cosAngle := by
  simp only [Ray.rSplit, hl]
  rcases h : s.timeToIntersect (ct.forward ray.r) (ct.forwardVel ray.v) 0 niter with ⟨b, dt⟩
  rw [h] at hm
  simp only at hm
  subst hm
  simp only [Coating.getCoefs, Bool.false_eq_true, if_false]
  refine ⟨_, rfl, ?_⟩
  split <;> rfl

/-! ## C17 -/

/-- C17: `obscure` sets the vignetted flag exactly where it was set or the position is inside, and
changes nothing else, neither in the rays nor in the frame. -/
theorem C17_obscure (o : Obsc F) (rv : RayVec F) :
    (rv.obscure o).coordSys = rv.coordSys ∧
    (rv.obscure o).rays.length = rv.rays.length ∧
    ∀ (i : ℕ) (ray : Ray F), rv.rays[i]? = some ray → ∃ ray' : Ray F, (rv.obscure o).rays[i]? = some ray' ∧
      (ray'.vignetted = true ↔ ray.vignetted = true ∨ o.contains ray.r.x ray.r.y = true) ∧
      (ray'.r, ray'.v, ray'.t, ray'.wavelength, ray'.flux, ray'.failed)
        = (ray.r, ray.v, ray.t, ray.wavelength, ray.flux, ray.failed) := by
  refine ⟨rfl, by simp [RayVec.obscure], ?_⟩
  intro i ray hi
  refine ⟨ray.obscure o, by simp [RayVec.obscure, hi], ?_, ?_⟩
  · simp [Ray.obscure]
  · simp [Ray.obscure]

/-- C17: obscuring is idempotent and obscurations commute. -/
theorem C17_obscure_idem_comm (o p : Obsc F) (rv : RayVec F) :
    (rv.obscure o).obscure o = rv.obscure o ∧
    (rv.obscure o).obscure p = (rv.obscure p).obscure o := by
  constructor
  · simp [RayVec.obscure, Ray.obscure]
  · simp only [RayVec.obscure, List.map_map, RayVec.mk.injEq, and_true]
    apply List.map_congr_left
    intro ray _
    simp only [Function.comp, Ray.obscure, Ray.mk.injEq, true_and, and_true]
    cases ray.vignetted <;> cases o.contains ray.r.x ray.r.y <;> cases p.contains ray.r.x ray.r.y <;> rfl

/-- C17: a list of obscurations applied in any order vignettes the rays inside their union. -/
theorem C17_obscure_list (os : List (Obsc F)) (rv : RayVec F) (i : ℕ) (ray : Ray F)
    (hi : rv.rays[i]? = some ray) :
    ∃ ray', (os.foldl RayVec.obscure rv).rays[i]? = some ray' ∧ ray'.r = ray.r ∧
      (ray'.vignetted = true ↔ ray.vignetted = true ∨ ∃ o ∈ os, o.contains ray.r.x ray.r.y = true) := by
  induction os generalizing rv ray with
  | nil => exact ⟨ray, hi, rfl, by simp⟩
  | cons o os ih =>
    have h1 : (rv.obscure o).rays[i]? = some (ray.obscure o) := by simp [RayVec.obscure, hi]
    obtain ⟨ray', h2, hr, hv⟩ := ih (rv.obscure o) _ h1
    refine ⟨ray', h2, hr, ?_⟩
    rw [hv]
    simp [Ray.obscure, or_assoc]

/-! ## C69, structural part -/

/-- The operation carries no coating. -/
def NoCoating : RayOp F → Prop
  | .intersect _ _ c _ => c = none
  | .reflect _ _ c _ => c = none
  | .refract _ _ _ _ c _ => c = none
  | .splitRefracted .. => False
  | .splitReflected .. => False
  | _ => True

/-- C69: without coatings no history changes any flux or wavelength, in any arithmetic. -/
theorem C69_flux_unchanged_without_coating (ops : List (RayOp F)) (h : ∀ op ∈ ops, NoCoating op)
    (rv : RayVec F) :
    (RayOp.runAll rv ops).rays.map (fun r => (r.flux, r.wavelength))
      = rv.rays.map (fun r => (r.flux, r.wavelength)) := by
  induction ops generalizing rv with
  | nil => rfl
  | cons op ops ih =>
    refine (ih (fun o ho => h o (by simp [ho])) (op.run rv)).trans ?_
    rw [RayOp.run_rays, List.map_map]
    apply List.map_congr_left
    intro ray _
    have hop := h op (by simp)
    simp only [Function.comp]
    cases op <;> simp only [NoCoating] at hop <;> (try subst hop) <;>
      simp only [RayOp.onRay, Ray.intersect, Ray.reflect, Ray.refract, Ray.refractScreen, Ray.obscure,
        Ray.forward, Ray.reverse, Ray.propagate]
    all_goals first
      | rfl
      | (split
         · rfl
         · split
           · rfl
           · first | rfl | (split <;> rfl))

end anyArith

/-- Non-vacuity for C12/C13: a ray that misses a plane (it travels parallel to it) fails, is then
vignetted, and stays as it is under a further reflection in another frame. -/
example : ∃ (ray : Ray Dbl), ray.failed = false ∧
    let rv : RayVec Dbl := ⟨[ray], (CoordSys.std ℝ).fin⟩
    let rv1 := (RayOp.intersect Surface.plane none none 5).run rv
    (∃ r1, rv1.rays[0]? = some r1 ∧ r1.failed = true ∧ r1.vignetted = true) := by
  refine ⟨⟨V3.fin ⟨0, 0, 1⟩, V3.fin ⟨1, 0, 0⟩, .fin 0, .fin 1, .fin 1, false, false⟩, rfl, ?_⟩
  simp only [RayOp.run, RayVec.intersect, RayVec.runKernel, RayVec.target, Option.getD_none, List.map_cons,
    List.map_nil, List.getElem?_cons_zero, Option.some.injEq, exists_eq_left']
  simp only [Ray.intersect, CoordTransform.forward_fin, CoordTransform.forwardVel_fin]
  simp [Surface.plane, CoordTransform.forward, CoordTransform.forwardVel, CoordTransform.make, CoordSys.std,
    M3.tr, M3.mul, M3.mulVec, Ray.markFailed]

/-! ## C14 -/

/-- C14 (violated in general): a failed ray keeps the numbers of the old frame although the ray
vector's frame has been changed.  Witness: one failed ray at the origin, intersected with a plane in a
frame one unit higher: the stored coordinates now name a different place. -/
theorem C14_failed_ray_frame_violated :
    ∃ (rv : RayVec Dbl) (s : Surface Dbl) (cs : CoordSys ℝ), IsRotation cs.rot ∧
      rv.coordSys = (CoordSys.std ℝ).fin ∧ (∀ ray ∈ rv.rays, FinitePV ray ∧ ray.failed = true) ∧
      let rv' := rv.intersect s (some cs.fin) none 5
      rv'.coordSys = cs.fin ∧
      rv'.rays.map (fun ray => rv'.coordSys.toGlobal ray.r) ≠ rv.rays.map (fun ray => rv.coordSys.toGlobal ray.r) := by
  refine ⟨⟨[⟨V3.fin ⟨0, 0, 0⟩, V3.fin ⟨0, 0, 1⟩, .fin 0, .fin 1, .fin 1, true, true⟩], (CoordSys.std ℝ).fin⟩,
    Surface.plane, ⟨⟨0, 0, 1⟩, M3.one⟩, isRotation_one, rfl, ?_, rfl, ?_⟩
  · intro ray hray
    simp only [List.mem_singleton] at hray
    subst hray
    exact ⟨⟨_, _, rfl, rfl⟩, rfl⟩
  · simp only [RayVec.intersect, RayVec.runKernel, RayVec.target, Option.getD_some, List.map_cons, List.map_nil,
      Ray.intersect, if_true]
    intro h
    simp only [List.cons.injEq, and_true] at h
    have := congrArg V3.z h
    simp [CoordSys.toGlobal, CoordSys.fin, CoordSys.std] at this
    simp [M3.mulVec, M3.one] at this

end Batoid.Props
