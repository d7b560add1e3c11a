import Verif.Props.Kernels
import Verif.Props.Optics

/-!
# Properties C11 (screens), C69 (flux bounds), C72 (optical path length)
-/

namespace Batoid.Props
open Batoid

/-- C11 for `refractScreen`: the ray moves along its own line by the flight time, and the time grows by
the flight time plus the screen height. -/
theorem C11_along_line_screen {s screen : Surface Dbl} {ct : CoordTransform Dbl} {niter : ℕ} {ray : Ray Dbl}
    {r v n : V3 ℝ} {dt t p : ℝ} (h : Hit s ct niter ray r v n dt) (ht : ray.t = Dbl.fin t)
    (hp : screen.sag (Dbl.fin (r + v.smulR dt).x) (Dbl.fin (r + v.smulR dt).y) = Dbl.fin p) :
    let out := Ray.refractScreen s ct screen niter ray
    out.r = ct.forward ray.r + (ct.forwardVel ray.v).smulR (out.t - Dbl.fin p - ray.t) ∧
    out.t = Dbl.fin (t + dt + p) ∧ out.wavelength = ray.wavelength := by
  simp only [Ray.refractScreen, h.live, h.pos, h.vel, h.time, ht]
  simp only [V3.fin_smulR, V3.fin_add, V3.fin_x, V3.fin_y, hp]
  simp

/-! ## C69 -/

/-- Coefficients between 0 and 1 at every wavelength and angle. -/
def CoatingBounded (c : Coating Dbl) : Prop :=
  ∀ w a, (∃ q, c.getReflect w a = Dbl.fin q ∧ 0 ≤ q ∧ q ≤ 1) ∧ (∃ q, c.getTransmit w a = Dbl.fin q ∧ 0 ≤ q ∧ q ≤ 1)

/-- All coatings mentioned by an operation are bounded. -/
def OpBounded : RayOp Dbl → Prop
  | .intersect _ _ c _ => ∀ k ∈ c, CoatingBounded k
  | .reflect _ _ c _ => ∀ k ∈ c, CoatingBounded k
  | .refract _ _ _ _ c _ => ∀ k ∈ c, CoatingBounded k
  | .splitRefracted _ _ _ c _ _ => CoatingBounded c
  | .splitReflected _ _ _ c _ _ => CoatingBounded c
  | _ => True

/-- The flux after is between 0 and the flux before. -/
def FluxShrinks (before after : Dbl) : Prop :=
  ∀ f, before = Dbl.fin f → 0 ≤ f → ∃ g, after = Dbl.fin g ∧ 0 ≤ g ∧ g ≤ f

theorem FluxShrinks.refl (a : Dbl) : FluxShrinks a a := fun f h h0 => ⟨f, h, h0, le_refl f⟩

theorem FluxShrinks.mul (a c : Dbl) (hc : ∃ q, c = Dbl.fin q ∧ 0 ≤ q ∧ q ≤ 1) : FluxShrinks a (a * c) := by
  obtain ⟨q, rfl, h0, h1⟩ := hc
  rintro f rfl hf
  exact ⟨f * q, by simp, mul_nonneg hf h0, by nlinarith⟩

theorem FluxShrinks.trans {a b c : Dbl} (h1 : FluxShrinks a b) (h2 : FluxShrinks b c) : FluxShrinks a c := by
  intro f hf h0
  obtain ⟨g, hg, hg0, hgf⟩ := h1 f hf h0
  obtain ⟨k, hk, hk0, hkg⟩ := h2 g hg hg0
  exact ⟨k, hk, hk0, hkg.trans hgf⟩

theorem onRay_flux (from_ : CoordSys Dbl) (op : RayOp Dbl) (hop : OpBounded op) (ray : Ray Dbl) :
    FluxShrinks ray.flux (op.onRay from_ ray).flux := by
  cases op
  case intersect s cs c n =>
    simp only [RayOp.onRay, Ray.intersect]
    split
    · exact .refl _
    split
    · exact .refl _
    · cases c with
      | none => exact .refl _
      | some c => exact .mul _ _ (hop c rfl _ _).2
  case reflect s cs c n =>
    simp only [RayOp.onRay, Ray.reflect]
    split
    · exact .refl _
    split
    · exact .refl _
    · cases c with
      | none => exact .refl _
      | some c => exact .mul _ _ (hop c rfl _ _).1
  case refract s m1 m2 cs c n =>
    simp only [RayOp.onRay, Ray.refract]
    split
    · exact .refl _
    split
    · exact .refl _
    · cases c with
      | none => split <;> exact .refl _
      | some c => split <;> exact .mul _ _ (hop c rfl _ _).2
  case splitRefracted s m1 m2 c cs n =>
    simp only [RayOp.onRay, Ray.rSplit]
    split
    · exact .refl _
    split
    · exact .refl _
    · simp only
      split <;> exact .mul _ _ (hop _ _).2
  case splitReflected s m1 m2 c cs n =>
    simp only [RayOp.onRay, Ray.rSplit]
    split
    · exact .refl _
    split
    · exact .refl _
    · exact .mul _ _ (hop _ _).1
  case refractScreen s sc cs n =>
    simp only [RayOp.onRay, Ray.refractScreen]
    split
    · exact .refl _
    split <;> exact .refl _
  all_goals exact .refl _

/-- C69: through any history of operations with coatings whose coefficients lie in `[0, 1]`, the flux of
every ray stays between 0 and its initial value. -/
theorem C69_flux_bounds (ops : List (RayOp Dbl)) (h : ∀ op ∈ ops, OpBounded op) (rv : RayVec Dbl) (i : ℕ)
    (ray : Ray Dbl) (hi : rv.rays[i]? = some ray) (f : ℝ) (hf : ray.flux = Dbl.fin f) (h0 : 0 ≤ f) :
    ∃ ray', (RayOp.runAll rv ops).rays[i]? = some ray' ∧ ∃ g, ray'.flux = Dbl.fin g ∧ 0 ≤ g ∧ g ≤ f := by
  have key : ∃ ray', (RayOp.runAll rv ops).rays[i]? = some ray' ∧ FluxShrinks ray.flux ray'.flux := by
    clear hf h0
    induction ops generalizing rv ray with
    | nil => exact ⟨ray, hi, .refl _⟩
    | cons op ops ih =>
      have h1 : (op.run rv).rays[i]? = some (op.onRay rv.coordSys ray) := by
        rw [RayOp.run_rays, List.getElem?_map, hi]; rfl
      obtain ⟨ray', h2, h3⟩ := ih (fun o ho => h o (by simp [ho])) _ _ h1
      exact ⟨ray', h2, (onRay_flux _ op (h op (by simp)) ray).trans h3⟩
  obtain ⟨ray', h1, h2⟩ := key
  exact ⟨ray', h1, h2 f hf h0⟩

/-- The flux of one ray does not depend on the other rays in the batch (nothing mixes): the output at index `i`
is a function of the input at index `i` alone. -/
theorem C69_no_mixing {F : Type} [Arith F] (ops : List (RayOp F)) (rv rv' : RayVec F) (hcs : rv.coordSys = rv'.coordSys)
    (i : ℕ) (hi : rv.rays[i]? = rv'.rays[i]?) :
    (RayOp.runAll rv ops).rays[i]? = (RayOp.runAll rv' ops).rays[i]? := by
  induction ops generalizing rv rv' with
  | nil => exact hi
  | cons op ops ih =>
    refine ih (op.run rv) (op.run rv') ?_ ?_
    · cases op <;> simp only [RayOp.run, RayVec.intersect, RayVec.reflect, RayVec.refract, RayVec.rSplit,
        RayVec.refractScreen, RayVec.obscure, RayVec.toCoordSys, RayVec.applyForward, RayVec.applyReverse,
        RayVec.propagate, RayVec.runKernel, RayVec.target, hcs]
    · rw [RayOp.run_rays, RayOp.run_rays, List.getElem?_map, List.getElem?_map, hi, hcs]

/-- Non-vacuity: a simple coating with reflectivity 0.3 and transmissivity 0.7 is bounded. -/
example : CoatingBounded (Coating.simple (Dbl.fin 0.3) (Dbl.fin 0.7)) := by
  intro w a
  exact ⟨⟨0.3, rfl, by norm_num, by norm_num⟩, ⟨0.7, rfl, by norm_num, by norm_num⟩⟩

/-! ## C72 -/

/-- Euclidean distance. -/
noncomputable def dist3 (p q : V3 ℝ) : ℝ := speed (q - p)

/-- One straight piece of a ray's path in space. -/
structure Segment where
  /-- refractive index: reciprocal of the speed along the segment -/
  index : ℝ
  start : V3 ℝ
  stop : V3 ℝ

/-- Geometric length times refractive index. -/
noncomputable def Segment.optical (s : Segment) : ℝ := s.index * dist3 s.start s.stop

/-- `Journey a ray segs b ray'`: a ray given in frame `a` is sent through a sequence of interfaces, each
reached forward in time, ending as `ray'` in frame `b`; `segs` records the pieces of its path in global
coordinates. -/
inductive Journey : CoordSys ℝ → Ray Dbl → List Segment → CoordSys ℝ → Ray Dbl → Prop
  | here (a : CoordSys ℝ) (ray : Ray Dbl) : Journey a ray [] a ray
  | leg {a b c : CoordSys ℝ} {ray out : Ray Dbl} {segs : List Segment} (s : Surface Dbl) (niter : ℕ)
      (k : SurfaceKernel) (r0 v0 r v n : V3 ℝ) (dt : ℝ)
      (ha : IsRotation a.rot) (hb : IsRotation b.rot)
      (hr0 : ray.r = r0.fin) (hv0 : ray.v = v0.fin) (hv : v0 ≠ ⟨0, 0, 0⟩)
      (h : Hit s (CoordTransform.make a.fin b.fin) niter ray r v n dt) (hdt : 0 ≤ dt)
      (rest : Journey b (k.run s (CoordTransform.make a.fin b.fin) niter ray) segs c out) :
      Journey a ray (⟨1 / speed v0, a.toGlobal r0, b.toGlobal (r + v.smulR dt)⟩ :: segs) c out

theorem speed_smulR (v : V3 ℝ) (t : ℝ) : speed (v.smulR t) = speed v * |t| := by
  have : V3.dot (v.smulR t) (v.smulR t) = V3.dot v v * (t * t) := by simp [V3.dot]; ring
  rw [speed, this, Real.sqrt_mul (dot_self_nonneg v), Real.sqrt_mul_self_eq_abs]; rfl

theorem speed_mulVec {m : M3 ℝ} (hm : m.Orth) (v : V3 ℝ) : speed (m.mulVec v) = speed v := by
  unfold speed; rw [hm.dot_mulVec]

/-- C72: the time of a traced ray is its initial time plus the sum over the straight pieces of its path of
geometric length times refractive index. -/
theorem C72_optical_path {a b : CoordSys ℝ} {ray out : Ray Dbl} {segs : List Segment}
    (h : Journey a ray segs b out) (t : ℝ) (ht : ray.t = Dbl.fin t) :
    out.t = Dbl.fin (t + (segs.map Segment.optical).sum) := by
  induction h generalizing t with
  | here a ray => simp [ht]
  | @leg a b c ray out segs s niter k r0 v0 r v n dt ha hb hr0 hv0 hv h hdt rest ih =>
    have h1 := (C11_along_line h ht k).2.1
    rw [ih (t + dt) h1]
    have hp := speed_pos hv
    have e1 : r = (CoordTransform.make a b).forward r0 := by
      have := h.pos; rw [hr0, CoordTransform.forward_fin, V3.fin_inj] at this; exact this.symm
    have e2 : v = (CoordTransform.make a b).forwardVel v0 := by
      have := h.vel; rw [hv0, CoordTransform.forwardVel_fin, V3.fin_inj] at this; exact this.symm
    have h3 : b.toGlobal r = a.toGlobal r0 := by
      rw [e1, CoordSys.forward_eq ha.orth, CoordSys.toGlobal_toLocal hb.orth]
    have h4 : b.rot.mulVec v = a.rot.mulVec v0 := by
      rw [e2, CoordSys.forwardVel_eq, hb.orth.mulVec_tr]
    have h5 : b.toGlobal (r + v.smulR dt) - a.toGlobal r0 = (a.rot.mulVec v0).smulR dt := by
      rw [← h3, ← h4]
      simp only [CoordSys.toGlobal, M3.mulVec_add, M3.mulVec_smulR]
      ext <;> simp
    have h6 : Segment.optical ⟨1 / speed v0, a.toGlobal r0, b.toGlobal (r + v.smulR dt)⟩ = dt := by
      rw [Segment.optical]
      simp only [dist3, h5]
      rw [speed_smulR, speed_mulVec ha.orth, abs_of_nonneg hdt]; field_simp
    rw [List.map_cons, List.sum_cons, h6]
    congr 1; ring

/-- The recorded pieces are connected: every piece starts where the previous one stopped. -/
def Connected : List Segment → Prop
  | s :: s' :: rest => s'.start = s.stop ∧ Connected (s' :: rest)
  | _ => True

theorem C72_path_connected {a b : CoordSys ℝ} {ray out : Ray Dbl} {segs : List Segment} (t : ℝ) (ht : ray.t = Dbl.fin t)
    (h : Journey a ray segs b out) : Connected segs := by
  induction h generalizing t with
  | here a ray => trivial
  | @leg a b c ray out segs s niter k r0 v0 r v n dt ha hb hr0 hv0 hv h hdt rest ih =>
    have h1 := C11_along_line h ht k
    have := ih (t + dt) h1.2.1
    cases rest with
    | here => trivial
    | leg s' niter' k' r0' v0' r' v' n' dt' ha' hb' hr0' hv0' hv' h' hdt' rest' =>
      refine ⟨?_, this⟩
      have e : r0' = r + v.smulR dt := by
        have e0 := h1.1
        rw [hr0', h1.2.1, ht, h.pos, h.vel] at e0
        simp at e0
        exact e0
      rw [e]

/-- The same ray with its clock moved by `tau`. -/
noncomputable def Ray.delay (tau : Dbl) (ray : Ray Dbl) : Ray Dbl := { ray with t := ray.t + tau }

theorem dbl_add_right_comm (a b c : Dbl) : a + b + c = a + c + b := by
  cases a <;> cases b <;> cases c <;> first | rfl | (simp only [Dbl.add_fin, Dbl.fin_inj]; ring)

/-- Operations that do not refer to an absolute time. -/
def TimeFree : RayOp Dbl → Prop
  | .propagate _ => False
  | _ => True

theorem onRay_delay (from_ : CoordSys Dbl) (op : RayOp Dbl) (hop : TimeFree op) (tau : Dbl) (ray : Ray Dbl) :
    op.onRay from_ (Ray.delay tau ray) = Ray.delay tau (op.onRay from_ ray) := by
  by_cases hf : ray.failed = true
  all_goals
    cases op <;> simp only [TimeFree] at hop <;>
      simp only [RayOp.onRay, Ray.intersect, Ray.reflect, Ray.refract, Ray.rSplit, Ray.refractScreen, Ray.obscure,
        Ray.forward, Ray.reverse, Ray.delay, Ray.markFailed, hf, if_true, if_false, Bool.false_eq_true]
  all_goals
    generalize Surface.timeToIntersect _ _ _ _ _ = T
    rcases T with ⟨_ | _, dt⟩
    · rfl
    · simp only [dbl_add_right_comm _ tau]
      try (split <;> simp only [])

/-- C72: moving the clock of every ray by the same `tau` moves every time in the output of any history by `tau`
and changes nothing else, so time differences between rays (OPD) do not depend on the origin of time. -/
theorem C72_time_origin (ops : List (RayOp Dbl)) (h : ∀ op ∈ ops, TimeFree op) (tau : Dbl) (rv : RayVec Dbl) :
    RayOp.runAll ⟨rv.rays.map (Ray.delay tau), rv.coordSys⟩ ops
      = ⟨(RayOp.runAll rv ops).rays.map (Ray.delay tau), (RayOp.runAll rv ops).coordSys⟩ := by
  induction ops generalizing rv with
  | nil => rfl
  | cons op ops ih =>
    have hop := h op (by simp)
    have key : op.run ⟨rv.rays.map (Ray.delay tau), rv.coordSys⟩
        = ⟨(op.run rv).rays.map (Ray.delay tau), (op.run rv).coordSys⟩ := by
      have h1 : (op.run ⟨rv.rays.map (Ray.delay tau), rv.coordSys⟩).rays = (op.run rv).rays.map (Ray.delay tau) := by
        rw [RayOp.run_rays, RayOp.run_rays, List.map_map, List.map_map]
        exact List.map_congr_left (fun ray _ => onRay_delay rv.coordSys op hop tau ray)
      have h2 : (op.run ⟨rv.rays.map (Ray.delay tau), rv.coordSys⟩).coordSys = (op.run rv).coordSys := by
        cases op <;> rfl
      cases hx : op.run ⟨rv.rays.map (Ray.delay tau), rv.coordSys⟩ with
      | mk rays cs => rw [hx] at h1 h2; simp only at h1 h2; rw [h1, h2]
    show RayOp.runAll (op.run ⟨rv.rays.map (Ray.delay tau), rv.coordSys⟩) ops = _
    rw [key]
    exact ih (fun o ho => h o (by simp [ho])) (op.run rv)

/-- Non-vacuity of the journey: one leg of optical length 5 from the demo ray. -/
example : ∃ out, Journey (CoordSys.std ℝ) (demoRay ⟨3 / 5, 0, -4 / 5⟩)
    [⟨1 / speed ⟨3 / 5, 0, -4 / 5⟩, (CoordSys.std ℝ).toGlobal ⟨1, 2, 4⟩,
      (CoordSys.std ℝ).toGlobal (⟨1, 2, 4⟩ + V3.smulR ⟨3 / 5, 0, -4 / 5⟩ (-4 / (-4 / 5)))⟩]
    (CoordSys.std ℝ) out :=
  ⟨_, Journey.leg Surface.plane 5 (.reflect none) ⟨1, 2, 4⟩ ⟨3 / 5, 0, -4 / 5⟩ ⟨1, 2, 4⟩ ⟨3 / 5, 0, -4 / 5⟩ ⟨0, 0, 1⟩
    (-4 / (-4 / 5)) isRotation_one isRotation_one rfl rfl (by simp) (demo_hit (by norm_num)) (by norm_num)
    (Journey.here _ _)⟩

end Batoid.Props
