import Verif.Props.Analysis
import Verif.Props.Projections
import Verif.Props.Rays

/-!
# Exit pupil, chief ray, wavefront, spots and the Huygens PSF (C65, C74, C75, C76, C77)
-/

namespace Batoid.Props
open Batoid Batoid.Analysis Batoid.Construct

/-! ## Means -/

theorem foldl_add_fin (l : List ℝ) (a : ℝ) : (l.map Dbl.fin).foldl (· + ·) (Dbl.fin a) = Dbl.fin (a + l.sum) := by
  induction l generalizing a with
  | nil => simp
  | cons x l ih => simp only [List.map_cons, List.foldl_cons, Dbl.add_fin, List.sum_cons]; rw [ih, add_assoc]

theorem mean_fin {l : List ℝ} (h : l ≠ []) : mean (l.map Dbl.fin) = Dbl.fin (l.sum / l.length) := by
  have hl : (l.length : ℝ) ≠ 0 := by
    have := List.length_pos_iff.mpr h
    exact_mod_cast this.ne'
  unfold mean
  rw [Dbl.zero_dbl, foldl_add_fin, zero_add, Dbl.const_dbl, List.length_map, Rat.cast_natCast, Dbl.div_fin hl]

/-- The arithmetic mean of points. -/
noncomputable def centroid (l : List (V3 ℝ)) : V3 ℝ :=
  ⟨(l.map (·.x)).sum / l.length, (l.map (·.y)).sum / l.length, (l.map (·.z)).sum / l.length⟩

theorem meanV_fin {l : List (V3 ℝ)} (h : l ≠ []) : meanV (l.map V3.fin) = (centroid l).fin := by
  have e : ∀ f : V3 ℝ → ℝ, (l.map f) ≠ [] := fun f => by simpa using h
  have hx := mean_fin (e (·.x))
  have hy := mean_fin (e (·.y))
  have hz := mean_fin (e (·.z))
  simp only [List.map_map, List.length_map] at hx hy hz
  unfold meanV centroid
  apply V3.ext
  · simpa [List.map_map, Function.comp_def] using hx
  · simpa [List.map_map, Function.comp_def] using hy
  · simpa [List.map_map, Function.comp_def] using hz

theorem centroid_const {l : List (V3 ℝ)} (h : l ≠ []) {p : V3 ℝ} (hp : ∀ q ∈ l, q = p) : centroid l = p := by
  have e : l = List.replicate l.length p := List.eq_replicate_iff.mpr ⟨rfl, hp⟩
  have hl : (l.length : ℝ) ≠ 0 := by
    have := List.length_pos_iff.mpr h
    exact_mod_cast this.ne'
  unfold centroid
  rw [e]
  simp only [List.map_replicate, List.sum_replicate, List.length_replicate, nsmul_eq_mul]
  ext <;> field_simp

/-! ## C65: the exit pupil -/

/-- `p` is the point of the line through `r` along `v` that is nearest to the z axis. -/
def NearestToAxis (r v p : V3 ℝ) : Prop :=
  (∃ s, p = r + v.smulR s) ∧ ∀ s, p.x ^ 2 + p.y ^ 2 ≤ (r + v.smulR s).x ^ 2 + (r + v.smulR s).y ^ 2

theorem origin_fin : (⟨0, 0, 0⟩ : V3 Dbl) = (⟨0, 0, 0⟩ : V3 ℝ).fin := by apply V3.ext <;> simp
theorem zhat_fin : (⟨0, 0, 1⟩ : V3 Dbl) = (⟨0, 0, 1⟩ : V3 ℝ).fin := by apply V3.ext <;> simp

theorem closest_axis {r v : V3 ℝ} (hv : v.x ≠ 0 ∨ v.y ≠ 0) :
    ∃ p, closestApproach r.fin v.fin ⟨0, 0, 0⟩ ⟨0, 0, 1⟩ = .ok p.fin ∧ NearestToAxis r v p ∧
      ∀ q, NearestToAxis r v q → q = p := by
  have h : V3.dot v v * V3.dot (⟨0, 0, 1⟩ : V3 ℝ) ⟨0, 0, 1⟩ - V3.dot v ⟨0, 0, 1⟩ * V3.dot v ⟨0, 0, 1⟩ ≠ 0 := by
    have : V3.dot v v * V3.dot (⟨0, 0, 1⟩ : V3 ℝ) ⟨0, 0, 1⟩ - V3.dot v ⟨0, 0, 1⟩ * V3.dot v ⟨0, 0, 1⟩ = v.x ^ 2 + v.y ^ 2 := by
      simp only [V3.dot]; ring
    rw [this]
    rcases hv with hv | hv <;> positivity
  obtain ⟨s, h1, h2⟩ := C65_closest (P := r) (u := v) (Q := ⟨0, 0, 0⟩) (v := ⟨0, 0, 1⟩) h
  have hd : ∀ p : V3 ℝ, distSqToLine p ⟨0, 0, 0⟩ ⟨0, 0, 1⟩ = p.x ^ 2 + p.y ^ 2 := by
    intro p; simp only [distSqToLine, V3.normSq, V3.dot, V3.sub_x, V3.sub_y, V3.sub_z]; ring
  have hne : ∀ s', s' ≠ s → (r + v.smulR s).x ^ 2 + (r + v.smulR s).y ^ 2 < (r + v.smulR s').x ^ 2 + (r + v.smulR s').y ^ 2 := by
    intro s' hs; have := h2 s' hs; rwa [hd, hd] at this
  refine ⟨_, ?_, ⟨⟨s, rfl⟩, fun s' => ?_⟩, ?_⟩
  · rw [origin_fin, zhat_fin]; exact h1
  · by_cases hs : s' = s
    · rw [hs]
    · exact (hne s' hs).le
  · rintro q ⟨⟨s', rfl⟩, hq⟩
    by_cases hs : s' = s
    · rw [hs]
    · exact absurd (hq s) (not_le.mpr (hne s' hs))

theorem nearest_cross {r v : V3 ℝ} (hv : v.x ≠ 0 ∨ v.y ≠ 0) {s z : ℝ} (h : r + v.smulR s = ⟨0, 0, z⟩) : NearestToAxis r v ⟨0, 0, z⟩ := by
  refine ⟨⟨s, h.symm⟩, fun s' => ?_⟩
  have : (0 : ℝ) ≤ (r + v.smulR s').x ^ 2 + (r + v.smulR s').y ^ 2 := by positivity
  simpa using this

/-- The closest approaches and their mean. -/
theorem pupilOf_fin {rays : List (Ray Dbl)} {lines : List (V3 ℝ × V3 ℝ)} (hl : rays.map (fun ray => (ray.r, ray.v)) = lines.map fun l => (l.1.fin, l.2.fin))
    (hne : lines ≠ []) (hv : ∀ l ∈ lines, l.2.x ≠ 0 ∨ l.2.y ≠ 0) :
    ∃ ps : List (V3 ℝ), List.Forall₂ (fun l p => NearestToAxis l.1 l.2 p) lines ps ∧ pupilOf rays = .ok (centroid ps).fin := by
  have key : ∃ ps : List (V3 ℝ), List.Forall₂ (fun l p => NearestToAxis l.1 l.2 p) lines ps ∧
      rays.mapM (fun ray => closestApproach ray.r ray.v ⟨0, 0, 0⟩ ⟨0, 0, 1⟩) = .ok (ps.map V3.fin) := by
    clear hne
    induction lines generalizing rays with
    | nil =>
      have : rays = [] := by simpa using hl
      subst this
      exact ⟨[], .nil, rfl⟩
    | cons l ls ih =>
      match rays, hl with
      | ray :: rays, hl =>
        simp only [List.map_cons, List.cons.injEq, Prod.mk.injEq] at hl
        obtain ⟨ps, h1, h2⟩ := ih hl.2 fun m hm => hv m (List.mem_cons_of_mem _ hm)
        obtain ⟨p, h3, h4, _⟩ := closest_axis (r := l.1) (hv l List.mem_cons_self)
        refine ⟨p :: ps, .cons h4 h1, ?_⟩
        rw [List.mapM_cons, hl.1.1, hl.1.2, h3, h2]
        rfl
  obtain ⟨ps, h1, h2⟩ := key
  refine ⟨ps, h1, ?_⟩
  have hps : ps ≠ [] := by rintro rfl; cases h1; exact hne rfl
  unfold pupilOf
  rw [h2]
  show Except.ok (meanV (ps.map V3.fin)) = _
  rw [meanV_fin hps]

/-- The line that a ray of a frame describes in global coordinates. -/
def globalLine (cs : CoordSys ℝ) (l : V3 ℝ × V3 ℝ) : V3 ℝ × V3 ℝ := (cs.toGlobal l.1, cs.rot.mulVec l.2)

theorem toGlobal_rays {rv : RayVec Dbl} {cs : CoordSys ℝ} (hcs : cs.rot.Orth) (hf : rv.coordSys = cs.fin) {lines : List (V3 ℝ × V3 ℝ)}
    (hl : rv.rays.map (fun ray => (ray.r, ray.v)) = lines.map fun l => (l.1.fin, l.2.fin)) :
    ((rv.toCoordSys (CoordSys.std Dbl)).rays).map (fun ray => (ray.r, ray.v)) =
      (lines.map (globalLine cs)).map fun l => (l.1.fin, l.2.fin) := by
  have hstd : (CoordSys.std Dbl) = globalFrame.fin := by
    simp [CoordSys.std, globalFrame, CoordSys.fin, M3.one, M3.fin, M3.map]
  have hstep : ∀ ray : Ray Dbl, ∀ l : V3 ℝ × V3 ℝ, (ray.r, ray.v) = (l.1.fin, l.2.fin) →
      ((Ray.forward (CoordTransform.make cs.fin globalFrame.fin) ray).r, (Ray.forward (CoordTransform.make cs.fin globalFrame.fin) ray).v) =
        ((globalLine cs l).1.fin, (globalLine cs l).2.fin) := by
    rintro ray ⟨r, v⟩ h
    simp only [Prod.mk.injEq] at h
    simp only [Ray.forward, h.1, h.2, CoordTransform.forward_fin, CoordTransform.forwardVel_fin, CoordSys.forward_eq hcs,
      CoordSys.forwardVel_eq, globalLine, Prod.mk.injEq, V3.fin_inj]
    constructor
    · ext <;> simp [CoordSys.toLocal, globalFrame, M3.one, M3.tr, M3.mulVec]
    · ext <;> simp [globalFrame, M3.one, M3.tr, M3.mulVec]
  rw [RayVec.toCoordSys, RayVec.applyForward, hf, hstd]
  simp only
  generalize rv.rays = rays at hl
  clear hf
  induction lines generalizing rays with
  | nil => have : rays = [] := by simpa using hl
           subst this; rfl
  | cons l ls ih =>
    match rays, hl with
    | ray :: rays, hl =>
      simp only [List.map_cons, List.cons.injEq] at hl ⊢
      exact ⟨hstep ray l hl.1, ih rays hl.2⟩

/-- The four field angles of `exitPupilPos`. -/
noncomputable def pupilAngles (smallAngle : ℝ) : List (Dbl × Dbl) :=
  [(0, Dbl.fin smallAngle), (0, -Dbl.fin smallAngle), (Dbl.fin smallAngle, 0), (-Dbl.fin smallAngle, 0)]

/-- C65: when the traced chief rays are finite and none is parallel to the optic axis, the result is the centroid of the points
where they come nearest to it, in global coordinates. -/
theorem C65_exitPupil {s : System Dbl} {w angle : ℝ} {projection : String} {rv : RayVec Dbl} {cs : CoordSys ℝ} {lines : List (V3 ℝ × V3 ℝ)}
    (hrv : fromFieldAngles { optic := some s.attrs, wavelength := some (Dbl.fin w), projection := projection } (pupilAngles angle) 0 0 1 = .ok rv)
    (hcs : cs.rot.Orth) (hf : (s.trace rv).coordSys = cs.fin)
    (hl : (s.trace rv).rays.map (fun ray => (ray.r, ray.v)) = lines.map fun l => (l.1.fin, l.2.fin)) (hne : lines ≠ [])
    (hv : ∀ l ∈ lines, (globalLine cs l).2.x ≠ 0 ∨ (globalLine cs l).2.y ≠ 0) :
    ∃ ps : List (V3 ℝ), List.Forall₂ (fun l p => NearestToAxis (globalLine cs l).1 (globalLine cs l).2 p) lines ps ∧
      exitPupilPos s (Dbl.fin w) (Dbl.fin angle) projection = .ok (centroid ps).fin := by
  obtain ⟨ps, h1, h2⟩ := pupilOf_fin (toGlobal_rays hcs hf hl) (by simpa using hne) (by
    intro l hl'
    obtain ⟨m, hm, rfl⟩ := List.mem_map.mp hl'
    exact hv m hm)
  refine ⟨ps, ?_, ?_⟩
  · rwa [List.forall₂_map_left_iff] at h1
  · unfold exitPupilPos
    unfold pupilAngles at hrv
    rw [hrv]
    exact h2

/-- C65: when the traced chief rays all cross the optic axis at one point, that point is the exit pupil. -/
theorem C65_exitPupil_common {s : System Dbl} {w angle z : ℝ} {projection : String} {rv : RayVec Dbl} {cs : CoordSys ℝ} {lines : List (V3 ℝ × V3 ℝ)}
    (hrv : fromFieldAngles { optic := some s.attrs, wavelength := some (Dbl.fin w), projection := projection } (pupilAngles angle) 0 0 1 = .ok rv)
    (hcs : cs.rot.Orth) (hf : (s.trace rv).coordSys = cs.fin)
    (hl : (s.trace rv).rays.map (fun ray => (ray.r, ray.v)) = lines.map fun l => (l.1.fin, l.2.fin)) (hne : lines ≠ [])
    (hv : ∀ l ∈ lines, (globalLine cs l).2.x ≠ 0 ∨ (globalLine cs l).2.y ≠ 0)
    (hz : ∀ l ∈ lines, ∃ t, (globalLine cs l).1 + (globalLine cs l).2.smulR t = ⟨0, 0, z⟩) :
    exitPupilPos s (Dbl.fin w) (Dbl.fin angle) projection = .ok (⟨0, 0, z⟩ : V3 ℝ).fin := by
  obtain ⟨ps, h1, h2⟩ := C65_exitPupil hrv hcs hf hl hne hv
  rw [h2, centroid_const]
  · rintro rfl; cases h1; exact hne rfl
  · clear h2 hl hne
    intro q hq
    induction h1 with
    | nil => cases hq
    | @cons l p ls ps hp _ ih =>
      rcases List.mem_cons.mp hq with rfl | hq
      · have hv' := hv l List.mem_cons_self
        obtain ⟨t, ht⟩ := hz l List.mem_cons_self
        obtain ⟨p', _, _, hu⟩ := closest_axis (r := (globalLine cs l).1) hv'
        rw [hu _ hp, hu _ (nearest_cross hv' ht)]
      · exact ih (fun m hm => hv m (List.mem_cons_of_mem _ hm)) (fun m hm => hz m (List.mem_cons_of_mem _ hm)) hq

/-- C65: a chief ray that stays parallel to the axis raises. -/
theorem C65_exitPupil_parallel {rays : List (Ray Dbl)} {lines : List (V3 ℝ × V3 ℝ)}
    (hl : rays.map (fun ray => (ray.r, ray.v)) = lines.map fun l => (l.1.fin, l.2.fin))
    (hv : ∃ l ∈ lines, l.2.x = 0 ∧ l.2.y = 0) : pupilOf rays = .error .valueError := by
  have hpar : ∀ r v : V3 ℝ, v.x = 0 → v.y = 0 → closestApproach r.fin v.fin ⟨0, 0, 0⟩ ⟨0, 0, 1⟩ = .error .valueError := by
    intro r v h1 h2
    have := C65_parallel (P := r) (u := v) (Q := ⟨0, 0, 0⟩) (v := ⟨0, 0, 1⟩) (by simp [V3.dot, h1, h2])
    rw [origin_fin, zhat_fin]; exact this
  have key : rays.mapM (fun ray => closestApproach ray.r ray.v ⟨0, 0, 0⟩ ⟨0, 0, 1⟩) = .error .valueError := by
    induction lines generalizing rays with
    | nil => obtain ⟨l, h, _⟩ := hv; cases h
    | cons l ls ih =>
      match rays, hl with
      | ray :: rays, hl =>
        simp only [List.map_cons, List.cons.injEq, Prod.mk.injEq] at hl
        rw [List.mapM_cons, hl.1.1, hl.1.2]
        by_cases h0 : l.2.x = 0 ∧ l.2.y = 0
        · rw [hpar _ _ h0.1 h0.2]; rfl
        · obtain ⟨p, h3, _⟩ := closest_axis (r := l.1) (v := l.2) (by by_contra hc; rw [not_or, not_not, not_not] at hc; exact h0 hc)
          rw [h3]
          have := ih hl.2 (by
            obtain ⟨m, hm, hm'⟩ := hv
            rcases List.mem_cons.mp hm with rfl | hm
            · exact absurd hm' h0
            · exact ⟨m, hm, hm'⟩)
          rw [this]; rfl
  unfold pupilOf
  rw [key]; rfl

theorem lines_of {rays : List (Ray Dbl)} {P : V3 ℝ × V3 ℝ → Prop} (h : ∀ ray ∈ rays, ∃ l, P l ∧ ray.r = l.1.fin ∧ ray.v = l.2.fin) :
    ∃ lines : List (V3 ℝ × V3 ℝ), rays.map (fun ray => (ray.r, ray.v)) = lines.map (fun l => (l.1.fin, l.2.fin)) ∧ ∀ l ∈ lines, P l := by
  induction rays with
  | nil => exact ⟨[], rfl, by simp⟩
  | cons ray rays ih =>
    obtain ⟨lines, h1, h2⟩ := ih fun x hx => h x (List.mem_cons_of_mem _ hx)
    obtain ⟨l, h3, h4, h5⟩ := h ray List.mem_cons_self
    exact ⟨l :: lines, by simp [h1, h4, h5], by simpa [h3] using h2⟩

/-- A camera without lenses, with the pinhole in the plane z = 3. -/
noncomputable def pinhole : System Dbl where
  optic := demoComp "T" []
  attrs := ⟨some (Dbl.fin 1), some ⟨fun _ => Dbl.fin 1⟩, some ⟨Surface.plane, (⟨⟨0, 0, 3⟩, M3.one⟩ : CoordSys ℝ).fin⟩, some (Dbl.fin 1), none,
    globalFrame.fin⟩
  sphereRadius := some (Dbl.fin 1)
  niter := 5

/-- The exit pupil of the pinhole camera is the pinhole. -/
example : exitPupilPos pinhole (Dbl.fin 1) (Dbl.fin (3 / 5)) "orthographic" = .ok (⟨0, 0, 3⟩ : V3 ℝ).fin := by
  have hq : Real.sqrt 16 / Real.sqrt 25 = 4 / 5 := by
    rw [show (16 : ℝ) = 4 * 4 by norm_num, show (25 : ℝ) = 5 * 5 by norm_num, Real.sqrt_mul_self (by norm_num),
      Real.sqrt_mul_self (by norm_num)]
  obtain ⟨rv, h1, h2, h3, h4⟩ := C43_fromFieldAngles (n := 1) (back := 1) (stop := ⟨⟨0, 0, 3⟩, M3.one⟩) (surf := Surface.plane)
    (med := ⟨fun _ => Dbl.fin 1⟩) (w := 1)
    (a := { optic := some pinhole.attrs, wavelength := some (Dbl.fin 1), projection := "orthographic" })
    (.inr ⟨rfl, .inl ⟨_, rfl, rfl⟩⟩) (.inr ⟨rfl, .inl ⟨_, rfl, rfl⟩⟩) (.inr ⟨rfl, .inl ⟨_, rfl, rfl⟩⟩) rfl one_pos rfl
    (pupilAngles (3 / 5)) (fun th => ⟨realPart th.1, realPart th.2, -(4 / 5)⟩)
    (by
      intro th hth
      simp only [pupilAngles, Dbl.neg_fin, Dbl.zero_dbl, List.mem_cons, List.not_mem_nil, or_false] at hth
      rcases hth with rfl | rfl | rfl | rfl <;>
        simp [Projection.fieldToDirCos, orthographic_fwd (show (0:ℝ) * 0 + 3 / 5 * (3 / 5) ≤ 1 by norm_num),
          orthographic_fwd (show (0:ℝ) * 0 + -(3 / 5) * -(3 / 5) ≤ 1 by norm_num),
          orthographic_fwd (show (3 / 5 : ℝ) * (3 / 5) + 0 * 0 ≤ 1 by norm_num),
          orthographic_fwd (show -(3 / 5 : ℝ) * -(3 / 5) + 0 * 0 ≤ 1 by norm_num), realPart] <;> norm_num <;> exact hq)
    (by
      intro th hth
      simp only [pupilAngles, Dbl.neg_fin, Dbl.zero_dbl, List.mem_cons, List.not_mem_nil, or_false] at hth
      rcases hth with rfl | rfl | rfl | rfl <;> norm_num [V3.normSq, V3.dot, realPart])
    0 0 0 1 (by simp [Surface.plane])
  obtain ⟨lines, h5, h6⟩ := lines_of (rays := rv.rays)
    (P := fun l => (l.2.x ≠ 0 ∨ l.2.y ≠ 0) ∧ ∃ t, l.1 + l.2.smulR t = ⟨0, 0, 0⟩) (by
      intro ray hray
      obtain ⟨i, hi, rfl⟩ := List.getElem_of_mem hray
      have hth := List.getElem?_eq_getElem (l := pupilAngles (3 / 5)) (h3 ▸ hi)
      obtain ⟨r, v, t, e1, e2, e3, e4, _⟩ := h4 i _ hth
      rw [List.getElem?_eq_getElem hi, Option.some.injEq] at e1
      refine ⟨(r, v), ⟨?_, 0 - t, e4⟩, by rw [e1], by rw [e1]⟩
      have hmem := List.getElem_mem (h3 ▸ hi : i < (pupilAngles (3 / 5)).length)
      generalize (pupilAngles (3 / 5))[i] = th at hmem e3
      simp only [pupilAngles, Dbl.neg_fin, Dbl.zero_dbl, List.mem_cons, List.not_mem_nil, or_false] at hmem
      rcases hmem with rfl | rfl | rfl | rfl <;> rw [e3] <;> norm_num [realPart])
  have hne : lines ≠ [] := by
    rintro rfl
    have : rv.rays.length = 0 := by simpa using congrArg List.length h5
    rw [h3] at this
    simp [pupilAngles] at this
  refine C65_exitPupil_common (cs := ⟨⟨0, 0, 3⟩, M3.one⟩) (by rw [Dbl.zero_dbl, Dbl.one_dbl]; exact h1) M3.orth_one h2 h5 hne ?_ ?_
  · intro l hl
    simpa [globalLine, M3.one, M3.mulVec] using (h6 l hl).1
  · intro l hl
    obtain ⟨t, ht⟩ := (h6 l hl).2
    refine ⟨t, ?_⟩
    have hx := congrArg V3.x ht
    have hy := congrArg V3.y ht
    have hz := congrArg V3.z ht
    simp only [V3.add_x, V3.add_y, V3.add_z, V3.smulR_x, V3.smulR_y, V3.smulR_z] at hx hy hz
    ext
    · simpa [globalLine, M3.one, M3.mulVec, CoordSys.toGlobal] using hx
    · simpa [globalLine, M3.one, M3.mulVec, CoordSys.toGlobal] using hy
    · simp [globalLine, M3.one, M3.mulVec, CoordSys.toGlobal]; linarith

end Batoid.Props
