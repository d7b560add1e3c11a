import Verif.Props.Imaging
import Verif.Props.Intersect

/-!
# Chief ray, wavefront, spots and the Huygens PSF (C74, C75, C76, C77)
-/

namespace Batoid.Props
open Batoid Batoid.Analysis Batoid.Construct

/-! ## C74: the chief ray -/

theorem chiefIndex_eq (nx : ℕ) : chiefIndex nx = ((nx / 2 * nx + nx / 2 : ℕ) : ℤ) := by
  unfold chiefIndex
  rcases Nat.even_or_odd' nx with ⟨k, rfl | rfl⟩
  · rw [if_pos (by omega)]; push_cast; rfl
  · rw [if_neg (by omega)]
    have h1 : (2 * k + 1) / 2 = k := by omega
    have h2 : (((2 * k + 1 : ℕ) : ℤ) * ((2 * k + 1 : ℕ) : ℤ) - 1) = 2 * ((k * (2 * k + 1) + k : ℕ) : ℤ) := by push_cast; ring
    rw [h1, h2]; omega

/-- The attributes of a system are given and legal: the distance, a medium of index `n`, a stop in a proper frame, the size of the
pupil, and a proper frame. -/
structure LegalSystem (s : System Dbl) (surf : Surface Dbl) (stop cs : CoordSys ℝ) (n w back pupil : ℝ) : Prop where
  back : s.attrs.backDist = some (Dbl.fin back)
  medium : ∃ med, s.attrs.inMedium = some med ∧ med.getN (Dbl.fin w) = Dbl.fin n
  stopSurface : s.attrs.stopSurface = some ⟨surf, stop.fin⟩
  pupil : s.attrs.pupilSize = some (Dbl.fin pupil)
  frame : s.attrs.coordSys = cs.fin
  stop : stop.rot.Orth
  cs : cs.rot.Orth
  n : 0 < n

/-- The field angle has the direction `d`, which is not along x. -/
structure FieldAngle (thx thy : Dbl) (projection : String) (d : V3 ℝ) : Prop where
  dir : Projection.fieldToDirCos thx thy projection = .ok (Dbl.fin d.x, Dbl.fin d.y, Dbl.fin d.z)
  legal : d.y ≠ 0 ∨ d.z ≠ 0

/-- The points of the stop that the analysis functions sample: `nx` times `nx`, with `nx//2` at the vertex. -/
noncomputable def pupilGrid (nx : ℕ) (pupil : ℝ) : List (ℝ × ℝ) := gridSpec nx nx (pupil / axisCells nx, 0) (0, pupil / axisCells nx)

variable {s : System Dbl} {surf : Surface Dbl} {stop cs : CoordSys ℝ} {n w back pupil : ℝ} {d : V3 ℝ} {thx thy : Dbl} {projection : String}

/-- The rays that the analysis functions start with are a plane wave in the direction of the field angle, through the pupil grid. -/
theorem startGrid_wave (h : LegalSystem s surf stop cs n w back pupil) (hd : FieldAngle thx thy projection d) {nx : ℕ} (hnx : 0 < nx)
    (hs : OnSurface surf (pupilGrid nx pupil)) :
    ∃ rv, startGrid s thx thy (Dbl.fin w) projection nx = .ok rv ∧
      PlaneWave surf stop cs n w back d (pupilGrid nx pupil) (List.replicate (nx * nx) 1) rv := by
  obtain ⟨med, hm1, hm2⟩ := h.medium
  have hl : LegalCall { optic := some s.attrs, wavelength := some (Dbl.fin w), dirCos := some d.fin } surf stop cs n w back d :=
    ⟨⟨med, ⟨.inr ⟨rfl, .inl ⟨_, rfl, h.back⟩⟩, .inr ⟨rfl, .inl ⟨_, rfl, hm1⟩⟩, .inr ⟨rfl, .inl ⟨_, rfl, h.stopSurface⟩⟩,
      .inr ⟨rfl, .inl ⟨_, rfl, by simp only [h.frame]⟩⟩, rfl, ⟨rfl, .inl rfl⟩⟩, hm2⟩, h.stop, h.cs, h.n, hd.legal⟩
  obtain ⟨rv, h1, h2⟩ := C42_length hl (nx := nx) (ny := none) (lx := pupil) (ly := none) hnx hnx hs none 1
  refine ⟨rv, ?_, h2⟩
  have hp := C42_pupil { optic := some s.attrs, wavelength := some (Dbl.fin w), dirCos := some d.fin } s.attrs (Dbl.fin pupil) rfl h.pupil
    (some (nx : ℤ)) none none none none (.inr rfl) none 1
  unfold startGrid
  rw [hd.dir]
  show (asGrid { optic := some s.attrs, wavelength := some (Dbl.fin w), dirCos := some d.fin } ⟨some (nx : ℤ), none, none, none, none, none⟩ none 1 >>= _) = _
  rw [hp, Dbl.one_dbl]
  rw [show (Option.map (fun k : ℕ => (k : ℤ)) (none : Option ℕ)) = none from rfl] at h1
  rw [show (Option.map (fun y : ℝ => Ext.num (Dbl.fin y)) (none : Option ℝ)) = none from rfl] at h1
  rw [h1]
  rfl

theorem item_nat {A : Type} {l : List A} {k : ℕ} {a : A} (h : l[k]? = some a) : item l (k : ℤ) = .ok a := by
  unfold item
  rw [if_neg (by omega), Int.toNat_natCast, h]
  simp only
  rw [if_pos (by omega)]

/-- **C74**: for every number of rays, odd or even, the index picked as chief ray is that of a ray through the vertex of the stop. -/
theorem C74_chief (h : LegalSystem s surf stop cs n w back pupil) (hd : FieldAngle thx thy projection d) {nx : ℕ} (hnx : 0 < nx)
    (hs : OnSurface surf (pupilGrid nx pupil)) :
    ∃ rv ray, startGrid s thx thy (Dbl.fin w) projection nx = .ok rv ∧ item rv.rays (chiefIndex nx) = .ok ray ∧
      ∃ (r v : V3 ℝ) (z T : ℝ), ray.r = r.fin ∧ ray.v = v.fin ∧ (∃ c, 0 < c ∧ v = d.smulR c) ∧ surf.sag (Dbl.fin 0) (Dbl.fin 0) = Dbl.fin z ∧
        stop.toLocal (cs.toGlobal (r + v.smulR T)) = ⟨0, 0, z⟩ := by
  obtain ⟨rv, h1, h2⟩ := startGrid_wave h hd hnx hs
  obtain ⟨v, hv, _, h3⟩ := h2.rays
  have hlt : nx / 2 < nx := by omega
  have hp : (pupilGrid nx pupil)[nx / 2 * nx + nx / 2]? = some (0, 0) := by
    unfold pupilGrid; rw [gridSpec_at hlt hlt]; simp
  have hf : (List.replicate (nx * nx) (1 : ℝ))[nx / 2 * nx + nx / 2]? = some 1 := by
    rw [List.getElem?_replicate, if_pos]
    nlinarith [Nat.mul_le_mul_right nx (show nx / 2 + 1 ≤ nx by omega)]
  obtain ⟨r, z, T, h4, _, h5, h6⟩ := h3 _ _ _ hp hf
  refine ⟨rv, ⟨r.fin, v.fin, Dbl.fin 0, Dbl.fin w, Dbl.fin 1, false, false⟩, h1, ?_, r, v, z, T, rfl, rfl, hv, h5, h6⟩
  rw [chiefIndex_eq]
  exact item_nat h4

/-- Tracing handles the rays one by one: the same function is applied to all of them. -/
theorem trace_map {F : Type} [Arith F] (niter : ℕ) (reverse : Bool) (o : Optic F) (c : CoordSys F) :
    ∃ (f : Ray F → Ray F) (c' : CoordSys F), ∀ rays, o.trace niter reverse ⟨rays, c⟩ = ⟨rays.map f, c'⟩ := by
  have h1 : ∀ (b : Bool) (d : Iface F) (c : CoordSys F), ∃ (f : Ray F → Ray F), ∀ rays, d.trace niter b ⟨rays, c⟩ = ⟨rays.map f, d.coordSys⟩ := by
    intro b d c
    unfold Iface.trace Iface.applyObscuration
    cases ho : d.obscuration with
    | none => exact ⟨Iface.onRay d niter b (CoordTransform.make c d.coordSys), fun rays => interact_rays d niter b ⟨rays, c⟩⟩
    | some o => exact ⟨Ray.obscure o ∘ Iface.onRay d niter b (CoordTransform.make c d.coordSys), fun rays => by simp only [interact_rays, RayVec.obscure, List.map_map]⟩
  have h2 : ∀ (b : Bool) (ds : List (Iface F)) (c : CoordSys F), ∃ (f : Ray F → Ray F) (c' : CoordSys F), ∀ rays,
      ds.foldl (fun rv d => d.trace niter b rv) ⟨rays, c⟩ = ⟨rays.map f, c'⟩ := by
    intro b ds
    induction ds with
    | nil => exact fun c => ⟨id, c, fun rays => by simp⟩
    | cons d ds ih =>
      intro c
      obtain ⟨f, hf⟩ := h1 b d c
      obtain ⟨g, c', hg⟩ := ih d.coordSys
      exact ⟨g ∘ f, c', fun rays => by rw [List.foldl_cons, hf, hg, List.map_map]⟩
  cases reverse
  · obtain ⟨f, c', h⟩ := h2 false (visits o) c
    exact ⟨f, c', fun rays => by rw [trace_visits, h]⟩
  · obtain ⟨f, c', h⟩ := h2 true (visits o).reverse c
    exact ⟨f, c', fun rays => by rw [trace_visits_rev, h]⟩

/-- **C74** (the reference point): the reference point of `reference='chief'` is where the system sends the ray through the vertex of
the stop, as if it were traced alone. -/
theorem C74_reference (h : LegalSystem s surf stop cs n w back pupil) (hd : FieldAngle thx thy projection d) {nx : ℕ} (hnx : 0 < nx)
    (hs : OnSurface surf (pupilGrid nx pupil)) :
    ∃ rv ray out, startGrid s thx thy (Dbl.fin w) projection nx = .ok rv ∧ (s.trace ⟨[ray], rv.coordSys⟩).rays = [out] ∧
      refPoint .chief nx (s.trace rv).rays = .ok out.r ∧
      ∃ (r v : V3 ℝ) (z T : ℝ), ray.r = r.fin ∧ ray.v = v.fin ∧ (∃ c, 0 < c ∧ v = d.smulR c) ∧ surf.sag (Dbl.fin 0) (Dbl.fin 0) = Dbl.fin z ∧
        stop.toLocal (cs.toGlobal (r + v.smulR T)) = ⟨0, 0, z⟩ := by
  obtain ⟨rv, ray, h1, h2, h3⟩ := C74_chief h hd hnx hs
  obtain ⟨f, c', hf⟩ := trace_map s.niter false s.optic rv.coordSys
  refine ⟨rv, ray, f ray, h1, by rw [System.trace, hf]; rfl, ?_, h3⟩
  have : s.trace rv = ⟨rv.rays.map f, c'⟩ := hf rv.rays
  rw [this]
  have hi : rv.rays[nx / 2 * nx + nx / 2]? = some ray := by
    rw [chiefIndex_eq] at h2
    unfold item at h2
    rw [if_neg (by omega), Int.toNat_natCast] at h2
    split at h2
    · split at h2
      · injection h2 with e; rename_i e' _; rw [e', e]
      · cases h2
    · cases h2
  unfold refPoint
  simp only
  rw [chiefIndex_eq, item_nat (a := f ray) (by rw [List.getElem?_map, hi]; rfl)]
  rfl

/-! ## C75: the wavefront -/

theorem shiftLocal_fin (c : CoordSys ℝ) (q : V3 ℝ) : c.fin.shiftLocal q.fin = (c.shiftLocal q).fin := by
  simp [CoordSys.shiftLocal, CoordSys.shiftGlobal, CoordSys.fin]

theorem shiftLocal_orth {c : CoordSys ℝ} (h : c.rot.Orth) (q : V3 ℝ) : (c.shiftLocal q).rot.Orth := h

/-- Going to a frame that is shifted by `q` subtracts `q` from positions. -/
theorem shift_forward {c : CoordSys ℝ} (h : c.rot.Orth) (q r : V3 ℝ) : (CoordTransform.make c (c.shiftLocal q)).forward r = r - q := by
  rw [CoordSys.forward_eq h]
  have e : c.toGlobal r - (c.shiftLocal q).origin = c.rot.mulVec (r - q) := by
    rw [M3.mulVec_sub]
    simp only [CoordSys.toGlobal, CoordSys.shiftLocal, CoordSys.shiftGlobal]
    ext <;> simp <;> ring
  unfold CoordSys.toLocal
  rw [e]
  exact h.tr_mulVec _

theorem shift_forwardVel {c : CoordSys ℝ} (h : c.rot.Orth) (q v : V3 ℝ) : (CoordTransform.make c (c.shiftLocal q)).forwardVel v = v := by
  rw [CoordSys.forwardVel_eq]
  exact h.tr_mulVec _

theorem same_forward {c : CoordSys ℝ} (h : c.rot.Orth) (r : V3 ℝ) : (CoordTransform.make c c).forward r = r := by
  rw [CoordSys.forward_eq h, CoordSys.toLocal_toGlobal h]

theorem same_forwardVel {c : CoordSys ℝ} (h : c.rot.Orth) (v : V3 ℝ) : (CoordTransform.make c c).forwardVel v = v := by
  rw [CoordSys.forwardVel_eq]
  exact h.tr_mulVec _

/-- `T` is the time at which the line of the ray crosses the sphere of radius `R` around `P`: the earlier crossing for a ray that
travels down (or level), the later one for a ray that travels up. -/
structure AtSphere (P : V3 ℝ) (R : ℝ) (r v : V3 ℝ) (t T : ℝ) : Prop where
  on : V3.normSq (r + v.smulR (T - t) - P) = R ^ 2
  side : (v.z ≤ 0 ∧ T < t) ∨ (0 < v.z ∧ t < T)

/-- From inside the sphere there is exactly one such time. -/
theorem AtSphere.unique {P : V3 ℝ} {R : ℝ} {r v : V3 ℝ} {t T T' : ℝ} (hin : V3.normSq (r - P) < R ^ 2)
    (h : AtSphere P R r v t T) (h' : AtSphere P R r v t T') : T = T' := by
  have e : ∀ x, V3.normSq (r + v.smulR (x - t) - P) = V3.normSq (r - P) + 2 * V3.dot (r - P) v * (x - t) + V3.dot v v * (x - t) ^ 2 := by
    intro x
    simp only [V3.normSq, V3.dot, V3.sub_x, V3.sub_y, V3.sub_z, V3.add_x, V3.add_y, V3.add_z, V3.smulR_x, V3.smulR_y, V3.smulR_z]
    ring
  have h1 := h.on
  have h2 := h'.on
  rw [e] at h1 h2
  by_contra hne
  -- the product of the two roots is negative
  have hd : (T - t) - (T' - t) ≠ 0 := by intro h0; apply hne; linarith
  have hs : ((T - t) - (T' - t)) * (2 * V3.dot (r - P) v + V3.dot v v * ((T - t) + (T' - t))) = 0 := by linear_combination h1 - h2
  have hs' := (mul_eq_zero.mp hs).resolve_left hd
  have hp : V3.normSq (r - P) - R ^ 2 = V3.dot v v * ((T - t) * (T' - t)) := by
    linear_combination h1 - (T - t) * hs'
  have hv : 0 ≤ V3.dot v v := by simp only [V3.dot]; nlinarith [mul_self_nonneg v.x, mul_self_nonneg v.y, mul_self_nonneg v.z]
  have hpos : 0 < (T - t) * (T' - t) := by
    rcases h.side with ⟨a, b⟩ | ⟨a, b⟩ <;> rcases h'.side with ⟨a', b'⟩ | ⟨a', b'⟩
    · exact mul_pos_of_neg_of_neg (by linarith) (by linarith)
    · linarith
    · linarith
    · exact mul_pos (by linarith) (by linarith)
  nlinarith [mul_nonneg hv hpos.le]

/-- One ray on the reference sphere. -/
theorem onReferenceSphere_ray {cs : CoordSys ℝ} (hcs : cs.rot.Orth) {P : V3 ℝ} {R : ℝ} (hR : 0 < R) {r v : V3 ℝ} {t : ℝ}
    (hv : v ≠ ⟨0, 0, 0⟩) (hin : V3.normSq (r - P) < R ^ 2) (niter : ℕ) (wl flux : Dbl) (vig : Bool) :
    ∃ T, AtSphere P R r v t T ∧
      Ray.intersect (Surface.sphere (-Dbl.fin R)) (CoordTransform.make (cs.shiftLocal (P + ⟨0, 0, R⟩)).fin (cs.shiftLocal (P + ⟨0, 0, R⟩)).fin) none niter
        (Ray.forward (CoordTransform.make cs.fin (cs.shiftLocal (P + ⟨0, 0, R⟩)).fin) ⟨r.fin, v.fin, Dbl.fin t, wl, flux, vig, false⟩) =
      ⟨(r + v.smulR (T - t) - (P + ⟨0, 0, R⟩)).fin, v.fin, Dbl.fin T, wl, flux, vig, false⟩ := by
  have hc : sphC (-R) (r - (P + ⟨0, 0, R⟩)) < 0 := by
    have : sphC (-R) (r - (P + ⟨0, 0, R⟩)) = V3.normSq (r - P) - R ^ 2 := by
      simp only [sphC, V3.normSq, V3.dot, V3.sub_x, V3.sub_y, V3.sub_z, V3.add_x, V3.add_y, V3.add_z]; ring
    linarith
  have ha := sphA_pos hv
  have hD : 0 ≤ sphB (-R) (r - (P + ⟨0, 0, R⟩)) v * sphB (-R) (r - (P + ⟨0, 0, R⟩)) v - 4 * sphA v * sphC (-R) (r - (P + ⟨0, 0, R⟩)) := by
    nlinarith [mul_self_nonneg (sphB (-R) (r - (P + ⟨0, 0, R⟩)) v), mul_pos ha (neg_pos.mpr hc)]
  have key : ∃ dt, Surface.sphereTime (Dbl.fin (-R)) (r - (P + ⟨0, 0, R⟩)).fin v.fin 0 = (true, Dbl.fin dt) ∧ AtSphere P R r v t (t + dt) := by
    rcases sphereTime_cases hv 0 hD with ⟨t1, t2, hr, -, e⟩ | ⟨hc0, -, -⟩ | ⟨hc0, -, -⟩
    · refine ⟨_, e, ?_⟩
      have hprod : t1 * t2 < 0 := by
        have hlt := hr.prod
        by_contra hge
        nlinarith [mul_nonneg ha.le (not_lt.mp hge)]
      have hside : (v.z ≤ 0 ∧ (if v.z * (-R) < 0 then max t1 t2 else min t1 t2) < 0) ∨
          (0 < v.z ∧ 0 < (if v.z * (-R) < 0 then max t1 t2 else min t1 t2)) := by
        by_cases hz : 0 < v.z
        · right; refine ⟨hz, ?_⟩
          rw [if_pos (by nlinarith)]
          rcases mul_neg_iff.mp hprod with ⟨h1, _⟩ | ⟨_, h1⟩
          · exact lt_max_of_lt_left h1
          · exact lt_max_of_lt_right h1
        · left; refine ⟨not_lt.mp hz, ?_⟩
          rw [if_neg (by nlinarith)]
          rcases mul_neg_iff.mp hprod with ⟨_, h1⟩ | ⟨h1, _⟩
          · exact min_lt_of_right_lt h1
          · exact min_lt_of_left_lt h1
      have hroot : sphA v * (if v.z * (-R) < 0 then max t1 t2 else min t1 t2) * (if v.z * (-R) < 0 then max t1 t2 else min t1 t2) +
          sphB (-R) (r - (P + ⟨0, 0, R⟩)) v * (if v.z * (-R) < 0 then max t1 t2 else min t1 t2) + sphC (-R) (r - (P + ⟨0, 0, R⟩)) = 0 := by
        split
        · rcases max_choice t1 t2 with h | h <;> rw [h]
          · exact hr.root1
          · exact hr.root2
        · rcases min_choice t1 t2 with h | h <;> rw [h]
          · exact hr.root1
          · exact hr.root2
      generalize (if v.z * (-R) < 0 then max t1 t2 else min t1 t2) = dt at hside hroot
      refine ⟨?_, ?_⟩
      · simp only [sphA, sphB, sphC, V3.sub_x, V3.sub_y, V3.sub_z, V3.add_x, V3.add_y, V3.add_z] at hroot
        simp only [V3.normSq, V3.dot, V3.sub_x, V3.sub_y, V3.sub_z, V3.add_x, V3.add_y, V3.add_z, V3.smulR_x, V3.smulR_y, V3.smulR_z]
        linear_combination hroot
      · rcases hside with ⟨a, b⟩ | ⟨a, b⟩
        · left; exact ⟨a, by linarith⟩
        · right; exact ⟨a, by linarith⟩
    · linarith
    · linarith
  obtain ⟨dt, h1, h2⟩ := key
  refine ⟨t + dt, h2, ?_⟩
  have ho := shiftLocal_orth hcs (P + ⟨0, 0, R⟩)
  simp only [Ray.intersect, Ray.forward, CoordTransform.forward_fin, CoordTransform.forwardVel_fin, shift_forward hcs, shift_forwardVel hcs,
    same_forward ho, same_forwardVel ho, Dbl.neg_fin, Bool.false_eq_true, if_false, Surface.sphere, h1, V3.fin_smulR, V3.fin_add, Dbl.add_fin]
  simp only [Ray.mk.injEq, V3.fin_inj, true_and, and_true]
  ext <;> simp <;> ring

/-- A ray that can be traced to the sphere of radius `R` around `P`: it has not failed, is finite, moves, and is inside. -/
def Inside (P : V3 ℝ) (R : ℝ) (ray : Ray Dbl) : Prop :=
  ∃ (r v : V3 ℝ) (t : ℝ), ray.r = r.fin ∧ ray.v = v.fin ∧ ray.t = Dbl.fin t ∧ ray.failed = false ∧ v ≠ ⟨0, 0, 0⟩ ∧ V3.normSq (r - P) < R ^ 2

/-- The time at which a ray is on the sphere. -/
def SphereTime (P : V3 ℝ) (R : ℝ) (ray : Ray Dbl) (T : ℝ) : Prop :=
  ∃ (r v : V3 ℝ) (t : ℝ), ray.r = r.fin ∧ ray.v = v.fin ∧ ray.t = Dbl.fin t ∧ AtSphere P R r v t T

theorem intersect_vignetted {F : Type} [Arith F] {s : Surface F} {ct : CoordTransform F} {c : Option (Coating F)} {niter : ℕ} {ray : Ray F}
    (h : ray.vignetted = true) : (Ray.intersect s ct c niter ray).vignetted = true := by
  unfold Ray.intersect
  split
  · exact h
  · simp only
    split
    · rfl
    · exact h

/-- The function applied to every ray. -/
theorem onReferenceSphere_map {cs : CoordSys ℝ} (hcs : cs.rot.Orth) {P : V3 ℝ} {R : ℝ} (hR : 0 < R) (niter : ℕ) :
    ∃ f : Ray Dbl → Ray Dbl, (∀ rays, (onReferenceSphere niter P.fin (Dbl.fin R) ⟨rays, cs.fin⟩).rays = rays.map f) ∧
      (∀ ray, ray.vignetted = true → (f ray).vignetted = true) ∧
      ∀ ray, Inside P R ray → ∃ T, SphereTime P R ray T ∧ (f ray).t = Dbl.fin T ∧ (f ray).vignetted = ray.vignetted := by
  have hq : P.fin + (⟨0, 0, Dbl.fin R⟩ : V3 Dbl) = (P + ⟨0, 0, R⟩).fin := by apply V3.ext <;> simp
  refine ⟨fun ray => Ray.intersect (Surface.sphere (-Dbl.fin R)) (CoordTransform.make (cs.shiftLocal (P + ⟨0, 0, R⟩)).fin (cs.shiftLocal (P + ⟨0, 0, R⟩)).fin)
    none niter (Ray.forward (CoordTransform.make cs.fin (cs.shiftLocal (P + ⟨0, 0, R⟩)).fin) ray), ?_, ?_, ?_⟩
  · intro rays
    unfold onReferenceSphere
    simp only [hq, shiftLocal_fin]
    simp only [RayVec.toCoordSys, RayVec.applyForward, RayVec.intersect, RayVec.runKernel, RayVec.target, Option.getD_none, List.map_map]
    rfl
  · intro ray hray
    exact intersect_vignetted hray
  · rintro ray ⟨r, v, t, h1, h2, h3, h4, h5, h6⟩
    obtain ⟨rr, vv, tt, wl, fl, vg, fd⟩ := ray
    simp only at h1 h2 h3 h4
    subst h1 h2 h3 h4
    obtain ⟨T, h7, h8⟩ := onReferenceSphere_ray (t := t) hcs hR h5 h6 niter wl fl vg
    refine ⟨T, ⟨r, v, t, rfl, rfl, rfl, h7⟩, ?_, ?_⟩
    · beta_reduce; rw [h8]
    · beta_reduce; rw [h8]

theorem pupilStep_fin (h : LegalSystem s surf stop cs n w back pupil) {nx : ℕ} (hnx : 2 < nx) :
    pupilStep s nx = .ok (Dbl.fin (pupil / axisCells nx)) := by
  have he : (nx : ℤ) - spare nx = (axisCells nx : ℤ) := by
    unfold spare axisCells
    rw [if_neg (show ¬ nx ≤ 2 by omega)]
    split_ifs <;> omega
  have hc : axisCells nx ≠ 0 := by unfold axisCells; split_ifs <;> omega
  have hc' : (axisCells nx : ℝ) ≠ 0 := by exact_mod_cast hc
  unfold pupilStep
  rw [h.pupil]
  simp only
  rw [he, if_neg (by exact_mod_cast hc), Dbl.const_dbl, Rat.cast_intCast, Int.cast_natCast, Dbl.div_fin hc']

/-- The two ways to choose the reference time, from the times `T` at which the rays are on the sphere. -/
def RefTime (ref : Reference) (nx : ℕ) (rays : List (Ray Dbl)) (time : Ray Dbl → ℝ → Prop) (T0 : ℝ) : Prop :=
  match ref with
  | .chief => ∃ ray, rays[nx / 2 * nx + nx / 2]? = some ray ∧ time ray T0
  | .mean => ∃ Ts : List ℝ, Ts ≠ [] ∧ List.Forall₂ time (rays.filter fun ray => !ray.vignetted) Ts ∧ T0 = Ts.sum / Ts.length
  | .other => False

/-- The rays that decide the reference: the chief ray, or at least one that is not vignetted. -/
def RefRays (ref : Reference) (nx : ℕ) (rays : List (Ray Dbl)) (ok : Ray Dbl → Prop) : Prop :=
  match ref with
  | .chief => ∃ ray, rays[nx / 2 * nx + nx / 2]? = some ray ∧ ok ray
  | .mean => ∃ ray ∈ rays, ray.vignetted = false
  | .other => False

theorem refTime_fin {P : V3 ℝ} {R : ℝ} {f : Ray Dbl → Ray Dbl} (h1 : ∀ ray, ray.vignetted = true → (f ray).vignetted = true)
    (h2 : ∀ ray, Inside P R ray → ∃ T, SphereTime P R ray T ∧ (f ray).t = Dbl.fin T ∧ (f ray).vignetted = ray.vignetted)
    {rays : List (Ray Dbl)} (hin : ∀ ray ∈ rays, ray.vignetted = false → Inside P R ray) {ref : Reference} {nx : ℕ}
    (hr : RefRays ref nx rays (Inside P R)) :
    ∃ T0, refTime ref nx (rays.map f) = .ok (Dbl.fin T0) ∧ RefTime ref nx rays (SphereTime P R) T0 := by
  cases ref with
  | other => exact hr.elim
  | chief =>
    obtain ⟨ray, h3, h4⟩ := hr
    obtain ⟨T, h5, h6, _⟩ := h2 ray h4
    refine ⟨T, ?_, ray, h3, h5⟩
    unfold refTime
    simp only
    rw [chiefIndex_eq, item_nat (a := f ray) (by rw [List.getElem?_map, h3]; rfl)]
    show Except.ok (f ray).t = _
    rw [h6]
  | mean =>
    have key : ∃ Ts : List ℝ, List.Forall₂ (SphereTime P R) (rays.filter fun ray => !ray.vignetted) Ts ∧
        (clear (rays.map f)).map (·.t) = Ts.map Dbl.fin := by
      clear hr
      induction rays with
      | nil => exact ⟨[], .nil, rfl⟩
      | cons ray rays ih =>
        obtain ⟨Ts, h3, h4⟩ := ih fun x hx => hin x (List.mem_cons_of_mem _ hx)
        unfold clear at h4 ⊢
        rw [List.map_cons, List.filter_cons, List.filter_cons]
        by_cases hv : ray.vignetted = true
        · rw [h1 ray hv, hv]
          exact ⟨Ts, h3, h4⟩
        · rw [Bool.not_eq_true] at hv
          obtain ⟨T, h5, h6, h7⟩ := h2 ray (hin ray List.mem_cons_self hv)
          rw [h7, hv]
          refine ⟨T :: Ts, .cons h5 h3, ?_⟩
          simp only [Bool.not_false, if_true, List.map_cons, h6, h4]
    obtain ⟨Ts, h3, h4⟩ := key
    have hne : Ts ≠ [] := by
      rintro rfl
      obtain ⟨ray, h5, h6⟩ := hr
      have hnil : rays.filter (fun ray => !ray.vignetted) = [] := List.forall₂_nil_right_iff.mp h3
      have := List.filter_eq_nil_iff.mp hnil ray h5
      simp [h6] at this
    refine ⟨Ts.sum / Ts.length, ?_, Ts, hne, h3, rfl⟩
    unfold refTime
    simp only
    rw [h4, mean_fin hne]

/-- The coordinates of the lattice of a square pupil array: entry `[i, j]` is the point of row `j` and column `i` of the pupil grid. -/
theorem lattice_pupil (nx : ℕ) (u : ℝ) :
    ∃ lat, Grids.Lattice.make [(nx : ℤ).toNat, (nx : ℤ).toNat] (.mat 2 [[Dbl.fin u, 0], [0, Dbl.fin u]]) = .ok lat ∧
      ∀ i j : ℕ, i < nx → j < nx → lat.coords[i * nx + j]? =
        some [Dbl.fin (((i : ℝ) - ((nx / 2 : ℕ) : ℝ)) * u), Dbl.fin (((j : ℝ) - ((nx / 2 : ℕ) : ℝ)) * u)] := by
  obtain ⟨lat, h1, h2⟩ := C61_coords [nx, nx] [[u, 0], [0, u]] (by simp) (by simp) (by simp)
  refine ⟨lat, ?_, ?_⟩
  · rw [Int.toNat_natCast, ← h1]
    simp [finRows]
  · intro i j hi hj
    rw [h2]
    have e : indices [nx, nx] = (List.range nx).flatMap fun i => (List.range nx).map fun j => [i, j] := by
      have : ∀ l : List ℕ, (l.flatMap fun i => [[i]]) = l.map fun i => [i] := by
        intro l; induction l with
        | nil => rfl
        | cons a l ih => simp [ih]
      simp [indices, this, Function.comp_def]
    rw [e, List.getElem?_map, flatMap_range_getElem? nx (fun i j => [i, j]) nx i j hi hj]
    simp [latticeSum, List.range_succ]
    exact .inl (by rw [show ((nx : ℤ) / 2) = ((nx / 2 : ℕ) : ℤ) by omega, Int.cast_natCast])

/-- **C75**: for every system, field angle, number of rays and reference: if the unvignetted rays, and the chief ray if it is the
reference, end up inside the reference sphere around the reference point, then the entry of an unvignetted ray times the wavelength is
the reference time minus the time at which that ray is on the sphere, and vignetted rays are masked.  The (transposed) coordinates of
the lattice are the points of the stop that the rays started through. -/
theorem C75_wavefront (h : LegalSystem s surf stop cs n w back pupil) (hd : FieldAngle thx thy projection d) {nx : ℕ} (hnx : 2 < nx)
    (hs : OnSurface surf (pupilGrid nx pupil)) {rv : RayVec Dbl} (hrv : startGrid s thx thy (Dbl.fin w) projection nx = .ok rv)
    {out : CoordSys ℝ} (ho : out.rot.Orth) (hf : (s.trace rv).coordSys = out.fin) (hw : w ≠ 0)
    {R : ℝ} (hR : 0 < R) {sphereRadius : Option Dbl} (hsr : sphereRadius = some (Dbl.fin R) ∨ (sphereRadius = none ∧ s.sphereRadius = some (Dbl.fin R)))
    {ref : Reference} {P : V3 ℝ} (hP : refPoint ref nx (s.trace rv).rays = .ok P.fin)
    (hin : ∀ ray ∈ (s.trace rv).rays, ray.vignetted = false → Inside P R ray)
    (hr : RefRays ref nx (s.trace rv).rays (Inside P R)) :
    ∃ wf T0, wavefront s thx thy (Dbl.fin w) projection nx sphereRadius ref = .ok wf ∧ wf.cells.length = nx * nx ∧
      RefTime ref nx (s.trace rv).rays (SphereTime P R) T0 ∧
      (∀ (i : ℕ) (ray : Ray Dbl), (s.trace rv).rays[i]? = some ray →
        (ray.vignetted = true → ∃ x, wf.cells[i]? = some (x, true)) ∧
        (ray.vignetted = false → ∃ T, SphereTime P R ray T ∧ wf.cells[i]? = some (Dbl.fin ((T0 - T) / w), false))) ∧
      ∀ i j : ℕ, i < nx → j < nx → ∃ x y, (pupilGrid nx pupil)[j * nx + i]? = some (x, y) ∧
        wf.lattice.coords[i * nx + j]? = some [Dbl.fin x, Dbl.fin y] := by
  obtain ⟨f, h1, h2, h3⟩ := onReferenceSphere_map ho hR s.niter (P := P)
  obtain ⟨T0, h4, h5⟩ := refTime_fin h2 h3 hin hr
  have hlen : (s.trace rv).rays.length = nx * nx := by
    obtain ⟨rv', h6, h7⟩ := startGrid_wave h hd (by omega) hs
    rw [hrv] at h6
    injection h6 with h6
    subst h6
    obtain ⟨g, c', hg⟩ := trace_map s.niter false s.optic rv.coordSys
    have : s.trace rv = ⟨rv.rays.map g, c'⟩ := hg rv.rays
    rw [this, List.length_map, h7.size, pupilGrid, gridSpec_length]
  have hson : (onReferenceSphere s.niter P.fin (Dbl.fin R) (s.trace rv)).rays = (s.trace rv).rays.map f := by
    have : s.trace rv = ⟨(s.trace rv).rays, out.fin⟩ := by rw [← hf]
    rw [this]; exact h1 _
  obtain ⟨lat, hlat, hco⟩ := lattice_pupil nx (pupil / axisCells nx)
  refine ⟨⟨nx, ((s.trace rv).rays.map f).map fun ray => ((Dbl.fin T0 - ray.t) / Dbl.fin w, ray.vignetted), lat⟩, T0, ?_, ?_, h5, ?_, ?_⟩
  · unfold wavefront
    have hif : ¬ ((((s.trace rv).rays.map f).map fun ray => ((Dbl.fin T0 - ray.t) / Dbl.fin w, ray.vignetted)).length : ℤ) ≠ nx * nx := by
      rw [List.length_map, List.length_map, hlen]; push_cast; simp
    rw [hrv]
    rcases hsr with rfl | ⟨rfl, h0⟩
    · simp only [bind, Except.bind, hP, hson, h4, if_neg hif, pupilStep_fin h hnx, hlat]
    · simp only [bind, Except.bind, h0, hP, hson, h4, if_neg hif, pupilStep_fin h hnx, hlat]
  · simp only [List.length_map, hlen]
  · intro i ray hi
    simp only [List.getElem?_map, hi, Option.map_some]
    constructor
    · intro hv; exact ⟨_, by rw [h2 ray hv]⟩
    · intro hv
      obtain ⟨T, h6, h7, h8⟩ := h3 ray (hin ray (List.mem_of_getElem? hi) hv)
      refine ⟨T, h6, ?_⟩
      rw [h7, h8, hv, Dbl.sub_fin, Dbl.div_fin hw]
  · intro i j hi hj
    refine ⟨((i : ℝ) - ((nx / 2 : ℕ) : ℝ)) * (pupil / axisCells nx), ((j : ℝ) - ((nx / 2 : ℕ) : ℝ)) * (pupil / axisCells nx), ?_, hco i j hi hj⟩
    unfold pupilGrid
    rw [gridSpec_at hi hj]
    simp

/-- **C75** (violated for one and two rays): there is no result, the spacing of the lattice divides by zero. -/
theorem C75_small_violated (s : System Dbl) (thx thy wl : Dbl) (projection : String) (r : Option Dbl) (ref : Reference) {nx : ℤ} (h : nx = 1 ∨ nx = 2)
    (wf : Wavefront Dbl) : wavefront s thx thy wl projection nx r ref ≠ .ok wf := by
  have hp : ∀ u, pupilStep s nx ≠ .ok u := by
    intro u hu
    unfold pupilStep at hu
    split at hu
    · cases hu
    · rw [if_pos (by rcases h with rfl | rfl <;> rfl)] at hu; cases hu
  intro hw
  unfold wavefront at hw
  simp only [bind, Except.bind] at hw
  repeat' (split at hw <;> try cases hw)
  all_goals (first | (rename_i hu _ _; exact hp _ hu) | (rename_i hu; exact hp _ hu) | (rename_i _ hu _ _ ; exact hp _ hu))

/-- The ray comes to the point `P` at the time `tau`, with the speed `c`, travelling up or else down. -/
def Focused (P : V3 ℝ) (tau c : ℝ) (up : Prop) (ray : Ray Dbl) : Prop :=
  ∀ (r v : V3 ℝ) (t : ℝ), ray.r = r.fin → ray.v = v.fin → ray.t = Dbl.fin t → r + v.smulR (tau - t) = P ∧ V3.normSq v = c ^ 2 ∧ (0 < v.z ↔ up)

open Classical in
/-- The time at which such a ray is on the sphere. -/
noncomputable def focusTime (R tau c : ℝ) (up : Prop) : ℝ := if up then tau + R / c else tau - R / c

theorem focused_time {P : V3 ℝ} {R tau c T : ℝ} {up : Prop} (hR : 0 < R) (hc : 0 < c) {ray : Ray Dbl} (hf : Focused P tau c up ray)
    (hin : Inside P R ray) (hT : SphereTime P R ray T) : T = focusTime R tau c up := by
  obtain ⟨r, v, t, h1, h2, h3, -, -, h4⟩ := hin
  obtain ⟨r', v', t', h1', h2', h3', h5⟩ := hT
  rw [h1, V3.fin_inj] at h1'
  rw [h2, V3.fin_inj] at h2'
  rw [h3, Dbl.fin_inj] at h3'
  subst h1' h2' h3'
  obtain ⟨h6, h7, h8⟩ := hf r v t h1 h2 h3
  have hon : ∀ q : ℝ, q ^ 2 = (R / c) ^ 2 → V3.normSq (r + v.smulR (tau + q - t) - P) = R ^ 2 := by
    intro q hq
    rw [← h6]
    have : r + v.smulR (tau + q - t) - (r + v.smulR (tau - t)) = v.smulR q := by ext <;> simp <;> ring
    rw [this]
    have e : V3.normSq (v.smulR q) = q ^ 2 * V3.normSq v := by
      simp only [V3.normSq, V3.dot, V3.smulR_x, V3.smulR_y, V3.smulR_z]; ring
    rw [e, h7, hq]; field_simp
  have hnear : ((tau - t) * c) ^ 2 < R ^ 2 := by
    rw [← h6] at h4
    have : r - (r + v.smulR (tau - t)) = v.smulR (t - tau) := by ext <;> simp <;> ring
    rw [this] at h4
    have e : V3.normSq (v.smulR (t - tau)) = (t - tau) ^ 2 * V3.normSq v := by
      simp only [V3.normSq, V3.dot, V3.smulR_x, V3.smulR_y, V3.smulR_z]; ring
    rw [e, h7] at h4
    nlinarith
  have hab := abs_lt_of_sq_lt_sq hnear hR.le
  rw [abs_lt] at hab
  have hlo : -(R / c) < tau - t := by rw [← neg_div, div_lt_iff₀ hc]; exact hab.1
  have hhi : tau - t < R / c := by rw [lt_div_iff₀ hc]; exact hab.2
  unfold focusTime
  by_cases hu : up
  · rw [if_pos hu]
    exact AtSphere.unique h4 h5 ⟨hon _ rfl, .inr ⟨h8.mpr hu, by linarith⟩⟩
  · rw [if_neg hu]
    refine AtSphere.unique h4 h5 ⟨?_, .inl ⟨not_lt.mp fun h => hu (h8.mp h), by linarith⟩⟩
    have := hon (-(R / c)) (by ring)
    rwa [← sub_eq_add_neg] at this

/-- **C75** (perfect focus): when all rays come to the reference point at the same time, the wavefront is zero wherever it is not
masked. -/
theorem C75_perfect (h : LegalSystem s surf stop cs n w back pupil) (hd : FieldAngle thx thy projection d) {nx : ℕ} (hnx : 2 < nx)
    (hs : OnSurface surf (pupilGrid nx pupil)) {rv : RayVec Dbl} (hrv : startGrid s thx thy (Dbl.fin w) projection nx = .ok rv)
    {out : CoordSys ℝ} (ho : out.rot.Orth) (hf : (s.trace rv).coordSys = out.fin) (hw : w ≠ 0)
    {R : ℝ} (hR : 0 < R) {sphereRadius : Option Dbl} (hsr : sphereRadius = some (Dbl.fin R) ∨ (sphereRadius = none ∧ s.sphereRadius = some (Dbl.fin R)))
    {ref : Reference} {P : V3 ℝ} (hP : refPoint ref nx (s.trace rv).rays = .ok P.fin)
    (hin : ∀ ray ∈ (s.trace rv).rays, ray.vignetted = false → Inside P R ray)
    (hr : RefRays ref nx (s.trace rv).rays (Inside P R)) {tau c : ℝ} {up : Prop} (hc : 0 < c)
    (hfoc : ∀ ray ∈ (s.trace rv).rays, Focused P tau c up ray) :
    ∃ wf, wavefront s thx thy (Dbl.fin w) projection nx sphereRadius ref = .ok wf ∧ wf.cells.length = nx * nx ∧
      ∀ x, (x, false) ∈ wf.cells → x = Dbl.fin 0 := by
  obtain ⟨wf, T0, h1, h2, h3, h4, _⟩ := C75_wavefront h hd hnx hs hrv ho hf hw hR hsr hP hin hr
  have hT0 : T0 = focusTime R tau c up := by
    cases ref with
    | other => exact hr.elim
    | chief =>
      obtain ⟨ray, h5, h6⟩ := h3
      obtain ⟨ray', h5', h6'⟩ := hr
      rw [h5, Option.some.injEq] at h5'
      subst h5'
      exact focused_time hR hc (hfoc _ (List.mem_of_getElem? h5)) h6' h6
    | mean =>
      obtain ⟨Ts, h5, h6, h7⟩ := h3
      have : Ts = List.replicate Ts.length (focusTime R tau c up) := by
        refine List.eq_replicate_iff.mpr ⟨rfl, fun T hT => ?_⟩
        obtain ⟨k, hk, rfl⟩ := List.getElem_of_mem hT
        have h8 := List.Forall₂.get h6 (by rw [h6.length_eq]; exact hk) hk
        have hmem := List.getElem_mem (l := (s.trace rv).rays.filter fun ray => !ray.vignetted) (n := k) (by rw [h6.length_eq]; exact hk)
        have hmem' := List.mem_filter.mp hmem
        exact focused_time hR hc (hfoc _ hmem'.1) (hin _ hmem'.1 (by simpa using hmem'.2)) h8
      have hl : (Ts.length : ℝ) ≠ 0 := by
        have := List.length_pos_iff.mpr h5
        exact_mod_cast this.ne'
      rw [h7, this, List.sum_replicate, List.length_replicate, nsmul_eq_mul]
      field_simp
  refine ⟨wf, h1, h2, fun x hx => ?_⟩
  obtain ⟨i, hi, hxi⟩ := List.getElem_of_mem hx
  have hlen : (s.trace rv).rays.length = nx * nx := by
    obtain ⟨rv', h6, h7⟩ := startGrid_wave h hd (by omega) hs
    rw [hrv] at h6
    injection h6 with h6
    subst h6
    obtain ⟨g, c', hg⟩ := trace_map s.niter false s.optic rv.coordSys
    have : s.trace rv = ⟨rv.rays.map g, c'⟩ := hg rv.rays
    rw [this, List.length_map, h7.size, pupilGrid, gridSpec_length]
  have hi' : i < (s.trace rv).rays.length := by rw [hlen, ← h2]; exact hi
  obtain ⟨h5, h6⟩ := h4 i _ (List.getElem?_eq_getElem hi')
  rw [List.getElem?_eq_getElem hi, hxi] at h5 h6
  have hv : ((s.trace rv).rays[i]).vignetted = false := by
    by_contra hv
    obtain ⟨y, hy⟩ := h5 (by simpa using hv)
    simp at hy
  obtain ⟨T, h7, h8⟩ := h6 hv
  have hmem := List.getElem_mem hi'
  have hT := focused_time hR hc (hfoc _ hmem) (hin _ hmem hv) h7
  simp only [Option.some.injEq, Prod.mk.injEq, and_true] at h8
  rw [h8, hT0, hT, sub_self, zero_div]

end Batoid.Props
