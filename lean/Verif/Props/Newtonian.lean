import Verif.Props.Wavefront
import Verif.Props.Stigmatic

/-!
# A paraboloid with a detector in its focus (C75)

The whole chain from the field angle to the wavefront: launch, trace, reference sphere.  On the axis of the telescope the wavefront is
zero, for every grid, whatever the frames are.
-/

namespace Batoid.Props
open Batoid Batoid.Surface Batoid.Analysis Batoid.Construct

/-- A flat detector in the frame `cs`. -/
structure DetectorIn (d : Iface Dbl) (cs : CoordSys ℝ) : Prop where
  kind : d.kind = .detector
  surface : d.surface = plane
  obscuration : d.obscuration = none
  frame : d.coordSys = cs.fin
  orth : cs.rot.Orth

theorem detector_trace {d : Iface Dbl} {cs a : CoordSys ℝ} (hd : DetectorIn d cs) (niter : ℕ) (reverse : Bool)
    {rv : RayVec Dbl} (ha : a.rot.Orth) (hrv : rv.coordSys = a.fin) {i : ℕ} {ray : Ray Dbl} (hi : rv.rays[i]? = some ray)
    {S w : V3 ℝ} {t T : ℝ} (hray : RayAt a ray S w t) (hz : (cs.rot.tr.mulVec w).z ≠ 0) (hT : (cs.toLocal (S + w.smulR (T - t))).z = 0) :
    ∃ out, (d.trace niter reverse rv).rays[i]? = some out ∧ (d.trace niter reverse rv).coordSys = cs.fin ∧
      out.vignetted = ray.vignetted ∧ RayAt cs out (S + w.smulR (T - t)) w T := by
  obtain ⟨out, h1, h2, h3⟩ := trace_ray d niter reverse rv i ray hi
  obtain ⟨e1, e2⟩ := rayAt_local (cs := cs) ha hray
  have hframe : (d.trace niter reverse rv).coordSys = d.coordSys := by
    unfold Iface.trace Iface.applyObscuration
    rw [interact_rays]
    cases d.obscuration <;> rfl
  have hk : Iface.onRay d niter reverse (CoordTransform.make rv.coordSys d.coordSys) ray =
      Ray.intersect plane (CoordTransform.make a.fin cs.fin) none niter ray := by
    unfold Iface.onRay; rw [hd.kind, hd.surface, hrv, hd.frame]
  have hdt : -(cs.toLocal S).z / (cs.rot.tr.mulVec w).z = T - t := by
    rw [toLocal_line] at hT
    simp only [V3.add_z, V3.smulR_z] at hT
    rw [div_eq_iff hz]; linarith
  have htime : (plane (F := Dbl)).timeToIntersect (cs.toLocal S).fin (cs.rot.tr.mulVec w).fin 0 niter = (true, Dbl.fin (T - t)) := by
    rw [← hdt]
    simp [plane, hz, Dbl.div_fin hz]
  have hi2 : Ray.intersect plane (CoordTransform.make a.fin cs.fin) none niter ray =
      { ray with r := (cs.toLocal (S + w.smulR (T - t))).fin, v := (cs.rot.tr.mulVec w).fin, t := Dbl.fin T } := by
    unfold Ray.intersect
    simp only [hray.live, e1, e2, htime, hray.time]
    simp [toLocal_line]
  rw [hk, hi2] at h2 h3
  refine ⟨out, h1, by rw [hframe, hd.frame], ?_, ?_, ?_, ?_, ?_⟩
  · rw [hd.obscuration] at h3
    rw [Bool.eq_iff_iff, h3]
    simp
  · rw [h2]; exact hray.live
  · rw [h2]
  · rw [h2]
  · rw [h2]

/-- The telescope: a paraboloid in the frame `m`, and a detector parallel to its rim through the focus. -/
structure Newtonian (s : System Dbl) (R : ℝ) (m : CoordSys ℝ) (d1 d2 : Iface Dbl) : Prop where
  optic : ∃ info, s.optic = .compound info [.iface d1, .iface d2]
  mirror : MirrorIn d1 (paraboloid (Dbl.fin R)) m
  detector : DetectorIn d2 ⟨m.toGlobal ⟨0, 0, R / 2⟩, m.rot⟩
  skip1 : d1.skip = false
  skip2 : d2.skip = false

/-- The same with the detector turned about the axis by the angle `ψ`. -/
structure Turned (s : System Dbl) (R ψ : ℝ) (m : CoordSys ℝ) (d1 d2 : Iface Dbl) : Prop where
  optic : ∃ info, s.optic = .compound info [.iface d1, .iface d2]
  mirror : MirrorIn d1 (paraboloid (Dbl.fin R)) m
  detector : DetectorIn d2 ⟨m.toGlobal ⟨0, 0, R / 2⟩, m.rot.mul (RotZ ψ)⟩
  skip1 : d1.skip = false
  skip2 : d2.skip = false

theorem rotZ_zero : RotZ 0 = M3.one := by simp [RotZ, M3.one]

theorem mul_rotZ_zero (m : M3 ℝ) : m.mul (RotZ 0) = m := by
  rw [rotZ_zero]; simp [M3.mul, M3.one]

theorem rotZ_orth (t : ℝ) : (RotZ t).Orth := (rotZ_isRotation t).orth

variable {s : System Dbl} {stop cs m : CoordSys ℝ} {n w back pupil R ψ : ℝ} {d : V3 ℝ} {thx thy : Dbl} {projection : String} {d1 d2 : Iface Dbl}

theorem Newtonian.turned (h : Newtonian s R m d1 d2) : Turned s R 0 m d1 d2 :=
  ⟨h.optic, h.mirror, by rw [mul_rotZ_zero]; exact h.detector, h.skip1, h.skip2⟩

/-- Where a ray of an on-axis star ends. -/
theorem turned_ray (h : Turned s R ψ m d1 d2) (hR : R ≠ 0) {rv : RayVec Dbl} {a : CoordSys ℝ} (ha : a.rot.Orth) (hrv : rv.coordSys = a.fin)
    {i : ℕ} {ray : Ray Dbl} (hi : rv.rays[i]? = some ray) {S w : V3 ℝ} {b : ℝ} (hray : RayAt a ray S w 0)
    (hw : m.rot.tr.mulVec w = ⟨0, 0, b⟩) (hb : b < 0) (hap : (m.toLocal S).x ^ 2 + (m.toLocal S).y ^ 2 < R ^ 2) :
    ∃ out v, (s.trace rv).rays[i]? = some out ∧ out.failed = false ∧ out.r = (⟨0, 0, 0⟩ : V3 ℝ).fin ∧ out.v = v.fin ∧
      out.t = Dbl.fin (-((R / 2 + (m.toLocal S).z) / b)) ∧ V3.normSq v = b ^ 2 ∧ 0 < v.z ∧
      v = (RotZ ψ).tr.mulVec (V3.smulR ⟨2 * R * (m.toLocal S).x, 2 * R * (m.toLocal S).y, (m.toLocal S).x ^ 2 + (m.toLocal S).y ^ 2 - R ^ 2⟩
        (b / (R ^ 2 + (m.toLocal S).x ^ 2 + (m.toLocal S).y ^ 2))) := by
  obtain ⟨info, ho⟩ := h.optic
  obtain ⟨o1, S1, w1, t1, k1, k2, k3, -, k7, k8, k9⟩ := C78_focus hR h.mirror s.niter false ha hrv hi hray hw hb.ne
  have hz : 0 < (m.rot.tr.mulVec w1).z := by
    rw [k9]
    simp only [V3.smulR_z]
    have : 0 < R ^ 2 + (m.toLocal S).x ^ 2 + (m.toLocal S).y ^ 2 := by positivity
    exact mul_pos_of_neg_of_neg (by linarith) (div_neg_of_neg_of_pos hb this)
  have hl : (CoordSys.mk (m.toGlobal ⟨0, 0, R / 2⟩) (m.rot.mul (RotZ ψ))).toLocal (m.toGlobal ⟨0, 0, R / 2⟩) = ⟨0, 0, 0⟩ := by
    unfold CoordSys.toLocal
    ext <;> simp [M3.mulVec, V3.dot]
  have hsplit : (m.rot.mul (RotZ ψ)).tr.mulVec w1 = (RotZ ψ).tr.mulVec (m.rot.tr.mulVec w1) := by
    ext <;> simp [M3.mulVec, V3.dot, M3.mul, M3.tr] <;> ring
  have hz' : ((m.rot.mul (RotZ ψ)).tr.mulVec w1).z = (m.rot.tr.mulVec w1).z := by
    rw [hsplit]; simp [M3.mulVec, V3.dot, RotZ, M3.tr]
  rw [← hz'] at hz
  have horth : (m.rot.mul (RotZ ψ)).Orth := h.mirror.orth.mul (rotZ_orth ψ)
  obtain ⟨out, j1, j2, -, j3⟩ := detector_trace h.detector s.niter false h.mirror.orth k2 k1 k3 (T := 0 - (R / 2 + (m.toLocal S).z) / b)
    hz.ne' (by rw [k8, hl])
  refine ⟨out, (m.rot.mul (RotZ ψ)).tr.mulVec w1, ?_, j3.live, ?_, j3.vel, ?_, ?_, hz, by rw [hsplit, k9]⟩
  · rw [System.trace, ho, two_trace info h.skip1 h.skip2]; exact j1
  · rw [j3.pos, k8, hl]
  · rw [j3.time, zero_sub]
  · rw [orth_normSq horth.tr, k7]

/-- A ray of a plane wave along the axis, from the point of the stop that it goes through: where it starts, when it gets to the focus, and from where. -/
theorem turned_point (h : Turned s R ψ m d1 d2) (hR : R ≠ 0) (hn : 0 < n) (hst' : m.rot.Orth) (hcs : cs.rot.Orth)
    {L : ℝ} (hL : 0 < L) (haxis : m.rot.tr.mulVec (cs.rot.mulVec d) = ⟨0, 0, -L⟩) {pts : List (ℝ × ℝ)} {fl : List ℝ} (hfl : fl.length = pts.length)
    {rv : RayVec Dbl} (h2 : PlaneWave plane m cs n w back d pts fl rv) {i : ℕ} {p : ℝ × ℝ} (hp : pts[i]? = some p) (hap : p.1 ^ 2 + p.2 ^ 2 < R ^ 2) :
    ∃ ray out r, rv.rays[i]? = some ray ∧ (s.trace rv).rays[i]? = some out ∧ ray.r = r.fin ∧
      (m.toLocal (cs.toGlobal r)).x = p.1 ∧ (m.toLocal (cs.toGlobal r)).y = p.2 ∧
      ∃ v, out.failed = false ∧ out.r = (⟨0, 0, 0⟩ : V3 ℝ).fin ∧ out.v = v.fin ∧
        out.t = Dbl.fin (n * (R / 2 + ((m.toLocal cs.origin).z + back))) ∧ V3.normSq v = (1 / n) ^ 2 ∧ 0 < v.z ∧
        v = (RotZ ψ).tr.mulVec (V3.smulR ⟨2 * R * p.1, 2 * R * p.2, p.1 ^ 2 + p.2 ^ 2 - R ^ 2⟩ (-(1 / n) / (R ^ 2 + p.1 ^ 2 + p.2 ^ 2))) := by
  obtain ⟨v, ⟨k, hk, rfl⟩, hvn, h3⟩ := h2.rays
  have hwl : m.rot.tr.mulVec (cs.rot.mulVec (d.smulR k)) = ⟨0, 0, -(1 / n)⟩ := by
    have e1 : m.rot.tr.mulVec (cs.rot.mulVec (d.smulR k)) = ⟨0, 0, -(k * L)⟩ := by
      have : m.rot.tr.mulVec (cs.rot.mulVec (d.smulR k)) = (m.rot.tr.mulVec (cs.rot.mulVec d)).smulR k := by
        ext <;> simp [M3.mulVec, V3.dot] <;> ring
      rw [this, haxis]; ext <;> simp <;> ring
    have e2 : (k * L) ^ 2 = (1 / n) ^ 2 := by
      rw [← hvn, ← orth_normSq hcs, ← orth_normSq hst'.tr, e1]
      simp [V3.normSq, V3.dot]; ring
    have e3 : k * L = 1 / n := by
      rwa [sq_eq_sq₀ (by positivity) (by positivity)] at e2
    rw [e1, e3]
  obtain ⟨hi, -⟩ := List.getElem?_eq_some_iff.1 hp
  obtain ⟨fx, hfx⟩ : ∃ x, fl[i]? = some x := ⟨_, List.getElem?_eq_getElem (by omega)⟩
  obtain ⟨r, z, T, e1, e2, e3, e4⟩ := h3 i p fx hp hfx
  have hz0 : z = 0 := by
    simp [plane] at e3; exact e3.symm
  have hray : RayAt cs ⟨r.fin, (d.smulR k).fin, Dbl.fin 0, Dbl.fin w, Dbl.fin fx, false, false⟩ (cs.toGlobal r) (cs.rot.mulVec (d.smulR k)) 0 := by
    refine ⟨rfl, ?_, ?_, rfl⟩
    · rw [CoordSys.toLocal_toGlobal hcs]
    · rw [hcs.tr_mulVec]
  rw [toGlobal_line, toLocal_line, hwl, hz0] at e4
  have ex : (m.toLocal (cs.toGlobal r)).x = p.1 := by have := congrArg V3.x e4; simpa using this
  have ey : (m.toLocal (cs.toGlobal r)).y = p.2 := by have := congrArg V3.y e4; simpa using this
  have ez : (m.toLocal (cs.toGlobal r)).z = (m.toLocal cs.origin).z + back := by
    have hdot : V3.dot r (d.smulR k) = V3.dot (m.rot.tr.mulVec (cs.rot.mulVec r)) (m.rot.tr.mulVec (cs.rot.mulVec (d.smulR k))) := by
      rw [hst'.tr.dot_mulVec, hcs.dot_mulVec]
    rw [hwl] at hdot
    have hsplit : m.toLocal (cs.toGlobal r) = m.toLocal cs.origin + m.rot.tr.mulVec (cs.rot.mulVec r) := by
      unfold CoordSys.toLocal CoordSys.toGlobal
      ext <;> simp [M3.mulVec, V3.dot] <;> ring
    rw [hsplit, V3.add_z]
    have : V3.dot (m.rot.tr.mulVec (cs.rot.mulVec r)) ⟨0, 0, -(1 / n)⟩ = -((m.rot.tr.mulVec (cs.rot.mulVec r)).z / n) := by
      simp [V3.dot]; ring
    rw [hdot, this] at e2
    field_simp at e2
    linarith
  obtain ⟨out', v', j1, j2, j3, j4, j5, j6, j7, j8⟩ := turned_ray h hR hcs h2.frame e1 hray hwl (by simpa using hn)
    (by rw [ex, ey]; exact hap)
  refine ⟨_, out', r, e1, j1, rfl, ex, ey, v', j2, j3, j4, ?_, by rw [j6]; ring, j7, by rw [j8, ex, ey]⟩
  rw [j5, ez]
  congr 1
  field_simp

/-- The rays of a plane wave along the axis at the focus: all at the same place at the same time. -/
theorem turned_wave (h : Turned s R ψ m d1 d2) (hR : R ≠ 0) (hn : 0 < n) (hst' : m.rot.Orth) (hcs : cs.rot.Orth)
    {L : ℝ} (hL : 0 < L) (haxis : m.rot.tr.mulVec (cs.rot.mulVec d) = ⟨0, 0, -L⟩) {pts : List (ℝ × ℝ)} {fl : List ℝ} (hfl : fl.length = pts.length)
    {rv : RayVec Dbl} (h2 : PlaneWave plane m cs n w back d pts fl rv) (hap : ∀ p ∈ pts, p.1 ^ 2 + p.2 ^ 2 < R ^ 2) :
    (s.trace rv).rays.length = pts.length ∧
      (s.trace rv).coordSys = (CoordSys.mk (m.toGlobal ⟨0, 0, R / 2⟩) (m.rot.mul (RotZ ψ))).fin ∧
      ∀ out ∈ (s.trace rv).rays, ∃ v, out.failed = false ∧ out.r = (⟨0, 0, 0⟩ : V3 ℝ).fin ∧ out.v = v.fin ∧
        out.t = Dbl.fin (n * (R / 2 + ((m.toLocal cs.origin).z + back))) ∧ V3.normSq v = (1 / n) ^ 2 ∧ 0 < v.z := by
  have hlen : rv.rays.length = pts.length := h2.size
  obtain ⟨f, c', hf⟩ := trace_map s.niter false s.optic rv.coordSys
  have hst : s.trace rv = ⟨rv.rays.map f, c'⟩ := hf rv.rays
  refine ⟨by rw [hst, List.length_map, hlen], ?_, ?_⟩
  · obtain ⟨info, ho⟩ := h.optic
    rw [System.trace, ho, two_trace info h.skip1 h.skip2]
    unfold Iface.trace Iface.applyObscuration
    rw [h.detector.obscuration, interact_rays]
    exact h.detector.frame
  · intro out hout
    obtain ⟨i, hi', hio⟩ := List.getElem_of_mem hout
    have hi : i < pts.length := by rw [hst, List.length_map, hlen] at hi'; exact hi'
    have hp := List.getElem?_eq_getElem hi
    obtain ⟨-, out', -, -, j1, -, -, -, v', j2, j3, j4, j5, j6, j7, -⟩ := turned_point h hR hn hst' hcs hL haxis hfl h2 hp
      (hap _ (List.getElem_mem hi))
    rw [List.getElem?_eq_getElem hi', Option.some.injEq] at j1
    rw [← hio, j1]
    exact ⟨v', j2, j3, j4, j5, j6, j7⟩

theorem newtonian_wave (h : Newtonian s R m d1 d2) (hR : R ≠ 0) (hn : 0 < n) (hst' : m.rot.Orth) (hcs : cs.rot.Orth)
    {L : ℝ} (hL : 0 < L) (haxis : m.rot.tr.mulVec (cs.rot.mulVec d) = ⟨0, 0, -L⟩) {pts : List (ℝ × ℝ)} {fl : List ℝ} (hfl : fl.length = pts.length)
    {rv : RayVec Dbl} (h2 : PlaneWave plane m cs n w back d pts fl rv) (hap : ∀ p ∈ pts, p.1 ^ 2 + p.2 ^ 2 < R ^ 2) :
    (s.trace rv).rays.length = pts.length ∧
      (s.trace rv).coordSys = (CoordSys.mk (m.toGlobal ⟨0, 0, R / 2⟩) m.rot).fin ∧
      ∀ out ∈ (s.trace rv).rays, ∃ v, out.failed = false ∧ out.r = (⟨0, 0, 0⟩ : V3 ℝ).fin ∧ out.v = v.fin ∧
        out.t = Dbl.fin (n * (R / 2 + ((m.toLocal cs.origin).z + back))) ∧ V3.normSq v = (1 / n) ^ 2 ∧ 0 < v.z := by
  have := turned_wave h.turned hR hn hst' hcs hL haxis hfl h2 hap
  rwa [mul_rotZ_zero] at this

/-- The rays of an on-axis star at the focus. -/
theorem turned_rays (h : Turned s R ψ m d1 d2) (hR : R ≠ 0) (hs : LegalSystem s plane m cs n w back pupil)
    (hd : FieldAngle thx thy projection d) {L : ℝ} (hL : 0 < L) (haxis : m.rot.tr.mulVec (cs.rot.mulVec d) = ⟨0, 0, -L⟩) {nx : ℕ} (hnx : 0 < nx)
    (hap : ∀ p ∈ pupilGrid nx pupil, p.1 ^ 2 + p.2 ^ 2 < R ^ 2) :
    ∃ rv tau, startGrid s thx thy (Dbl.fin w) projection nx = .ok rv ∧ (s.trace rv).rays.length = nx * nx ∧
      (s.trace rv).coordSys = (CoordSys.mk (m.toGlobal ⟨0, 0, R / 2⟩) (m.rot.mul (RotZ ψ))).fin ∧
      ∀ out ∈ (s.trace rv).rays, ∃ v, out.failed = false ∧ out.r = (⟨0, 0, 0⟩ : V3 ℝ).fin ∧ out.v = v.fin ∧ out.t = Dbl.fin tau ∧
        V3.normSq v = (1 / n) ^ 2 ∧ 0 < v.z := by
  obtain ⟨rv, h1, h2⟩ := startGrid_wave hs hd hnx (plane_onSurface _)
  have hlen : (pupilGrid nx pupil).length = nx * nx := by rw [pupilGrid, gridSpec_length]
  obtain ⟨h3, h4, h5⟩ := turned_wave h hR hs.n hs.stop hs.cs hL haxis (by rw [List.length_replicate, hlen]) h2 hap
  exact ⟨rv, _, h1, by rw [h3, hlen], h4, h5⟩

theorem newtonian_rays (h : Newtonian s R m d1 d2) (hR : R ≠ 0) (hs : LegalSystem s plane m cs n w back pupil)
    (hd : FieldAngle thx thy projection d) {L : ℝ} (hL : 0 < L) (haxis : m.rot.tr.mulVec (cs.rot.mulVec d) = ⟨0, 0, -L⟩) {nx : ℕ} (hnx : 0 < nx)
    (hap : ∀ p ∈ pupilGrid nx pupil, p.1 ^ 2 + p.2 ^ 2 < R ^ 2) :
    ∃ rv tau, startGrid s thx thy (Dbl.fin w) projection nx = .ok rv ∧ (s.trace rv).rays.length = nx * nx ∧
      (s.trace rv).coordSys = (CoordSys.mk (m.toGlobal ⟨0, 0, R / 2⟩) m.rot).fin ∧
      ∀ out ∈ (s.trace rv).rays, ∃ v, out.failed = false ∧ out.r = (⟨0, 0, 0⟩ : V3 ℝ).fin ∧ out.v = v.fin ∧ out.t = Dbl.fin tau ∧
        V3.normSq v = (1 / n) ^ 2 ∧ 0 < v.z := by
  have := turned_rays h.turned hR hs hd hL haxis hnx hap
  rwa [mul_rotZ_zero] at this

theorem getElem?_of_lt {A : Type} {l : List A} {i : ℕ} (h : i < l.length) : ∃ a, l[i]? = some a ∧ a ∈ l :=
  ⟨l[i], List.getElem?_eq_getElem h, List.getElem_mem h⟩

/-- The reference point of rays that are all at one place. -/
theorem refPoint_const {rays : List (Ray Dbl)} {P : V3 ℝ} (h : ∀ ray ∈ rays, ray.r = P.fin) {ref : Reference} {nx : ℕ} {ok : Ray Dbl → Prop}
    (hr : RefRays ref nx rays ok) : refPoint ref nx rays = .ok P.fin := by
  cases ref with
  | other => exact hr.elim
  | chief =>
    obtain ⟨ray, h1, -⟩ := hr
    unfold refPoint
    rw [chiefIndex_eq, item_nat h1]
    simp only [Except.map]
    rw [h ray (List.mem_of_getElem? h1)]
  | mean =>
    obtain ⟨ray, h1, h2⟩ := hr
    have hne : clear rays ≠ [] := List.ne_nil_of_mem (List.mem_filter.mpr ⟨h1, by simp [h2]⟩)
    have e : (clear rays).map (·.r) = ((clear rays).map fun _ => P).map V3.fin := by
      rw [List.map_map]
      exact List.map_congr_left fun a ha => h a (List.mem_filter.mp ha).1
    unfold refPoint
    rw [e, meanV_fin (by simpa using hne), centroid_const (by simpa using hne) (p := P) (by simp)]

/-- The chief ray exists; for the mean one ray has to get through. -/
def SomeLight (ref : Reference) (rays : List (Ray Dbl)) : Prop :=
  match ref with
  | .chief => True
  | .mean => ∃ ray ∈ rays, ray.vignetted = false
  | .other => False

/-- All rays end in the focus, inside any reference sphere. -/
theorem turned_ready (h : Turned s R ψ m d1 d2) (hR : R ≠ 0) (hs : LegalSystem s plane m cs n w back pupil)
    (hd : FieldAngle thx thy projection d) {L : ℝ} (hL : 0 < L) (haxis : m.rot.tr.mulVec (cs.rot.mulVec d) = ⟨0, 0, -L⟩) {nx : ℕ} (hnx : 2 < nx)
    (hap : ∀ p ∈ pupilGrid nx pupil, p.1 ^ 2 + p.2 ^ 2 < R ^ 2) {ρ : ℝ} (hρ : 0 < ρ) {ref : Reference}
    (hlight : ∀ rv, startGrid s thx thy (Dbl.fin w) projection nx = .ok rv → SomeLight ref (s.trace rv).rays) :
    ∃ rv tau, startGrid s thx thy (Dbl.fin w) projection nx = .ok rv ∧ (s.trace rv).rays.length = nx * nx ∧
      (s.trace rv).coordSys = (CoordSys.mk (m.toGlobal ⟨0, 0, R / 2⟩) (m.rot.mul (RotZ ψ))).fin ∧
      (∀ out ∈ (s.trace rv).rays, ∃ v, out.failed = false ∧ out.r = (⟨0, 0, 0⟩ : V3 ℝ).fin ∧ out.v = v.fin ∧ out.t = Dbl.fin tau ∧
        V3.normSq v = (1 / n) ^ 2 ∧ 0 < v.z) ∧ (∀ ray ∈ (s.trace rv).rays, Inside ⟨0, 0, 0⟩ ρ ray) ∧
      RefRays ref nx (s.trace rv).rays (Inside ⟨0, 0, 0⟩ ρ) ∧ refPoint ref nx (s.trace rv).rays = .ok (⟨0, 0, 0⟩ : V3 ℝ).fin := by
  obtain ⟨rv, tau, h1, h2, h3, h4⟩ := turned_rays h hR hs hd hL haxis (by omega) hap
  have hn := hs.n
  have hin : ∀ ray ∈ (s.trace rv).rays, Inside ⟨0, 0, 0⟩ ρ ray := by
    intro ray hray
    obtain ⟨v, k1, k2, k3, k4, k5, k6⟩ := h4 ray hray
    refine ⟨_, v, tau, k2, k3, k4, k1, ?_, ?_⟩
    · rintro rfl; simp at k6
    · simp [V3.normSq, V3.dot]; positivity
  have hr : RefRays ref nx (s.trace rv).rays (Inside ⟨0, 0, 0⟩ ρ) := by
    have := hlight rv h1
    cases ref with
    | other => exact this
    | mean => exact this
    | chief =>
      obtain ⟨a, ha, hm⟩ := getElem?_of_lt (l := (s.trace rv).rays) (i := nx / 2 * nx + nx / 2) (by
        rw [h2]; nlinarith [Nat.mul_le_mul_right nx (show nx / 2 + 1 ≤ nx by omega), show nx / 2 < nx by omega])
      exact ⟨a, ha, hin a hm⟩
  exact ⟨rv, tau, h1, h2, h3, h4, hin, hr, refPoint_const (fun ray hray => (h4 ray hray).choose_spec.2.1) hr⟩

/-- **C75**: a paraboloid has no wavefront error on its axis, whatever the focal length, the frames, the medium, the number of
rays, the radius of the reference sphere, the obscuration of the mirror and the angle by which the
detector is turned. -/
theorem C75_newtonian (h : Turned s R ψ m d1 d2) (hR : R ≠ 0) (hs : LegalSystem s plane m cs n w back pupil)
    (hd : FieldAngle thx thy projection d) {L : ℝ} (hL : 0 < L) (haxis : m.rot.tr.mulVec (cs.rot.mulVec d) = ⟨0, 0, -L⟩) {nx : ℕ} (hnx : 2 < nx)
    (hap : ∀ p ∈ pupilGrid nx pupil, p.1 ^ 2 + p.2 ^ 2 < R ^ 2) (hw : w ≠ 0) {ρ : ℝ} (hρ : 0 < ρ) {ref : Reference}
    (hlight : ∀ rv, startGrid s thx thy (Dbl.fin w) projection nx = .ok rv → SomeLight ref (s.trace rv).rays) :
    ∃ wf, wavefront s thx thy (Dbl.fin w) projection nx (some (Dbl.fin ρ)) ref = .ok wf ∧ wf.cells.length = nx * nx ∧
      ∀ x, (x, false) ∈ wf.cells → x = Dbl.fin 0 := by
  obtain ⟨rv, tau, h1, h2, h3, h4, hin, hr, hP⟩ := turned_ready h hR hs hd hL haxis hnx hap hρ hlight
  have hn := hs.n
  refine C75_perfect hs hd hnx (plane_onSurface _) h1 (out := ⟨m.toGlobal ⟨0, 0, R / 2⟩, m.rot.mul (RotZ ψ)⟩) (h.mirror.orth.mul (rotZ_orth ψ)) h3 hw hρ (Or.inl rfl)
    hP (fun ray hray _ => hin ray hray) hr
    (tau := tau) (c := 1 / n) (up := True) (by positivity) ?_
  intro ray hray r v t e1 e2 e3
  obtain ⟨v', k1, k2, k3, k4, k5, k6⟩ := h4 ray hray
  rw [k2, V3.fin_inj] at e1
  rw [k3, V3.fin_inj] at e2
  rw [k4, Dbl.fin_inj] at e3
  subst e1 e2 e3
  refine ⟨by ext <;> simp, k5, by simpa using k6⟩

end Batoid.Props
