import Verif.Props.Newtonian

/-!
# A pinhole camera

Nothing but a flat detector behind the stop: the rays of a star go straight, so where each of them lands is known.  It is the concrete
system for the properties of fits and derivatives.
-/

namespace Batoid.Props
open Batoid Batoid.Surface Batoid.Analysis Batoid.Construct

/-- A flat detector at the distance `f` behind the stop with the frame `m`; its axes are parallel to those of the stop (`σ = 1`), or y and z
are reversed (`σ = -1`, a detector that looks at the light). -/
structure Screen (s : System Dbl) (f : ℝ) (m : CoordSys ℝ) (σ : ℝ) (d1 : Iface Dbl) : Prop where
  optic : ∃ info, s.optic = .compound info [.iface d1]
  detector : ∃ R, DetectorIn d1 ⟨m.toGlobal ⟨0, 0, -f⟩, R⟩ ∧
    ∀ v, R.tr.mulVec v = ⟨(m.rot.tr.mulVec v).x, σ * (m.rot.tr.mulVec v).y, σ * (m.rot.tr.mulVec v).z⟩
  sign : σ = 1 ∨ σ = -1
  skip : d1.skip = false

variable {s : System Dbl} {cs m : CoordSys ℝ} {n w back f σ : ℝ} {d : V3 ℝ} {d1 : Iface Dbl}

theorem one_trace (info : Comp Dbl) {d1 : Iface Dbl} (h1 : d1.skip = false) (niter : ℕ) (rv : RayVec Dbl) :
    (Optic.compound info [.iface d1]).trace niter false rv = d1.trace niter false rv := by
  simp [Optic.trace, Optic.traceItems, Optic.skip, h1]

/-- Where the rays of a star land, from where they cross the stop. -/
theorem screen_wave (h : Screen s f m σ d1) (hm : m.rot.Orth) (hcs : cs.rot.Orth) {u : V3 ℝ} (hu : m.rot.tr.mulVec (cs.rot.mulVec d) = u) (hz : u.z ≠ 0)
    {pts : List (ℝ × ℝ)} {fl : List ℝ} (hfl : fl.length = pts.length) {rv : RayVec Dbl} (hw : PlaneWave plane m cs n w back d pts fl rv)
    {i : ℕ} {p : ℝ × ℝ} (hp : pts[i]? = some p) :
    ∃ out, (s.trace rv).rays[i]? = some out ∧ out.failed = false ∧ out.vignetted = false ∧
      out.r = (⟨p.1 - f * (u.x / u.z), σ * (p.2 - f * (u.y / u.z)), 0⟩ : V3 ℝ).fin ∧
      ∃ (v : V3 ℝ) (t : ℝ), out.v = v.fin ∧ v.z ≠ 0 ∧ out.t = Dbl.fin t := by
  obtain ⟨v, ⟨k, hk, rfl⟩, hvn, h3⟩ := hw.rays
  obtain ⟨hi, -⟩ := List.getElem?_eq_some_iff.1 hp
  obtain ⟨fx, hfx⟩ : ∃ x, fl[i]? = some x := ⟨_, List.getElem?_eq_getElem (by omega)⟩
  obtain ⟨r, z, T, e1, e2, e3, e4⟩ := h3 i p fx hp hfx
  have hz0 : z = 0 := by
    simp [plane] at e3; exact e3.symm
  subst hz0
  have hray : RayAt cs ⟨r.fin, (d.smulR k).fin, Dbl.fin 0, Dbl.fin w, Dbl.fin fx, false, false⟩ (cs.toGlobal r) (cs.rot.mulVec (d.smulR k)) 0 := by
    refine ⟨rfl, ?_, ?_, rfl⟩
    · rw [CoordSys.toLocal_toGlobal hcs]
    · rw [hcs.tr_mulVec]
  have hwl : m.rot.tr.mulVec (cs.rot.mulVec (d.smulR k)) = u.smulR k := by
    rw [← hu]
    ext <;> simp [M3.mulVec, V3.dot] <;> ring
  obtain ⟨R, hR1, hR2⟩ := h.detector
  have hσ : σ ≠ 0 := by rcases h.sign with rfl | rfl <;> norm_num
  have hloc : ∀ S, (CoordSys.mk (m.toGlobal ⟨0, 0, -f⟩) R).toLocal S = ⟨(m.toLocal S).x, σ * (m.toLocal S).y, σ * ((m.toLocal S).z + f)⟩ := by
    intro S
    have e1 : m.rot.tr.mulVec (m.rot.mulVec ⟨0, 0, -f⟩) = ⟨0, 0, -f⟩ := hm.tr_mulVec _
    have e2 : m.rot.tr.mulVec (S - m.toGlobal ⟨0, 0, -f⟩) = m.toLocal S - m.rot.tr.mulVec (m.rot.mulVec ⟨0, 0, -f⟩) := by
      unfold CoordSys.toLocal CoordSys.toGlobal
      ext <;> simp [M3.mulVec, V3.dot] <;> ring
    have e3 : (CoordSys.mk (m.toGlobal ⟨0, 0, -f⟩) R).toLocal S = R.tr.mulVec (S - m.toGlobal ⟨0, 0, -f⟩) := rfl
    rw [e3, hR2, e2, e1]
    ext <;> simp
  have hland : m.toLocal (cs.toGlobal r + (cs.rot.mulVec (d.smulR k)).smulR (T - f / (k * u.z))) = ⟨p.1 - f * (u.x / u.z), p.2 - f * (u.y / u.z), -f⟩ := by
    rw [toGlobal_line, toLocal_line, hwl] at e4
    rw [toLocal_line, hwl]
    have ex := congrArg V3.x e4
    have ey := congrArg V3.y e4
    have ez := congrArg V3.z e4
    simp only [V3.add_x, V3.add_y, V3.add_z, V3.smulR_x, V3.smulR_y, V3.smulR_z] at ex ey ez
    ext <;> simp only [V3.add_x, V3.add_y, V3.add_z, V3.smulR_x, V3.smulR_y, V3.smulR_z]
    · rw [← ex]; field_simp; ring
    · rw [← ey]; field_simp; ring
    · have : (m.toLocal (cs.toGlobal r)).z = -(k * u.z * T) := by linarith
      rw [this]; field_simp; ring
  obtain ⟨info, ho⟩ := h.optic
  have hvz : (R.tr.mulVec (cs.rot.mulVec (d.smulR k))).z ≠ 0 := by
    rw [hR2, hwl]
    exact mul_ne_zero hσ (mul_ne_zero hz hk.ne')
  obtain ⟨out, j1, -, j2, j3⟩ := detector_trace hR1 s.niter false hcs hw.frame e1 hray (T := T - f / (k * u.z))
    hvz (by rw [sub_zero, hloc, hland]; simp)
  refine ⟨out, ?_, j3.live, j2, ?_, _, _, j3.vel, hvz, j3.time⟩
  · rw [System.trace, ho, one_trace info h.skip]; exact j1
  · rw [j3.pos, sub_zero, hloc, hland]
    congr 1
    ext <;> simp

theorem screen_frame (h : Screen s f m σ d1) (rv : RayVec Dbl) : ∃ out : CoordSys ℝ, out.rot.Orth ∧ (s.trace rv).coordSys = out.fin := by
  obtain ⟨info, ho⟩ := h.optic
  obtain ⟨R, hR1, -⟩ := h.detector
  refine ⟨_, hR1.orth, ?_⟩
  rw [System.trace, ho, one_trace info h.skip]
  unfold Iface.trace Iface.applyObscuration
  rw [hR1.obscuration, interact_rays]
  exact hR1.frame

/-- The direction of a field angle of the gnomonic projection. -/
noncomputable def gnomonicDir (x y : ℝ) : V3 ℝ := (⟨x, y, -1⟩ : V3 ℝ).smulR (1 / Real.sqrt (1 + x * x + y * y))

theorem gnomonic_field (x y : ℝ) : FieldAngle (Dbl.fin x) (Dbl.fin y) "gnomonic" (gnomonicDir x y) where
  dir := by
    unfold Projection.fieldToDirCos gnomonicDir
    simp [gnomonic_fwd]
  legal := by
    right
    have := (gnomonic_norm x y).1
    simp [gnomonicDir, this.ne']

theorem gnomonic_slope (x y : ℝ) : (gnomonicDir x y).z ≠ 0 ∧ (gnomonicDir x y).x / (gnomonicDir x y).z = -x ∧ (gnomonicDir x y).y / (gnomonicDir x y).z = -y := by
  have h := (gnomonic_norm x y).1
  refine ⟨by simp [gnomonicDir, h.ne'], ?_, ?_⟩ <;> simp only [gnomonicDir, V3.smulR_x, V3.smulR_y, V3.smulR_z] <;> field_simp

/-- A screen 5 behind a stop of diameter 4. -/
noncomputable def camera : System Dbl where
  optic := demoComp "T" [.iface (demoFlat "D" (-5))]
  attrs := ⟨some (Dbl.fin 30), some ⟨fun _ => Dbl.fin 1⟩, some ⟨Surface.plane, (CoordSys.std ℝ).fin⟩, some (Dbl.fin 4), none, globalFrame.fin⟩
  sphereRadius := none
  niter := 5

theorem camera_optic : Screen camera 5 (CoordSys.std ℝ) 1 (demoFlat "D" (-5)) where
  optic := ⟨_, rfl⟩
  detector := ⟨(CoordSys.std ℝ).rot, ⟨rfl, rfl, rfl, by
    rw [std_toGlobal]
    norm_num [demoFlat, CoordSys.std, M3.one], std_orth⟩, fun v => by ext <;> simp⟩
  sign := .inl rfl
  skip := rfl

theorem camera_legal : LegalSystem camera Surface.plane (CoordSys.std ℝ) globalFrame 1 (1 / 2) 30 4 where
  back := rfl
  medium := ⟨_, rfl, rfl⟩
  stopSurface := rfl
  pupil := rfl
  frame := rfl
  stop := std_orth
  cs := globalFrame_orth
  n := one_pos

theorem camera_dir (d : V3 ℝ) : (CoordSys.std ℝ).rot.tr.mulVec (globalFrame.rot.mulVec d) = d := by
  rw [std_tr]; ext <;> simp [globalFrame, M3.mulVec, M3.one, V3.dot]

end Batoid.Props
