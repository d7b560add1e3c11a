import Verif.Construct
import Mathlib.Tactic.Positivity

/-!
# Property C43: the constructors make a plane wave through the requested points of the stop
-/

namespace Batoid.Props
open Batoid Batoid.Construct

/-! ## Specification -/

/-- The value an argument has: the one passed, else the one of the optic, else the documented default. -/
def Means {A : Type} (arg : Option A) (optic : Option (OpticAttrs Dbl)) (attr : OpticAttrs Dbl → Option A) (default value : A) :
    Prop :=
  arg = some value ∨
    (arg = none ∧ ((∃ o, optic = some o ∧ attr o = some value) ∨ (optic = none ∧ value = default)))

/-- The rays come from infinity, in the direction `d`: given as direction cosines, or as field angles. -/
def MeansDir (a : Args Dbl) (d : V3 ℝ) : Prop :=
  a.source = none ∧
    (a.dirCos = some d.fin ∨
      (a.dirCos = none ∧ ∃ u v, a.theta_x = some u ∧ a.theta_y = some v ∧
        Projection.fieldToDirCos u v a.projection = .ok (Dbl.fin d.x, Dbl.fin d.y, Dbl.fin d.z)))

/-- The global frame. -/
def globalFrame : CoordSys ℝ := ⟨⟨0, 0, 0⟩, M3.one⟩

/-- What the keyword arguments say, with the defaults of the documentation: 40 meters, vacuum, the global x-y plane, the global
frame. -/
structure Says (a : Args Dbl) (back : ℝ) (med : Medium Dbl) (surf : Surface Dbl) (stop cs : CoordSys ℝ) (w : ℝ) (d : V3 ℝ) :
    Prop where
  back : Means a.backDist a.optic (·.backDist) (Dbl.fin 40) (Dbl.fin back)
  med : Means a.medium a.optic (·.inMedium) ⟨fun _ => Dbl.fin 1⟩ med
  stop : Means a.stopSurface a.optic (·.stopSurface) ⟨Surface.plane, globalFrame.fin⟩ ⟨surf, stop.fin⟩
  cs : Means a.coordSys a.optic (fun o => some o.coordSys) globalFrame.fin cs.fin
  wavelength : a.wavelength = some (Dbl.fin w)
  dir : MeansDir a d

/-- A plane wave: all rays have the velocity `v` of length `1/n` along `d`, time zero and the same wavelength, are neither
vignetted nor failed, start on the plane perpendicular to `d` that lies `back` before the origin of the frame, and ray `i` meets
the stop surface at the requested point, at some time `T`. -/
structure PlaneWave (surf : Surface Dbl) (stop cs : CoordSys ℝ) (n w back : ℝ) (d : V3 ℝ) (pts : List (ℝ × ℝ))
    (flux : List ℝ) (rv : RayVec Dbl) : Prop where
  frame : rv.coordSys = cs.fin
  size : rv.rays.length = pts.length
  rays : ∃ v : V3 ℝ, (∃ c, 0 < c ∧ v = d.smulR c) ∧ V3.normSq v = (1 / n) ^ 2 ∧
    ∀ (i : ℕ) (p : ℝ × ℝ) (f : ℝ), pts[i]? = some p → flux[i]? = some f → ∃ (r : V3 ℝ) (z T : ℝ),
      rv.rays[i]? = some ⟨r.fin, v.fin, Dbl.fin 0, Dbl.fin w, Dbl.fin f, false, false⟩ ∧
      n * V3.dot r v = -back ∧
      surf.sag (Dbl.fin p.1) (Dbl.fin p.2) = Dbl.fin z ∧
      stop.toLocal (cs.toGlobal (r + v.smulR T)) = ⟨p.1, p.2, z⟩

/-! ## The arguments -/

theorem fromOptic_means {A : Type} {arg : Option A} {optic : Option (OpticAttrs Dbl)} {attr : OpticAttrs Dbl → Option A}
    {dflt value : A} (h : Means arg optic attr dflt value) : ∃ x, fromOptic arg optic attr = .ok x ∧ x.getD dflt = value := by
  rcases h with h | ⟨h, ⟨o, ho, hv⟩ | ⟨ho, hv⟩⟩
  · exact ⟨some value, by subst h; cases optic <;> rfl, rfl⟩
  · refine ⟨some value, ?_, rfl⟩
    subst h ho
    simp only [fromOptic, hv]
  · exact ⟨none, by subst h ho; rfl, hv.symm⟩

theorem orElse_means {A : Type} {arg : Option A} {optic : Option (OpticAttrs Dbl)} {attr : OpticAttrs Dbl → Option A}
    {dflt value : A} (h : Means arg optic attr dflt value) :
    (arg.orElse fun _ => optic.bind attr).getD dflt = value := by
  rcases h with h | ⟨h, ⟨o, ho, hv⟩ | ⟨ho, hv⟩⟩
  · subst h; rfl
  · subst h ho; simp [hv]
  · subst h ho; exact hv.symm

theorem pickDirection_means {a : Args Dbl} {d : V3 ℝ} (h : MeansDir a d) : pickDirection a = .ok (some d.fin) := by
  obtain ⟨hs, hd | ⟨hd, u, v, hu, hv, hp⟩⟩ := h
  · simp only [pickDirection, hd]
  · simp only [pickDirection, hd, hs, hu, hv, hp]
    rfl

theorem setup_says {a : Args Dbl} {back : ℝ} {med : Medium Dbl} {surf : Surface Dbl} {stop cs : CoordSys ℝ} {w : ℝ} {d : V3 ℝ}
    (h : Says a back med surf stop cs w d) (forgive : Bool) :
    setup forgive a = .ok ⟨Dbl.fin back, med, ⟨surf, stop.fin⟩, cs.fin, Dbl.fin w, none, some d.fin⟩ := by
  obtain ⟨x1, h1, e1⟩ := fromOptic_means h.back
  obtain ⟨x2, h2, e2⟩ := fromOptic_means h.med
  obtain ⟨x3, h3, e3⟩ := fromOptic_means h.stop
  have h4 := orElse_means h.cs
  have h3' := orElse_means h.stop
  have hstd : (CoordSys.std Dbl) = globalFrame.fin := by
    simp [CoordSys.std, globalFrame, CoordSys.fin, M3.one, M3.fin, M3.map]
  have hds : (defaultStop : Stop Dbl) = ⟨Surface.plane, globalFrame.fin⟩ := by rw [defaultStop, hstd]
  have h40 : (40 : Dbl) = Dbl.fin 40 := Dbl.ofNat_dbl' 40
  have hm1 : (Medium.const (1 : Dbl)) = ⟨fun _ => Dbl.fin 1⟩ := by rw [Medium.const, Dbl.one_dbl]
  have hcs : (a.coordSys.orElse fun _ => a.optic.map (·.coordSys)).getD (CoordSys.std Dbl) = cs.fin := by
    rw [hstd, ← h4]
    cases a.optic <;> rfl
  cases forgive
  · simp only [setup, h1, h2, h3, pickDirection_means h.dir, h.wavelength, h.dir.1, bind, Except.bind, Bool.false_eq_true, if_false,
      hcs, h40, hm1, hds, e1, e2, e3]
  · simp only [setup, h1, h2, pickDirection_means h.dir, h.wavelength, h.dir.1, bind, Except.bind, if_true, hcs, h40, hm1, hds, e1,
      e2, h3']

/-! ## Backing the rays up -/

/-- The real content of `finishParallel`: the part of `r - origin` along the third axis is removed. -/
theorem finishParallel_fin {f : CoordSys ℝ} (hf : f.rot.Orth) {n : ℝ} (hn : n ≠ 0) (r : V3 ℝ) :
    finishParallel f.fin (V3.smulR ⟨f.rot.m13, f.rot.m23, f.rot.m33⟩ (-(1 / n))).fin r.fin =
      (r - V3.smulR ⟨f.rot.m13, f.rot.m23, f.rot.m33⟩
        (V3.dot (r - f.origin) ⟨f.rot.m13, f.rot.m23, f.rot.m33⟩)).fin := by
  obtain ⟨⟨o1, o2, o3⟩, ⟨a11, a12, a13, a21, a22, a23, a31, a32, a33⟩⟩ := f
  obtain ⟨x, y, z⟩ := r
  have hr := hf.tr
  obtain ⟨c11, c22, c33, c12, c13, c23⟩ := hf
  obtain ⟨r11, r22, r33, r12, r13, r23⟩ := hr
  simp only [M3.tr] at *
  have hvz : -(a13 * -(1 / n)) * a13 - a23 * -(1 / n) * a23 - a33 * -(1 / n) * a33 = 1 / n := by
    linear_combination (1 / n) * c33
  have hvx : -(a13 * -(1 / n)) * a11 - a23 * -(1 / n) * a21 - a33 * -(1 / n) * a31 = 0 := by
    linear_combination (1 / n) * c13
  have hvy : -(a13 * -(1 / n)) * a12 - a23 * -(1 / n) * a22 - a33 * -(1 / n) * a32 = 0 := by
    linear_combination (1 / n) * c23
  have hn' : (1 / n) ≠ 0 := one_div_ne_zero hn
  simp only [finishParallel, CoordSys.fin, M3.fin, M3.map, V3.fin_x, V3.fin_y, V3.fin_z, V3.smulR_x, V3.smulR_y, V3.smulR_z,
    V3.sub_x, V3.sub_y, V3.sub_z, Dbl.neg_fin, Dbl.mul_fin, Dbl.sub_fin, Dbl.add_fin, hvz, hvx, hvy, Dbl.div_fin hn', V3.fin_mk,
    V3.fin_inj, V3.dot]
  set px := (x - o1) * a11 + (y - o2) * a21 + (z - o3) * a31 with hpx
  set py := (x - o1) * a12 + (y - o2) * a22 + (z - o3) * a32 with hpy
  set pz := (x - o1) * a13 + (y - o2) * a23 + (z - o3) * a33 with hpz
  have hz0 : pz + -pz / (1 / n) * (1 / n) = 0 := by field_simp; ring
  rw [hz0]
  ext
  · simp only [V3.sub_x, V3.smulR_x]
    rw [hpx, hpy, hpz]
    linear_combination (x - o1) * r11 + (y - o2) * r12 + (z - o3) * r13
  · simp only [V3.sub_y, V3.smulR_y]
    rw [hpx, hpy, hpz]
    linear_combination (x - o1) * r12 + (y - o2) * r22 + (z - o3) * r23
  · simp only [V3.sub_z, V3.smulR_z]
    rw [hpx, hpy, hpz]
    linear_combination (x - o1) * r13 + (y - o2) * r23 + (z - o3) * r33

/-- The unit vector upstream `d`. -/
noncomputable def upstream (d : V3 ℝ) : V3 ℝ := d.smulR (-(1 / Real.sqrt (V3.normSq d)))

theorem against_normSq {d : V3 ℝ} (h : 0 < V3.normSq d) : V3.normSq (upstream d) = 1 := by
  have hs := Real.mul_self_sqrt h.le
  have hne : Real.sqrt (V3.normSq d) ≠ 0 := (Real.sqrt_pos.2 h).ne'
  have : V3.normSq (upstream d) = V3.normSq d * (1 / Real.sqrt (V3.normSq d)) ^ 2 := by
    simp only [upstream, V3.normSq, V3.dot, V3.smulR_x, V3.smulR_y, V3.smulR_z]; ring
  rw [this]
  field_simp
  rw [Real.sq_sqrt h.le]

theorem velocity_fin {d : V3 ℝ} (h : 0 < V3.normSq d) {n : ℝ} (hn : n ≠ 0) :
    velocity d.fin (Dbl.fin n) = (V3.smulR (upstream d) (-(1 / n))).fin := by
  have hne : Real.sqrt (V3.dot d d) ≠ 0 := (Real.sqrt_pos.2 h).ne'
  have hs : n * Real.sqrt (V3.dot d d) ≠ 0 := mul_ne_zero hn hne
  simp only [velocity, V3.fin_dot, Dbl.sqrt_fin (show 0 ≤ V3.dot d d from h.le), Dbl.mul_fin, V3.fin_x, V3.fin_y, V3.fin_z,
    Dbl.div_fin hs, V3.fin_mk, V3.fin_inj]
  ext <;> simp only [upstream, V3.smulR_x, V3.smulR_y, V3.smulR_z, V3.normSq] <;> field_simp

/-- The frame of the starting plane, for a unit vector `u` that is not along the x axis. -/
noncomputable def waveRot (u : V3 ℝ) : M3 ℝ :=
  ⟨0, -(Real.sqrt (u.z * u.z + u.y * u.y)), u.x,
   -u.z / Real.sqrt (u.z * u.z + u.y * u.y), u.y * u.x / Real.sqrt (u.z * u.z + u.y * u.y), u.y,
   u.y / Real.sqrt (u.z * u.z + u.y * u.y), u.z * u.x / Real.sqrt (u.z * u.z + u.y * u.y), u.z⟩

theorem waveRot_orth {u : V3 ℝ} (h : V3.normSq u = 1) (hp : 0 < u.z * u.z + u.y * u.y) : (waveRot u).Orth := by
  have hs := Real.mul_self_sqrt hp.le
  have hne : Real.sqrt (u.z * u.z + u.y * u.y) ≠ 0 := (Real.sqrt_pos.2 hp).ne'
  simp only [V3.normSq, V3.dot] at h
  set s := Real.sqrt (u.z * u.z + u.y * u.y) with hsd
  constructor <;> simp only [waveRot, ← hsd]
  · field_simp; linear_combination -hs
  · field_simp
    have h2 : u.x ^ 2 = 1 - s * s := by rw [hs]; linear_combination h
    have h3 : u.y ^ 2 + u.z ^ 2 = s * s := by rw [hs]; ring
    linear_combination u.x ^ 2 * h3 + s * s * h2
  · exact h
  · field_simp; ring
  · field_simp; ring
  · have h3 : u.y ^ 2 + u.z ^ 2 = s * s := by rw [hs]; ring
    field_simp
    linear_combination u.x * h3

theorem launchFrame_fin {u : V3 ℝ} (h : V3.normSq u = 1) (hp : 0 < u.z * u.z + u.y * u.y) {n : ℝ} (hn : n ≠ 0) (back : ℝ) :
    launchFrame (V3.smulR u (-(1 / n))).fin (Dbl.fin n) (Dbl.fin back) = (⟨u.smulR back, waveRot u⟩ : CoordSys ℝ).fin := by
  have hs := Real.mul_self_sqrt hp.le
  have hne : Real.sqrt (u.z * u.z + u.y * u.y) ≠ 0 := (Real.sqrt_pos.2 hp).ne'
  have hz : V3.smul (-n) (V3.smulR u (-(1 / n))) = u := by
    ext <;> simp only [V3.smul_x, V3.smul_y, V3.smul_z, V3.smulR_x, V3.smulR_y, V3.smulR_z] <;> field_simp
  have hc : V3.cross ⟨1, 0, 0⟩ u = ⟨0, -u.z, u.y⟩ := by ext <;> simp
  have hd : V3.dot (⟨0, -u.z, u.y⟩ : V3 ℝ) ⟨0, -u.z, u.y⟩ = u.z * u.z + u.y * u.y := by simp only [V3.dot]; ring
  have hone : (⟨1, 0, 0⟩ : V3 Dbl) = (⟨1, 0, 0⟩ : V3 ℝ).fin := by simp only [Dbl.one_dbl, Dbl.zero_dbl, V3.fin_mk]
  have hnm : normalise (⟨0, -u.z, u.y⟩ : V3 ℝ).fin =
      (⟨0, -u.z / Real.sqrt (u.z * u.z + u.y * u.y), u.y / Real.sqrt (u.z * u.z + u.y * u.y)⟩ : V3 ℝ).fin := by
    simp only [normalise, V3.fin_dot, hd, Dbl.sqrt_fin hp.le, V3.fin_x, V3.fin_y, V3.fin_z, Dbl.div_fin hne, V3.fin_mk,
      zero_div]
  simp only [launchFrame, Dbl.neg_fin, V3.fin_smul, hz, hone, V3.fin_cross, hc, hnm, V3.fin_smulR, CoordSys.fin]
  congr 1
  simp only [M3.fin, M3.map, waveRot, V3.fin_x, V3.fin_y, V3.fin_z, V3.cross_x, V3.cross_y, V3.cross_z]
  set s := Real.sqrt (u.z * u.z + u.y * u.y) with hsd
  simp only [M3.mk.injEq, Dbl.fin_inj, true_and, and_true]
  refine ⟨?_, ?_, ?_⟩
  · field_simp; linear_combination hs
  · field_simp; ring
  · field_simp; ring

theorem launch_wave {back : ℝ} {med : Medium Dbl} {surf : Surface Dbl} {stop cs : CoordSys ℝ} {w n : ℝ} {d : V3 ℝ}
    (hstop : stop.rot.Orth) (hcs : cs.rot.Orth) (hn : 0 < n) (hmed : med.getN (Dbl.fin w) = Dbl.fin n)
    (hd : d.y ≠ 0 ∨ d.z ≠ 0) {pts : List (ℝ × ℝ)} {flux : List ℝ} (hlen : flux.length = pts.length)
    (hsag : ∀ p ∈ pts, ∃ z, surf.sag (Dbl.fin p.1) (Dbl.fin p.2) = Dbl.fin z) :
    ∃ rv, launch ⟨Dbl.fin back, med, ⟨surf, stop.fin⟩, cs.fin, Dbl.fin w, none, some d.fin⟩
        (pts.map fun p => (Dbl.fin p.1, Dbl.fin p.2)) (flux.map Dbl.fin) = .ok (some rv) ∧
      PlaneWave surf stop cs n w back d pts flux rv := by
  classical
  have hd0 : 0 < V3.normSq d := by
    refine V3.normSq_pos fun h => ?_
    rw [h] at hd; simp at hd
  have hsq : 0 < Real.sqrt (V3.normSq d) := Real.sqrt_pos.2 hd0
  set u := upstream d with hu
  have hu1 : V3.normSq u = 1 := against_normSq hd0
  have huyz : 0 < u.z * u.z + u.y * u.y := by
    have h1 : u.z = d.z * (-(1 / Real.sqrt (V3.normSq d))) := rfl
    have h2 : u.y = d.y * (-(1 / Real.sqrt (V3.normSq d))) := rfl
    have h3 : (-(1 / Real.sqrt (V3.normSq d))) ≠ 0 := neg_ne_zero.2 (one_div_ne_zero hsq.ne')
    rcases hd with h | h
    · have : u.y ≠ 0 := by rw [h2]; exact mul_ne_zero h h3
      nlinarith [mul_self_pos.2 this, mul_self_nonneg u.z]
    · have : u.z ≠ 0 := by rw [h1]; exact mul_ne_zero h h3
      nlinarith [mul_self_pos.2 this, mul_self_nonneg u.y]
  set v := V3.smulR u (-(1 / n)) with hv
  set g : ℝ × ℝ → ℝ := fun p => if h : ∃ z, surf.sag (Dbl.fin p.1) (Dbl.fin p.2) = Dbl.fin z then h.choose else 0 with hg
  have hgs : ∀ p ∈ pts, surf.sag (Dbl.fin p.1) (Dbl.fin p.2) = Dbl.fin (g p) := by
    intro p hp
    have := hsag p hp
    rw [hg]
    simp only
    rw [dif_pos this]
    exact this.choose_spec
  set q : ℝ × ℝ → V3 ℝ := fun p => cs.toLocal (stop.toGlobal ⟨p.1, p.2, g p⟩) with hq
  set rr : V3 ℝ → V3 ℝ := fun r => r - u.smulR (V3.dot (r - u.smulR back) u) with hrr
  have hpts : (pts.map fun p => (Dbl.fin p.1, Dbl.fin p.2)).map (fun p : Dbl × Dbl =>
      (CoordTransform.make stop.fin cs.fin).forward ⟨p.1, p.2, surf.sag p.1 p.2⟩) = pts.map fun p => (q p).fin := by
    rw [List.map_map]
    refine List.map_congr_left fun p hp => ?_
    simp only [Function.comp]
    rw [hgs p hp, V3.fin_mk, CoordTransform.forward_fin, CoordSys.forward_eq hstop]
  refine ⟨(⟨List.zipWith (fun (r : V3 ℝ) (f : ℝ) =>
      (⟨(rr r).fin, v.fin, Dbl.fin 0, Dbl.fin w, Dbl.fin f, false, false⟩ : Ray Dbl)) (pts.map q) flux, cs.fin⟩ : RayVec Dbl),
    ?_, ?_, ?_, ?_⟩
  rotate_left
  · rfl
  · simp [hlen]
  · refine ⟨v, ⟨1 / Real.sqrt (V3.normSq d) * (1 / n), by positivity, ?_⟩, ?_, ?_⟩
    · rw [hv, hu, upstream]
      ext <;> simp only [V3.smulR_x, V3.smulR_y, V3.smulR_z] <;> ring
    · have : V3.normSq v = V3.normSq u * (1 / n) ^ 2 := by
        rw [hv]; simp only [V3.normSq, V3.dot, V3.smulR_x, V3.smulR_y, V3.smulR_z]; ring
      rw [this, hu1, one_mul]
    · intro i p f hp hf
      refine ⟨rr (q p), g p, n * (-(V3.dot (q p - u.smulR back) u)), ?_, ?_, hgs p (List.mem_of_getElem? hp), ?_⟩
      · simp only [List.getElem?_zipWith, List.getElem?_map, hp, hf, Option.map_some]
      · rw [hv, hrr]
        simp only [V3.normSq] at hu1
        have e : n * V3.dot (q p - u.smulR (V3.dot (q p - u.smulR back) u)) (u.smulR (-(1 / n))) =
            -(V3.dot (q p) u - V3.dot (q p - u.smulR back) u * V3.dot u u) := by
          simp only [V3.dot, V3.smulR_x, V3.smulR_y, V3.smulR_z, V3.sub_x, V3.sub_y, V3.sub_z]
          field_simp
          ring
        have e2 : V3.dot (q p - u.smulR back) u = V3.dot (q p) u - back * V3.dot u u := by
          simp only [V3.dot, V3.smulR_x, V3.smulR_y, V3.smulR_z, V3.sub_x, V3.sub_y, V3.sub_z]; ring
        rw [e, e2, hu1]; ring
      · have e : rr (q p) + v.smulR (n * (-(V3.dot (q p - u.smulR back) u))) = q p := by
          rw [hrr, hv]
          ext <;> simp only [V3.smulR_x, V3.smulR_y, V3.smulR_z, V3.sub_x, V3.sub_y, V3.sub_z, V3.add_x, V3.add_y, V3.add_z] <;>
            field_simp <;> ring
        rw [e, hq]
        simp only
        rw [CoordSys.toGlobal_toLocal hcs, CoordSys.toLocal_toGlobal hstop]
  · simp only [launch, hmed]
    rw [hpts]
    simp only [finish, velocity_fin hd0 hn.ne', ← hu]
    rw [launchFrame_fin hu1 huyz hn.ne', Dbl.zero_dbl]
    congr 3
    rw [List.zipWith_map, List.zipWith_map_left]
    congr 1
    funext p f
    have e : finishParallel (⟨u.smulR back, waveRot u⟩ : CoordSys ℝ).fin (V3.smulR u (-(1 / n))).fin (q p).fin = (rr (q p)).fin :=
      finishParallel_fin (f := ⟨u.smulR back, waveRot u⟩) (waveRot_orth hu1 huyz) hn.ne' (q p)
    rw [e]

end Batoid.Props
