import Verif.Props.GridRays

/-!
# Properties C43, C44 and C45: where rays start, spokes, field angles
-/

namespace Batoid.Props
open Batoid Batoid.Construct Batoid.Numpy

variable {a : Args Dbl} {surf : Surface Dbl} {stop cs : CoordSys ℝ} {n w back : ℝ} {d : V3 ℝ}

/-! ## C44: sides given as vectors -/

/-- **C44** (violated for the sides as well): with `lx = (2, 2)` and the documented (and computed) default `ly = (-2, 2)`, the grid
of `asGrid(nx=3, lx=(2, 2))` is not that of the two sides. -/
theorem C44_sides_violated :
    ∃ rv, asGrid straightArgs ⟨some 3, none, none, none, some (.vec (Dbl.fin 2) (Dbl.fin 2)), none⟩ none (Dbl.fin 1) = .ok (some rv) ∧
      ¬ PlaneWave Surface.plane globalFrame globalFrame 1 1 40 ⟨0, 0, -1⟩ (gridSpec 3 3 (1, 1) (-1, 1)) (List.replicate 9 1) rv := by
  obtain ⟨rv, h1, h2⟩ := asGrid_length straight_legal (nx := 3) (ny := 3) (lx := .vec 2 2) (ly := .vec (-2) 2)
    (l := some (.vec (Dbl.fin 2) (Dbl.fin 2))) (g := ⟨some 3, none, none, none, some (.vec (Dbl.fin 2) (Dbl.fin 2)), none⟩)
    (by rfl)
    (by
      simp only [gridShape, Option.getD_none, Ext.turn, RealExt.fin, Dbl.zero_dbl, Dbl.one_dbl, Dbl.const_dbl, Dbl.mul_fin, Dbl.add_fin]
      norm_num) (by omega) (by omega) (plane_onSurface _) 1
  refine ⟨rv, h1, fun hw => ?_⟩
  have e1 := straight_above h2 (i := 1) (f := 1) (gridSpec_at (i := 1) (j := 0) (nx := 3) (ny := 3) (by omega) (by omega) _ _) (by simp)
  have e2 := straight_above hw (i := 1) (f := 1) (gridSpec_at (i := 1) (j := 0) (nx := 3) (ny := 3) (by omega) (by omega) _ _) (by simp)
  rw [e1] at e2
  have hc : axisCells 3 = 2 := rfl
  simp [RealExt.first, RealExt.second, hc] at e2
  norm_num at e2

/-! ## C43: distance, direction of travel, sources -/

/-- **C43** (the rays reach the stop, they do not come from it): a ray whose stop point is no further than `back` from the origin of
the frame meets it at a time that is not negative. -/
theorem C43_forward (hcs : cs.rot.Orth) (hstop : stop.rot.Orth) (hn : 0 < n) (hb : 0 ≤ back) {r v : V3 ℝ} {T : ℝ} {p : V3 ℝ}
    (hv : V3.normSq v = (1 / n) ^ 2) (hr : n * V3.dot r v = -back) (hp : stop.toLocal (cs.toGlobal (r + v.smulR T)) = p)
    (hnear : V3.normSq (cs.toLocal (stop.toGlobal p)) ≤ back ^ 2) : 0 ≤ T := by
  have hq : r + v.smulR T = cs.toLocal (stop.toGlobal p) := by
    rw [← hp, CoordSys.toGlobal_toLocal hstop, CoordSys.toLocal_toGlobal hcs]
  rw [← hq] at hnear
  set q := r + v.smulR T with hqd
  have h1 : V3.dot q v = V3.dot r v + T * V3.normSq v := by
    rw [hqd]; simp only [V3.dot, V3.normSq, V3.add_x, V3.add_y, V3.add_z, V3.smulR_x, V3.smulR_y, V3.smulR_z]; ring
  -- Cauchy-Schwarz
  have h2 : V3.dot q v ^ 2 ≤ V3.normSq q * V3.normSq v := by
    simp only [V3.dot, V3.normSq]
    nlinarith [sq_nonneg (q.x * v.y - q.y * v.x), sq_nonneg (q.x * v.z - q.z * v.x), sq_nonneg (q.y * v.z - q.z * v.y)]
  have h3 : n * V3.dot q v = -back + T / n := by
    rw [h1, mul_add, hr, hv]; field_simp
  have h4 : (n * V3.dot q v) ^ 2 ≤ back ^ 2 := by
    have : (n * V3.dot q v) ^ 2 = n ^ 2 * V3.dot q v ^ 2 := by ring
    rw [this]
    have h5 : n ^ 2 * V3.dot q v ^ 2 ≤ n ^ 2 * (V3.normSq q * V3.normSq v) := by gcongr
    have h6 : n ^ 2 * (V3.normSq q * V3.normSq v) = V3.normSq q := by rw [hv]; field_simp
    linarith
  have h7 : -back ≤ n * V3.dot q v := by
    have := abs_le_of_sq_le_sq' h4 hb
    exact this.1
  rw [h3] at h7
  have h8 : 0 ≤ T / n := by linarith
  by_contra hT
  exact absurd h8 (not_le.2 (div_neg_of_neg_of_pos (not_le.1 hT) hn))

/-- **C43** (the documented distance): if the vertex of the stop is the origin of the ray frame, the rays start on the plane
perpendicular to them at `back` before the vertex. -/
theorem C43_distance_partial {pts : List (ℝ × ℝ)} {flux : List ℝ} {rv : RayVec Dbl}
    (h : PlaneWave surf stop cs n w back d pts flux rv) {z0 : ℝ} (hv : cs.toLocal (stop.toGlobal ⟨0, 0, z0⟩) = ⟨0, 0, 0⟩)
    {i : ℕ} {p : ℝ × ℝ} {f : ℝ} (hp : pts[i]? = some p) (hf : flux[i]? = some f) :
    ∃ (r v : V3 ℝ), (rv.rays[i]?).map (fun ray => (ray.r, ray.v)) = some (r.fin, v.fin) ∧ V3.normSq v = (1 / n) ^ 2 ∧
      n * V3.dot (r - cs.toLocal (stop.toGlobal ⟨0, 0, z0⟩)) v = -back := by
  obtain ⟨v, _, hvn, hr⟩ := h.rays
  obtain ⟨r, z, T, h1, h2, _, _⟩ := hr i p f hp hf
  refine ⟨r, v, by rw [h1]; rfl, hvn, ?_⟩
  rw [hv, ← h2]
  congr 1
  simp [V3.dot]

/-- The stop ten meters above the origin. -/
noncomputable def raisedStop : CoordSys ℝ := ⟨⟨0, 0, 10⟩, M3.one⟩

/-- The straight call with this stop and a back distance of forty meters. -/
noncomputable def raisedArgs : Args Dbl :=
  { straightArgs with stopSurface := some ⟨Surface.plane, raisedStop.fin⟩, backDist := some (Dbl.fin 40) }

/-- **C43** (violated): the documentation measures `backDist` from the point `(0, 0, z(0,0))` of the stop surface; the code measures
it from the origin of the ray frame.  With the stop ten meters up, the chief ray of `fromStop(0, 0, backDist=40)` starts thirty
meters from it. -/
theorem C43_distance_violated :
    ∃ rv, fromStop raisedArgs [(Dbl.fin 0, Dbl.fin 0)] (Dbl.fin 1) = .ok (some rv) ∧
      (rv.rays[0]?).map (fun ray => (ray.r, ray.v)) = some ((⟨0, 0, 40⟩ : V3 ℝ).fin, (⟨0, 0, -1⟩ : V3 ℝ).fin) ∧
      V3.dot ((⟨0, 0, 40⟩ : V3 ℝ) - ⟨0, 0, 10⟩) ⟨0, 0, -1⟩ = -30 := by
  have hl : LegalCall raisedArgs Surface.plane raisedStop globalFrame 1 1 40 ⟨0, 0, -1⟩ :=
    ⟨⟨⟨fun _ => Dbl.fin 1⟩, ⟨.inl rfl, .inr ⟨rfl, .inr ⟨rfl, rfl⟩⟩, .inl rfl, .inr ⟨rfl, .inr ⟨rfl, rfl⟩⟩, rfl, ⟨rfl, .inl rfl⟩⟩, rfl⟩,
      M3.orth_one, globalFrame_orth, one_pos, .inr (by norm_num)⟩
  obtain ⟨rv, h1, h2⟩ := C43_fromStop_partial hl [(0, 0)] (plane_onSurface _) 1
  refine ⟨rv, h1, ?_, ?_⟩
  · obtain ⟨v, ⟨c, hc, rfl⟩, hn, hr⟩ := h2.rays
    obtain ⟨r, z, T, h3, h4, _, h6⟩ := hr 0 (0, 0) 1 rfl rfl
    have hc1 : c = 1 := by
      simp [V3.normSq, V3.dot] at hn
      nlinarith
    subst hc1
    rw [h3]
    simp [V3.dot] at h4
    have hx := congrArg V3.x h6
    have hy := congrArg V3.y h6
    simp [raisedStop, CoordSys.toLocal, CoordSys.toGlobal, globalFrame, M3.mulVec, M3.tr, M3.one] at hx hy
    simp only [Option.map_some, Option.some.injEq, Prod.mk.injEq, V3.fin_inj]
    refine ⟨?_, ?_⟩
    · ext
      · exact hx
      · exact hy
      · exact h4
    · ext <;> simp
  · simp [V3.dot]; norm_num

/-- **C43** (violated): a `source` is documented, but the method ends without a value: the caller gets `None`, whatever the
points. -/
theorem C43_source_violated {F : Type} [Arith F] (w : F) (source : V3 F) (pts : List (F × F)) (flux : F) :
    fromStop { wavelength := some w, source := some source } pts flux = .ok none := rfl

/-- **C43** (the excluded direction): with the direction cosines along x every coordinate of every ray is NaN. -/
theorem C43_degenerate (c : ℝ) (hc : c ≠ 0) (pts : List (ℝ × ℝ)) (flux : Dbl) :
    ∃ rv, fromStop { straightArgs with dirCos := some (⟨c, 0, 0⟩ : V3 ℝ).fin } (pts.map fun p => (Dbl.fin p.1, Dbl.fin p.2)) flux =
        .ok (some rv) ∧
      rv.rays.length = pts.length ∧ ∀ ray ∈ rv.rays, ray.r = ⟨Dbl.nan, Dbl.nan, Dbl.nan⟩ := by
  have hsay : Says { straightArgs with dirCos := some (⟨c, 0, 0⟩ : V3 ℝ).fin } 40 ⟨fun _ => Dbl.fin 1⟩ Surface.plane globalFrame
      globalFrame 1 ⟨c, 0, 0⟩ :=
    ⟨.inr ⟨rfl, .inr ⟨rfl, rfl⟩⟩, .inr ⟨rfl, .inr ⟨rfl, rfl⟩⟩, .inr ⟨rfl, .inr ⟨rfl, rfl⟩⟩,
      .inr ⟨rfl, .inr ⟨rfl, rfl⟩⟩, rfl, ⟨rfl, .inl rfl⟩⟩
  unfold fromStop
  rw [setup_says hsay]
  refine ⟨_, rfl, ?_, ?_⟩
  · simp [flatFlux]
  · have hd0 : 0 < V3.normSq (⟨c, 0, 0⟩ : V3 ℝ) := V3.normSq_pos (by simp [hc])
    have hv := velocity_fin hd0 one_ne_zero
    intro ray hray
    simp only at hray
    rw [hv] at hray
    obtain ⟨i, hi⟩ := List.mem_iff_getElem?.1 hray
    rw [List.getElem?_zipWith] at hi
    have key : ∀ (vv : V3 ℝ) (r : V3 Dbl), vv.y = 0 → vv.z = 0 →
        finishParallel (launchFrame vv.fin (Dbl.fin 1) (Dbl.fin 40)) vv.fin r = ⟨Dbl.nan, Dbl.nan, Dbl.nan⟩ := by
      intro vv r hy hz
      obtain ⟨x, y, z⟩ := vv
      simp only at hy hz
      subst hy hz
      simp [finishParallel, launchFrame, normalise, V3.cross, V3.dot, V3.smul]
    revert hi
    split
    · intro hi
      rw [Option.some.injEq] at hi
      rw [← hi]
      exact key _ _ (by simp [upstream]) (by simp [upstream])
    · intro hi; cases hi

/-- **C43** (fromFieldAngles; all lists of field angles): every ray has speed `1/n` along its direction and the same time, is at the
requested point of the stop at time zero, and starts `back` away from it. -/
theorem C43_fromFieldAngles {med : Medium Dbl} (hb : Means a.backDist a.optic (·.backDist) (Dbl.fin 40) (Dbl.fin back))
    (hm : Means a.medium a.optic (·.inMedium) ⟨fun _ => Dbl.fin 1⟩ med)
    (hst : Means a.stopSurface a.optic (·.stopSurface) ⟨Surface.plane, globalFrame.fin⟩ ⟨surf, stop.fin⟩)
    (hw : a.wavelength = some (Dbl.fin w)) (hn : 0 < n) (hmed : med.getN (Dbl.fin w) = Dbl.fin n)
    (thetas : List (Dbl × Dbl)) (ds : Dbl × Dbl → V3 ℝ)
    (hds : ∀ th ∈ thetas, Projection.fieldToDirCos th.1 th.2 a.projection = .ok (Dbl.fin (ds th).x, Dbl.fin (ds th).y, Dbl.fin (ds th).z))
    (hunit : ∀ th ∈ thetas, V3.normSq (ds th) = 1)
    (x y z flux : ℝ) (hz : surf.sag (Dbl.fin x) (Dbl.fin y) = Dbl.fin z) :
    ∃ rv, fromFieldAngles a thetas (Dbl.fin x) (Dbl.fin y) (Dbl.fin flux) = .ok rv ∧ rv.coordSys = stop.fin ∧
      rv.rays.length = thetas.length ∧ ∀ (i : ℕ) th, thetas[i]? = some th → ∃ r v : V3 ℝ, ∃ t : ℝ,
        rv.rays[i]? = some ⟨r.fin, v.fin, Dbl.fin t, Dbl.fin w, Dbl.fin flux, false, false⟩ ∧ t = -back * n ∧
        v = (ds th).smulR (1 / n) ∧ r + v.smulR (0 - t) = ⟨x, y, z⟩ ∧ V3.normSq (r - ⟨x, y, z⟩) = back ^ 2 := by
  obtain ⟨x1, h1, e1⟩ := fromOptic_means hb
  obtain ⟨x2, h2, e2⟩ := fromOptic_means hm
  obtain ⟨x3, h3, e3⟩ := fromOptic_means hst
  have hstd : (CoordSys.std Dbl) = globalFrame.fin := by
    simp [CoordSys.std, globalFrame, CoordSys.fin, M3.one, M3.fin, M3.map]
  have hdf : (defaultStop : Stop Dbl) = ⟨Surface.plane, globalFrame.fin⟩ := by rw [defaultStop, hstd]
  have h40 : (40 : Dbl) = Dbl.fin 40 := Dbl.ofNat_dbl' 40
  have hm1 : (Medium.const (1 : Dbl)) = ⟨fun _ => Dbl.fin 1⟩ := by rw [Medium.const, Dbl.one_dbl]
  have hmap : thetas.mapM (fun th => Projection.fieldToDirCos th.1 th.2 a.projection) =
      .ok (thetas.map fun th => (Dbl.fin (ds th).x, Dbl.fin (ds th).y, Dbl.fin (ds th).z)) := mapM_ok hds
  refine ⟨⟨thetas.map fun th => ⟨((⟨x, y, z⟩ : V3 ℝ) + ((ds th).smulR (1 / n)).smulR (-back * n - 0)).fin,
    ((ds th).smulR (1 / n)).fin, Dbl.fin (-back * n), Dbl.fin w, Dbl.fin flux, false, false⟩, stop.fin⟩, ?_, rfl, by simp, ?_⟩
  · unfold fromFieldAngles
    simp only [h1, h2, h3, bind, Except.bind, hw, h40, hm1, hdf, e1, e2, e3, hmed, hmap, RayVec.propagate, List.map_map]
    refine congrArg Except.ok ?_
    congr 1
    refine List.map_congr_left fun th _ => ?_
    simp only [Function.comp, Ray.propagate, hz, Dbl.div_fin hn.ne', V3.fin_mk, Dbl.neg_fin, Dbl.mul_fin, Dbl.zero_dbl, Dbl.sub_fin,
      V3.fin_smulR, V3.fin_add]
    simp only [Ray.mk.injEq, V3.fin_inj, true_and, and_true]
    constructor <;> (ext <;> simp [div_eq_mul_inv])
  · intro i th hth
    refine ⟨_, _, _, by rw [List.getElem?_map, hth]; rfl, rfl, rfl, ?_, ?_⟩
    · ext <;> simp
    · have hu := hunit th (List.mem_of_getElem? hth)
      have : (⟨x, y, z⟩ : V3 ℝ) + ((ds th).smulR (1 / n)).smulR (-back * n - 0) - ⟨x, y, z⟩ = (ds th).smulR (-back) := by
        ext <;> simp <;> field_simp
      rw [this]
      have e : V3.normSq ((ds th).smulR (-back)) = back ^ 2 * V3.normSq (ds th) := by
        simp only [V3.normSq, V3.dot, V3.smulR_x, V3.smulR_y, V3.smulR_z]; ring
      rw [e, hu, mul_one]

/-! ## C45: spokes -/

/-- Rings of the given radii on the given spokes: all radii of the first spoke, then those of the second, and so on. -/
noncomputable def spokesSpec (radii azimuths : List ℝ) : List (ℝ × ℝ) :=
  azimuths.flatMap fun t => radii.map fun r => (r * Real.cos t, r * Real.sin t)

/-- `m` equally spaced azimuths from zero. -/
noncomputable def equalAzimuths (m : ℕ) : List ℝ := (List.range m).map fun s : ℕ => 2 * Real.pi * s / m

/-- `k` equally spaced radii from `inner` to `outer`; a single one is `inner`. -/
noncomputable def equalRadii (inner outer : ℝ) (k : ℕ) : List ℝ :=
  (List.range k).map fun i : ℕ => inner + (i : ℝ) / ((k : ℝ) - 1) * (outer - inner)

theorem meshgrid_polar (radii azimuths : List ℝ) :
    (meshgrid (radii.map Dbl.fin) (azimuths.map Dbl.fin)).map fromPolar =
      (spokesSpec radii azimuths).map fun p => (Dbl.fin p.1, Dbl.fin p.2) := by
  unfold meshgrid spokesSpec
  rw [List.flatMap_map, List.map_flatMap, List.map_flatMap]
  congr 1
  funext t
  simp only [List.map_map]
  refine List.map_congr_left fun r _ => ?_
  simp [fromPolar]

theorem spread_fin {m : ℕ} (hm : 0 < m) : spread (.num (m : ℤ) : Count Dbl) = .ok (.vals ((equalAzimuths m).map Dbl.fin)) := by
  have h2 : (2 : Dbl) * Arith.pi = Dbl.fin (2 * Real.pi) := by
    rw [Dbl.ofNat_dbl' 2, Dbl.pi_def, Dbl.mul_fin]
  unfold spread
  simp only [h2, Dbl.zero_dbl, linspace_open hm, bind, Except.bind, equalAzimuths, List.map_map]
  refine congrArg _ (congrArg _ (List.map_congr_left fun k _ => ?_))
  simp only [Function.comp, Dbl.fin_inj]
  ring

theorem equalRadii_linspace (inner outer : ℝ) {k : ℕ} (hk : 0 < k) :
    linspace (Dbl.fin inner) (Dbl.fin outer) (k : ℤ) true = .ok ((equalRadii inner outer k).map Dbl.fin) := by
  by_cases h1 : k = 1
  · subst h1
    rw [show ((1 : ℕ) : ℤ) = 1 from rfl, linspace_single]
    simp [equalRadii]
  · rw [linspace_closed (by omega)]
    simp only [equalRadii, List.map_map]
    rfl

theorem spokesSpec_length (radii azimuths : List ℝ) : (spokesSpec radii azimuths).length = azimuths.length * radii.length := by
  simp [spokesSpec, List.length_flatMap]

/-- asSpokes, from the shape that was worked out. -/
theorem asSpokes_wave (h : LegalCall a surf stop cs n w back d) {lg : ℤ → Except PyErr (List Dbl × List Dbl)} {outer inner flux : Dbl}
    {spokes : Option (Count Dbl)} {rings : Count Dbl} {spacing : String} {radii azimuths fl flux' : List ℝ}
    (hsh : spokesShape lg outer inner spokes rings spacing flux = .ok (radii.map Dbl.fin, azimuths.map Dbl.fin, fl.map Dbl.fin))
    (hb : broadcastTo (fl.map Dbl.fin) azimuths.length radii.length = .ok (flux'.map Dbl.fin))
    (hlen : flux'.length = azimuths.length * radii.length)
    (hs : OnSurface surf (spokesSpec radii azimuths)) :
    ∃ rv, asSpokes lg a (some outer) inner spokes (some rings) spacing flux = .ok (some rv) ∧
      PlaneWave surf stop cs n w back d (spokesSpec radii azimuths) flux' rv := by
  obtain ⟨med, hsay, hmed⟩ := h.meaning
  obtain ⟨rv, h1, h2⟩ := launch_wave (back := back) (flux := flux') h.stop h.cs h.n hmed h.d (by rw [hlen, spokesSpec_length]) hs
  refine ⟨rv, ?_, h2⟩
  have e1 : pupilOuter a (some outer) = .ok (some outer) := by
    unfold pupilOuter fromOptic; cases a.optic <;> rfl
  unfold asSpokes
  simp only [e1, setup_says hsay, bind, Except.bind, hsh, List.length_map, hb]
  rw [meshgrid_polar]
  exact h1

/-- **C45** (uniform spacing, whatever the numbers): an integer number of rings and an integer `m` of spokes give `m` equally spaced
azimuths, with all the radii on each.  *Missing*: radii given as an array, see `C45_rings_violated`. -/
theorem C45_uniform_partial (h : LegalCall a surf stop cs n w back d) (lg : ℤ → Except PyErr (List Dbl × List Dbl)) (outer inner flux : ℝ)
    {k m : ℕ} (hk : 0 < k) (hm : 0 < m) (hs : OnSurface surf (spokesSpec (equalRadii inner outer k) (equalAzimuths m))) :
    ∃ rv, asSpokes lg a (some (Dbl.fin outer)) (Dbl.fin inner) (some (.num (m : ℤ))) (some (.num (k : ℤ))) "uniform" (Dbl.fin flux) =
        .ok (some rv) ∧
      PlaneWave surf stop cs n w back d (spokesSpec (equalRadii inner outer k) (equalAzimuths m)) (List.replicate (m * k) flux) rv := by
  refine asSpokes_wave h (fl := [flux]) ?_ ?_ ?_ hs
  · simp only [spokesShape, if_true, equalRadii_linspace inner outer hk, bind, Except.bind, spread_fin hm, Count.values]
    rfl
  · have l1 : (equalAzimuths m).length = m := by simp [equalAzimuths]
    have l2 : (equalRadii inner outer k).length = k := by simp [equalRadii]
    rw [l1, l2]
    unfold broadcastTo
    by_cases h1 : k = 1
    · subst h1
      simp
    · rw [if_neg (by simp; omega)]
      simp
  · simp [equalAzimuths, equalRadii]

/-- **C45** (azimuths): with `m` spokes and `k` rings, ray `s k + i` is on ring `i` at the azimuth `2 pi s / m`. -/
theorem C45_layout (radii : List ℝ) {m s i : ℕ} {r : ℝ} (hs : s < m) (hi : radii[i]? = some r) :
    (spokesSpec radii (equalAzimuths m))[s * radii.length + i]? =
      some (r * Real.cos (2 * Real.pi * s / m), r * Real.sin (2 * Real.pi * s / m)) := by
  obtain ⟨hil, hr⟩ := List.getElem?_eq_some_iff.1 hi
  have e : spokesSpec radii (equalAzimuths m) = (List.range m).flatMap fun s : ℕ => (List.range radii.length).map fun i : ℕ =>
      (radii.getD i 0 * Real.cos (2 * Real.pi * s / m), radii.getD i 0 * Real.sin (2 * Real.pi * s / m)) := by
    unfold spokesSpec equalAzimuths
    rw [List.flatMap_map]
    refine List.flatMap_congr fun t _ => ?_
    have : radii = (List.range radii.length).map fun i => radii.getD i 0 := by
      apply List.ext_getElem?
      intro j
      rw [List.getElem?_map]
      by_cases hj : j < radii.length
      · rw [List.getElem?_range hj, List.getElem?_eq_getElem hj]
        simp [hj]
      · rw [List.getElem?_eq_none (by omega), List.getElem?_eq_none (by simp; omega)]; rfl
    conv_lhs => rw [this]
    rw [List.map_map]
    rfl
  rw [e, flatMap_range_getElem? radii.length _ m s i hs hil]
  have : radii.getD i 0 = r := by rw [List.getD_eq_getElem?_getD, hi]; rfl
  rw [this]

/-- The radius of the quadrature point that belongs to the Legendre node `t`. -/
noncomputable def quadRadius (inner outer t : ℝ) : ℝ :=
  Real.sqrt ((inner / outer) * (inner / outer) + (1 + t) * (1 - (inner / outer) * (inner / outer)) / 2) * outer

/-- **C45** (Gaussian quadrature): likewise; without `spokes` there are `2k+1` of them; the fluxes are the quadrature weights, scaled
with the area and divided over the spokes.  Here `nodes` and `weights` are what numpy returns for `k` nodes. -/
theorem C45_quadrature_partial (h : LegalCall a surf stop cs n w back d) (lg : ℤ → Except PyErr (List Dbl × List Dbl))
    (outer inner flux : ℝ) (ho : 0 < outer) (hi : 0 ≤ inner) (hio : inner ≤ outer)
    {k m : ℕ} (hm : 0 < m) (spokes : Option (Count Dbl)) (hsp : spokes = some (.num (m : ℤ)) ∨ (spokes = none ∧ m = 2 * k + 1))
    (nodes weights : List ℝ) (hnl : nodes.length = k) (hwl : weights.length = k)
    (hlg : lg (k : ℤ) = .ok (nodes.map Dbl.fin, weights.map Dbl.fin)) (hn1 : ∀ t ∈ nodes, -1 ≤ t ∧ t ≤ 1)
    (hs : OnSurface surf (spokesSpec (nodes.map (quadRadius inner outer)) (equalAzimuths m))) :
    ∃ rv, asSpokes lg a (some (Dbl.fin outer)) (Dbl.fin inner) spokes (some (.num (k : ℤ))) "GQ" (Dbl.fin flux) = .ok (some rv) ∧
      PlaneWave surf stop cs n w back d (spokesSpec (nodes.map (quadRadius inner outer)) (equalAzimuths m))
        (List.replicate m (weights.map fun x => x * (Real.pi * (1 - inner / outer * (inner / outer))) / (2 * m))).flatten rv := by
  have hsc : spokeCount spokes (k : ℤ) = (.num (m : ℤ) : Count Dbl) := by
    rcases hsp with rfl | ⟨rfl, rfl⟩
    · rfl
    · simp [spokeCount]
  have heps : 0 ≤ 1 - inner / outer * (inner / outer) := by
    have h1 : inner / outer ≤ 1 := (div_le_one ho).2 hio
    have h0 : 0 ≤ inner / outer := by positivity
    nlinarith
  have hmr : (2 * (m : ℝ)) ≠ 0 := by
    have : (m : ℝ) ≠ 0 := by exact_mod_cast hm.ne'
    simpa using this
  have hmc : (Arith.const ((2 * (m : ℤ) : ℤ) : ℚ) : Dbl) = Dbl.fin (2 * (m : ℝ)) := by
    rw [Dbl.const_dbl, Rat.cast_intCast, Int.cast_mul, Int.cast_natCast]; norm_num
  have h2 : (2 : Dbl) = Dbl.fin 2 := Dbl.ofNat_dbl' 2
  have hring : nodes.map (fun t => quadRing (Dbl.fin inner / Dbl.fin outer) (Dbl.fin outer) (Dbl.fin t)) =
      nodes.map fun t => Dbl.fin (quadRadius inner outer t) := by
    refine List.map_congr_left fun t ht => ?_
    obtain ⟨ht1, ht2⟩ := hn1 t ht
    have hnn : 0 ≤ inner / outer * (inner / outer) + (1 + t) * (1 - inner / outer * (inner / outer)) / 2 := by
      have : 0 ≤ (1 + t) * (1 - inner / outer * (inner / outer)) := mul_nonneg (by linarith) heps
      have := mul_self_nonneg (inner / outer)
      linarith
    simp only [quadRing, Dbl.div_fin ho.ne', Dbl.one_dbl, h2, Dbl.mul_fin, Dbl.sub_fin, Dbl.add_fin, Dbl.div_fin two_ne_zero,
      Dbl.sqrt_fin hnn, quadRadius]
  have hflux : quadFlux (weights.map Dbl.fin) (Arith.pi * (1 - Dbl.fin inner / Dbl.fin outer * (Dbl.fin inner / Dbl.fin outer)))
      (.num (m : ℤ)) = .ok ((weights.map fun x => x * (Real.pi * (1 - inner / outer * (inner / outer))) / (2 * m)).map Dbl.fin) := by
    simp only [quadFlux, hmc, Dbl.div_fin ho.ne', Dbl.one_dbl, Dbl.mul_fin, Dbl.sub_fin, Dbl.pi_def, List.map_map]
    refine congrArg _ (List.map_congr_left fun x _ => ?_)
    simp only [Function.comp, Dbl.mul_fin, Dbl.div_fin hmr]
  have l1 : (equalAzimuths m).length = m := by simp [equalAzimuths]
  refine asSpokes_wave h (fl := weights.map fun x => x * (Real.pi * (1 - inner / outer * (inner / outer))) / (2 * m)) ?_ ?_ ?_ hs
  · have hg : ("GQ" : String) ≠ "uniform" := by decide
    simp only [spokesShape, if_neg hg, if_true, hsc, hlg, bind, Except.bind, hflux, spread_fin hm, Count.values, List.map_map]
    refine congrArg _ (Prod.ext ?_ rfl)
    exact hring
  · unfold broadcastTo
    rw [if_pos (by simp [hnl, hwl]), l1]
    simp
  · simp [l1, hnl, hwl]

/-- **C45** (violated): when the radii are given as an array, an integer `spokes` is taken for an azimuth: one ring and four spokes
make one ray, at four radians, instead of four rays. -/
theorem C45_rings_violated (lg : ℤ → Except PyErr (List Dbl × List Dbl)) :
    ∃ rv, asSpokes lg straightArgs (some (Dbl.fin 1)) (Dbl.fin 0) (some (.num 4)) (some (.vals [Dbl.fin 1])) "uniform" (Dbl.fin 1) =
        .ok (some rv) ∧
      rv.rays.length = 1 ∧
      (rv.rays[0]?).map (fun ray => (ray.r.x, ray.r.y)) = some (Dbl.fin (Real.cos 4), Dbl.fin (Real.sin 4)) ∧
      ¬ PlaneWave Surface.plane globalFrame globalFrame 1 1 40 ⟨0, 0, -1⟩ (spokesSpec [1] (equalAzimuths 4)) (List.replicate 4 1) rv := by
  obtain ⟨rv, h1, h2⟩ := asSpokes_wave straight_legal (lg := lg) (outer := Dbl.fin 1) (inner := Dbl.fin 0) (flux := Dbl.fin 1)
    (spokes := some (.num 4)) (rings := .vals [Dbl.fin 1]) (spacing := "uniform") (radii := [1]) (azimuths := [4]) (fl := [1])
    (flux' := [1]) (by simp [spokesShape, Count.values]) (by simp [broadcastTo]) rfl (plane_onSurface _)
  refine ⟨rv, h1, h2.size, ?_, fun hw => ?_⟩
  · have := straight_above h2 (i := 0) (p := (1 * Real.cos 4, 1 * Real.sin 4)) (f := 1) rfl rfl
    simpa using this
  · have := h2.size.symm.trans hw.size
    rw [spokesSpec_length, spokesSpec_length] at this
    simp [equalAzimuths] at this

/-- Non-vacuity: three rings on four spokes. -/
example (lg : ℤ → Except PyErr (List Dbl × List Dbl)) :
    ∃ rv, asSpokes lg straightArgs (some (Dbl.fin 2)) (Dbl.fin 1) (some (.num 4)) (some (.num 3)) "uniform" (Dbl.fin 1) = .ok (some rv) ∧
      rv.rays.length = 12 := by
  obtain ⟨rv, h1, h2⟩ := C45_uniform_partial straight_legal lg 2 1 1 (k := 3) (m := 4) (by omega) (by omega) (plane_onSurface _)
  exact ⟨rv, h1, by rw [h2.size, spokesSpec_length]; simp [equalAzimuths, equalRadii]⟩

/-- **C43** (asGrid with `nrandom`): the rays are a plane wave through the points drawn, sheared by the sides. -/
theorem C43_random_partial (h : LegalCall a surf stop cs n w back d) {nx : ℤ} {lx ly : ℝ} (draws : List (ℝ × ℝ))
    (hs : OnSurface surf (draws.map fun p => (lx * p.1, ly * p.2))) (flux : ℝ) :
    ∃ rv, asGrid a ⟨some nx, none, none, none, some (.num (Dbl.fin lx)), some (.num (Dbl.fin ly))⟩
        (some (draws.map fun p => (Dbl.fin p.1, Dbl.fin p.2))) (Dbl.fin flux) = .ok (some rv) ∧
      PlaneWave surf stop cs n w back d (draws.map fun p => (lx * p.1, ly * p.2)) (List.replicate draws.length flux) rv := by
  obtain ⟨med, hsay, hmed⟩ := h.meaning
  obtain ⟨rv, h1, h2⟩ := launch_flat (back := back) h.stop h.cs h.n hmed h.d _ flux hs
  rw [List.length_map] at h2
  refine ⟨rv, ?_, h2⟩
  have hp : gridPoints (nx, nx, .num (Dbl.fin lx), .num (Dbl.fin ly)) (some (draws.map fun p => (Dbl.fin p.1, Dbl.fin p.2))) =
      .ok ((draws.map fun p => (lx * p.1, ly * p.2)).map fun p => (Dbl.fin p.1, Dbl.fin p.2)) := by
    simp only [gridPoints, bind, Except.bind, List.map_map]
    refine congrArg _ (List.map_congr_left fun p _ => ?_)
    simp [shear, Ext.alongX, Ext.alongY]
  rw [asGrid_eq (lx := some (.num (Dbl.fin lx))) (by unfold gridLength; cases a.optic <;> rfl) (setup_says hsay true)
    (show gridShape _ = .ok (nx, nx, .num (Dbl.fin lx), .num (Dbl.fin ly)) from rfl) hp]
  exact h1

end Batoid.Props
