import Verif.Props.Fits

/-!
# The derivatives of the focal plane coordinates (C89)

`drdth` holds the difference quotients of the centroid of the spot; `dthdr` is its inverse; `focalLength` is the root of its determinant.
-/

namespace Batoid.Props
open Batoid Batoid.Surface Batoid.Analysis Batoid.Construct

/-- The indices of the rays that are not vignetted. -/
def litAt (rays : List (Ray Dbl)) : Finset ℕ := (Finset.range rays.length).filter fun i => ∃ r, rays[i]? = some r ∧ r.vignetted = false

/-- The mean over some indices. -/
noncomputable def meanOver (lit : Finset ℕ) (X : ℕ → ℝ) : ℝ := (∑ i ∈ lit, X i) / lit.card

theorem lit_mean {l nominal : List (Ray Dbl)} (hlen : l.length = nominal.length) (g : Ray Dbl → Dbl) {X : ℕ → ℝ} (hne : (litAt nominal).Nonempty)
    (hX : ∀ i ∈ litAt nominal, ∃ r, l[i]? = some r ∧ g r = Dbl.fin (X i)) :
    mean ((((l.zip nominal).filter fun p => !p.2.vignetted).map (·.1)).map g) = Dbl.fin (meanOver (litAt nominal) X) := by
  obtain ⟨i0, h0⟩ := hne
  obtain ⟨-, r0, -, -⟩ := Finset.mem_filter.1 h0
  have hz : l.zip nominal = (List.range nominal.length).map fun i => (l.getD i r0, nominal.getD i r0) := by
    apply List.ext_getElem
    · simp [hlen]
    · intro i h1 h2
      have h3 : i < l.length := by simp at h1; omega
      have h4 : i < nominal.length := by omega
      simp [List.getD_eq_getElem?_getD, h3, h4]
  have hp : ∀ i ∈ List.range nominal.length, ((!(nominal.getD i r0).vignetted) = true ↔ i ∈ litAt nominal) := by
    intro i hi
    have hi := List.mem_range.1 hi
    unfold litAt
    rw [Finset.mem_filter]
    simp [hi, List.getD_eq_getElem?_getD]
  have hfin : ((List.range nominal.length).filter fun i => !(nominal.getD i r0).vignetted).toFinset = litAt nominal := by
    ext i
    rw [List.mem_toFinset, List.mem_filter]
    constructor
    · rintro ⟨a, b⟩
      exact (hp i a).1 b
    · intro h
      have : i ∈ List.range nominal.length := by
        have := (Finset.mem_filter.1 h).1
        simpa using this
      exact ⟨this, (hp i this).2 h⟩
  have hnd : ((List.range nominal.length).filter fun i => !(nominal.getD i r0).vignetted).Nodup := List.Nodup.filter _ List.nodup_range
  have hmap : (((l.zip nominal).filter fun p => !p.2.vignetted).map (·.1)).map g =
      (((List.range nominal.length).filter fun i => !(nominal.getD i r0).vignetted).map X).map Dbl.fin := by
    rw [hz, List.filter_map, List.map_map, List.map_map, List.map_map]
    apply List.map_congr_left
    intro i hi
    have hm : i ∈ litAt nominal := by
      rw [← hfin, List.mem_toFinset]
      exact hi
    obtain ⟨r, h1, h2⟩ := hX i hm
    simp [List.getD_eq_getElem?_getD, h1, h2]
  rw [hmap, mean_fin]
  · unfold meanOver
    rw [← hfin, List.sum_toFinset _ hnd, List.card_toFinset, hnd.dedup, List.length_map]
  · intro h
    have : i0 ∈ (∅ : Finset ℕ) := by
      rw [← hfin] at h0
      rw [List.map_eq_nil_iff] at h
      rw [h] at h0
      simpa using h0
    simp at this

/-- Rays traced together go where they go alone. -/
theorem trace_three (s : System Dbl) {r0 r1 r2 : RayVec Dbl} {c : CoordSys Dbl} (h0 : r0.coordSys = c) (h1 : r1.coordSys = c) (h2 : r2.coordSys = c) :
    ∃ all, RayVec.concatenate [r0, r1, r2] = .ok all ∧ (s.trace all).rays = (s.trace r0).rays ++ (s.trace r1).rays ++ (s.trace r2).rays := by
  obtain ⟨g, c', hg⟩ := trace_map s.niter false s.optic c
  have e : ∀ rays, s.trace ⟨rays, c⟩ = ⟨rays.map g, c'⟩ := hg
  have f : ∀ r : RayVec Dbl, r.coordSys = c → (s.trace r).rays = r.rays.map g := by
    rintro ⟨rays, _⟩ rfl
    rw [e]
  refine ⟨_, rfl, ?_⟩
  rw [f _ h0, f _ h1, f _ h2, f _ (by exact h0)]
  simp

variable {s : System Dbl} {surf : Surface Dbl} {stop cs m : CoordSys ℝ} {n w back pupil inner x y f σ : ℝ} {d0 d1 d2 : V3 ℝ} {projection : String}
  {nrad naz : ℕ}

/-- **C89**: the entries of `drdth` are the difference quotients, with the step 1e-5, of the mean position on the focal plane of the rays that are
not vignetted at the nominal field angle; the rays of the three field angles are traced as if they were alone. -/
theorem C89_differences (h : LegalSystem s surf stop cs n w back pupil) (hp : 0 < pupil) (hi : PupilInner s pupil inner) (hr : 0 < nrad)
    (hs : OnSurface surf (polarPoints pupil inner nrad naz)) (junk : ℕ → Dbl)
    (h0 : FieldAngle (Dbl.fin x) (Dbl.fin y) projection d0) (h1 : FieldAngle (Dbl.fin (x + 1 / 100000)) (Dbl.fin y) projection d1)
    (h2 : FieldAngle (Dbl.fin x) (Dbl.fin (y + 1 / 100000)) projection d2) :
    ∃ r0 r1 r2 : RayVec Dbl,
      (∀ p ∈ [(d0, r0), (d1, r1), (d2, r2)], PlaneWave surf stop cs n w back p.1 (polarPoints pupil inner nrad naz)
        (List.replicate (polarPoints pupil inner nrad naz).length 1) p.2) ∧
      ∀ X0 X1 X2 Y0 Y1 Y2 : ℕ → ℝ, (litAt (s.trace r0).rays).Nonempty →
        (∀ i ∈ litAt (s.trace r0).rays, ∀ p ∈ [(r0, X0, Y0), (r1, X1, Y1), (r2, X2, Y2)], ∃ ray, (s.trace p.1).rays[i]? = some ray ∧
          ray.r.x = Dbl.fin (p.2.1 i) ∧ ray.r.y = Dbl.fin (p.2.2 i)) →
        drdth junk s (Dbl.fin x) (Dbl.fin y) (Dbl.fin w) nrad naz projection = .ok
          ⟨Dbl.fin ((meanOver (litAt (s.trace r0).rays) X1 - meanOver (litAt (s.trace r0).rays) X0) / (1 / 100000)),
           Dbl.fin ((meanOver (litAt (s.trace r0).rays) X2 - meanOver (litAt (s.trace r0).rays) X0) / (1 / 100000)),
           Dbl.fin ((meanOver (litAt (s.trace r0).rays) Y1 - meanOver (litAt (s.trace r0).rays) Y0) / (1 / 100000)),
           Dbl.fin ((meanOver (litAt (s.trace r0).rays) Y2 - meanOver (litAt (s.trace r0).rays) Y0) / (1 / 100000))⟩ := by
  obtain ⟨r0, a0, b0⟩ := polarFor_wave h h0.legal hp hi hr junk hs (naz := naz)
  obtain ⟨r1, a1, b1⟩ := polarFor_wave h h1.legal hp hi hr junk hs (naz := naz)
  obtain ⟨r2, a2, b2⟩ := polarFor_wave h h2.legal hp hi hr junk hs (naz := naz)
  refine ⟨r0, r1, r2, by simp [b0, b1, b2], fun X0 X1 X2 Y0 Y1 Y2 hne hX => ?_⟩
  obtain ⟨all, c1, c2⟩ := trace_three s b0.frame b1.frame b2.frame
  have l0 : (s.trace r0).rays.length = r0.rays.length := trace_size s r0
  have l1 : (s.trace r1).rays.length = r0.rays.length := by rw [trace_size, b1.size, b0.size]
  have l2 : (s.trace r2).rays.length = r0.rays.length := by rw [trace_size, b2.size, b0.size]
  have hdth : (Arith.const (1 / 100000) : Dbl) = Dbl.fin (1 / 100000) := by
    rw [Dbl.const_dbl]; norm_num
  have t0 : (s.trace all).rays.take r0.rays.length = (s.trace r0).rays := by
    rw [c2, List.append_assoc, ← l0, List.take_left]
  have t1 : ((s.trace all).rays.drop r0.rays.length).take r0.rays.length = (s.trace r1).rays := by
    rw [c2, List.append_assoc]
    conv_lhs => rw [← l0, List.drop_left, l0, ← l1, List.take_left]
  have t2 : ((s.trace all).rays.drop (2 * r0.rays.length)).take r0.rays.length = (s.trace r2).rays := by
    have : 2 * r0.rays.length = ((s.trace r0).rays ++ (s.trace r1).rays).length := by rw [List.length_append, l0, l1]; ring
    rw [c2, this, List.drop_left, ← l2, List.take_length]
  have e0 := fun i hi => hX i hi _ (List.mem_cons_self)
  have e1 := fun i hi => hX i hi (r1, X1, Y1) (by simp)
  have e2 := fun i hi => hX i hi (r2, X2, Y2) (by simp)
  have hnz : (1 / 100000 : ℝ) ≠ 0 := by norm_num
  unfold drdth
  simp only [hdth, Dbl.add_fin, h0.dir, h1.dir, h2.dir, Bind.bind, Except.bind, a0, a1, a2, c1]
  unfold meansOf
  simp only [t0, t1, t2]
  rw [lit_mean rfl (·.r.x) hne fun i hi => ⟨_, (e0 i hi).choose_spec.1, (e0 i hi).choose_spec.2.1⟩,
    lit_mean rfl (·.r.y) hne fun i hi => ⟨_, (e0 i hi).choose_spec.1, (e0 i hi).choose_spec.2.2⟩,
    lit_mean (l1.trans l0.symm) (·.r.x) hne fun i hi => ⟨_, (e1 i hi).choose_spec.1, (e1 i hi).choose_spec.2.1⟩,
    lit_mean (l1.trans l0.symm) (·.r.y) hne fun i hi => ⟨_, (e1 i hi).choose_spec.1, (e1 i hi).choose_spec.2.2⟩,
    lit_mean (l2.trans l0.symm) (·.r.x) hne fun i hi => ⟨_, (e2 i hi).choose_spec.1, (e2 i hi).choose_spec.2.1⟩,
    lit_mean (l2.trans l0.symm) (·.r.y) hne fun i hi => ⟨_, (e2 i hi).choose_spec.1, (e2 i hi).choose_spec.2.2⟩]
  simp only [Dbl.sub_fin, Dbl.div_fin hnz]

theorem polarPoints_pos (hr : 0 < nrad) : 0 < (polarPoints pupil inner nrad naz).length := by
  obtain ⟨k, rfl⟩ : ∃ k, nrad = k + 1 := ⟨nrad - 1, by omega⟩
  have h : 0 < ringPoints (pupil / 2) inner (k + 1) naz 6 0 := by
    unfold ringPoints
    split
    · exact one_pos
    · exact lt_of_lt_of_le (by norm_num) (le_max_left _ _)
  unfold polarPoints hexRings
  rw [List.range_succ_eq_map, List.map_cons, List.flatMap_cons, List.length_append]
  have : (ringXY (ringRadius (pupil / 2) inner (k + 1) 0) (ringPoints (pupil / 2) inner (k + 1) naz 6 0)).length =
      ringPoints (pupil / 2) inner (k + 1) naz 6 0 := by simp [ringXY]
  simp only [this]
  omega

/-- **C89**: for a camera without lens the mean drops out, and the derivatives are those of the slopes of the directions. -/
theorem C89_camera {det : Iface Dbl} (h : LegalSystem s plane m cs n w back pupil) (hsc : Screen s f m σ det) (hp : 0 < pupil)
    (hi : PupilInner s pupil inner) (hr : 0 < nrad) (junk : ℕ → Dbl)
    (h0 : FieldAngle (Dbl.fin x) (Dbl.fin y) projection d0) (h1 : FieldAngle (Dbl.fin (x + 1 / 100000)) (Dbl.fin y) projection d1)
    (h2 : FieldAngle (Dbl.fin x) (Dbl.fin (y + 1 / 100000)) projection d2) {u0 u1 u2 : V3 ℝ}
    (e0 : m.rot.tr.mulVec (cs.rot.mulVec d0) = u0) (e1 : m.rot.tr.mulVec (cs.rot.mulVec d1) = u1) (e2 : m.rot.tr.mulVec (cs.rot.mulVec d2) = u2)
    (z0 : u0.z ≠ 0) (z1 : u1.z ≠ 0) (z2 : u2.z ≠ 0) :
    drdth junk s (Dbl.fin x) (Dbl.fin y) (Dbl.fin w) nrad naz projection = .ok
      ⟨Dbl.fin (-f * (u1.x / u1.z - u0.x / u0.z) / (1 / 100000)), Dbl.fin (-f * (u2.x / u2.z - u0.x / u0.z) / (1 / 100000)),
       Dbl.fin (-f * σ * (u1.y / u1.z - u0.y / u0.z) / (1 / 100000)), Dbl.fin (-f * σ * (u2.y / u2.z - u0.y / u0.z) / (1 / 100000))⟩ := by
  obtain ⟨r0, r1, r2, hw, key⟩ := C89_differences h hp hi hr (plane_onSurface _) junk h0 h1 h2 (naz := naz)
  have w0 := hw (d0, r0) (by simp)
  have w1 := hw (d1, r1) (by simp)
  have w2 := hw (d2, r2) (by simp)
  have hlit : litAt (s.trace r0).rays = Finset.range (polarPoints pupil inner nrad naz).length := by
    unfold litAt
    rw [trace_size, w0.size]
    refine Finset.filter_true_of_mem fun i hi => ?_
    have hi := Finset.mem_range.1 hi
    obtain ⟨out, k1, -, k2, -⟩ := screen_wave hsc h.stop h.cs e0 z0 (by simp) w0 (List.getElem?_eq_getElem hi)
    exact ⟨out, k1, k2⟩
  have hpos := polarPoints_pos (pupil := pupil) (inner := inner) (naz := naz) hr
  have hmean : ∀ (X : ℕ → ℝ) (a b : ℝ), meanOver (Finset.range (polarPoints pupil inner nrad naz).length) (fun i => b * (X i - a)) =
      b * (meanOver (Finset.range (polarPoints pupil inner nrad naz).length) X - a) := by
    intro X a b
    have hc : ((polarPoints pupil inner nrad naz).length : ℝ) ≠ 0 := by exact_mod_cast hpos.ne'
    unfold meanOver
    rw [← Finset.mul_sum, Finset.sum_sub_distrib, Finset.sum_const, Finset.card_range, nsmul_eq_mul]
    field_simp
  rw [key (fun i => 1 * (((polarPoints pupil inner nrad naz).getD i (0, 0)).1 - f * (u0.x / u0.z)))
    (fun i => 1 * (((polarPoints pupil inner nrad naz).getD i (0, 0)).1 - f * (u1.x / u1.z)))
    (fun i => 1 * (((polarPoints pupil inner nrad naz).getD i (0, 0)).1 - f * (u2.x / u2.z)))
    (fun i => σ * (((polarPoints pupil inner nrad naz).getD i (0, 0)).2 - f * (u0.y / u0.z)))
    (fun i => σ * (((polarPoints pupil inner nrad naz).getD i (0, 0)).2 - f * (u1.y / u1.z)))
    (fun i => σ * (((polarPoints pupil inner nrad naz).getD i (0, 0)).2 - f * (u2.y / u2.z)))
    (by rw [hlit]; exact ⟨0, Finset.mem_range.2 hpos⟩)]
  · rw [hlit]
    simp only [hmean]
    congr 2 <;> · congr 1; ring
  · intro i hi p hp
    rw [hlit] at hi
    have hi := Finset.mem_range.1 hi
    have hg := List.getElem?_eq_getElem hi
    obtain ⟨o0, a0, -, -, b0, -⟩ := screen_wave hsc h.stop h.cs e0 z0 (by simp) w0 hg
    obtain ⟨o1, a1, -, -, b1, -⟩ := screen_wave hsc h.stop h.cs e1 z1 (by simp) w1 hg
    obtain ⟨o2, a2, -, -, b2, -⟩ := screen_wave hsc h.stop h.cs e2 z2 (by simp) w2 hg
    simp only [List.mem_cons, List.not_mem_nil, or_false] at hp
    rcases hp with rfl | rfl | rfl
    · exact ⟨o0, a0, by rw [b0]; simp [List.getD_eq_getElem?_getD, hg], by rw [b0]; simp [List.getD_eq_getElem?_getD, hg]⟩
    · exact ⟨o1, a1, by rw [b1]; simp [List.getD_eq_getElem?_getD, hg], by rw [b1]; simp [List.getD_eq_getElem?_getD, hg]⟩
    · exact ⟨o2, a2, by rw [b2]; simp [List.getD_eq_getElem?_getD, hg], by rw [b2]; simp [List.getD_eq_getElem?_getD, hg]⟩

/-- **C89**: with the gnomonic projection the derivative of a camera of the focal length `f` is `f` times the identity (with the y axis of the
detector reversed, `f` and `-f`), exactly and at every field angle. -/
theorem C89_gnomonic {det : Iface Dbl} (h : LegalSystem s plane m cs n w back pupil) (hsc : Screen s f m σ det) (hp : 0 < pupil)
    (hi : PupilInner s pupil inner) (hr : 0 < nrad) (junk : ℕ → Dbl) (hpar : m.rot = cs.rot) :
    drdth junk s (Dbl.fin x) (Dbl.fin y) (Dbl.fin w) nrad naz "gnomonic" = .ok ⟨Dbl.fin f, Dbl.fin 0, Dbl.fin 0, Dbl.fin (σ * f)⟩ := by
  have e : ∀ d, m.rot.tr.mulVec (cs.rot.mulVec d) = d := fun d => by rw [hpar, h.cs.tr_mulVec]
  obtain ⟨z0, x0, y0⟩ := gnomonic_slope x y
  obtain ⟨z1, x1, y1⟩ := gnomonic_slope (x + 1 / 100000) y
  obtain ⟨z2, x2, y2⟩ := gnomonic_slope x (y + 1 / 100000)
  rw [C89_camera h hsc hp hi hr junk (gnomonic_field _ _) (gnomonic_field _ _) (gnomonic_field _ _) (e _) (e _) (e _) z0 z1 z2, x0, y0, x1, y1, x2, y2]
  congr 2 <;> · congr 1; ring

/-- **C89**: the focal length is the root of the determinant, where that is not negative. -/
theorem C89_focalLength {junk : ℕ → Dbl} {thx thy : Dbl} {wl : Dbl} {a b c e : ℝ} {k l : ℤ}
    (h : drdth junk s thx thy wl k l projection = .ok ⟨Dbl.fin a, Dbl.fin b, Dbl.fin c, Dbl.fin e⟩) (hd : 0 ≤ a * e - b * c) :
    ∃ fl, focalLength junk s thx thy wl k l projection = .ok (Dbl.fin fl) ∧ 0 ≤ fl ∧ fl ^ 2 = (!![a, b; c, e] : Matrix (Fin 2) (Fin 2) ℝ).det := by
  refine ⟨Real.sqrt (a * e - b * c), ?_, Real.sqrt_nonneg _, ?_⟩
  · unfold focalLength
    simp only [h, Bind.bind, Except.bind, M2.det, Dbl.mul_fin, Dbl.sub_fin, Dbl.sqrt_fin hd]
  · rw [Real.sq_sqrt hd, Matrix.det_fin_two_of]

/-- **C89**: the focal length of the camera is its focal length. -/
theorem C89_camera_focalLength {det : Iface Dbl} (h : LegalSystem s plane m cs n w back pupil) (hsc : Screen s f m 1 det) (hp : 0 < pupil) (hf : 0 < f)
    (hi : PupilInner s pupil inner) (hr : 0 < nrad) (junk : ℕ → Dbl) (hpar : m.rot = cs.rot) :
    focalLength junk s (Dbl.fin x) (Dbl.fin y) (Dbl.fin w) nrad naz "gnomonic" = .ok (Dbl.fin f) := by
  have h1 := C89_gnomonic h hsc hp hi hr junk hpar (x := x) (y := y) (naz := naz)
  obtain ⟨fl, h2, h3, h4⟩ := C89_focalLength h1 (by nlinarith)
  rw [Matrix.det_fin_two_of] at h4
  rw [h2, show fl = f by nlinarith]

/-- **C89**, the defect: a camera whose detector has the y axis reversed has no focal length; the determinant is negative. -/
theorem C89_reversed_violated {det : Iface Dbl} (h : LegalSystem s plane m cs n w back pupil) (hsc : Screen s f m (-1) det) (hp : 0 < pupil) (hf : 0 < f)
    (hi : PupilInner s pupil inner) (hr : 0 < nrad) (junk : ℕ → Dbl) (hpar : m.rot = cs.rot) :
    focalLength junk s (Dbl.fin x) (Dbl.fin y) (Dbl.fin w) nrad naz "gnomonic" = .ok Dbl.nan := by
  have h1 := C89_gnomonic h hsc hp hi hr junk hpar (x := x) (y := y) (naz := naz)
  have hd : f * (-1 * f) - 0 * 0 < 0 := by nlinarith
  unfold focalLength
  simp only [h1, Bind.bind, Except.bind, M2.det, Dbl.mul_fin, Dbl.sub_fin]
  simp [Arith.sqrt, Dbl.sqrt, hd, hf.ne']

/-- **C89**: `dthdr` is the inverse matrix of `drdth`, and there is an error if there is none. -/
theorem C89_inverse {junk : ℕ → Dbl} {thx thy : Dbl} {wl : Dbl} {a b c e : ℝ} {k l : ℤ}
    (h : drdth junk s thx thy wl k l projection = .ok ⟨Dbl.fin a, Dbl.fin b, Dbl.fin c, Dbl.fin e⟩) :
    (∃ a' b' c' e' : ℝ, dthdr junk s thx thy wl k l projection = .ok ⟨Dbl.fin a', Dbl.fin b', Dbl.fin c', Dbl.fin e'⟩ ∧
      (!![a', b'; c', e'] : Matrix (Fin 2) (Fin 2) ℝ) * !![a, b; c, e] = 1) ∨
    (dthdr junk s thx thy wl k l projection = .error .valueError ∧ ¬ ∃ B : Matrix (Fin 2) (Fin 2) ℝ, B * !![a, b; c, e] = 1) := by
  by_cases hd : a * e - b * c = 0
  · right
    constructor
    · unfold dthdr M2.inv
      simp only [h, Bind.bind, Except.bind, M2.det, Dbl.mul_fin, Dbl.sub_fin, Dbl.zero_dbl, Dbl.eq_fin, hd]
      simp
    · rintro ⟨B, hB⟩
      have := congrArg Matrix.det hB
      rw [Matrix.det_mul, Matrix.det_fin_two_of, hd, mul_zero, Matrix.det_one] at this
      exact zero_ne_one this
  · left
    refine ⟨e / (a * e - b * c), -b / (a * e - b * c), -c / (a * e - b * c), a / (a * e - b * c), ?_, ?_⟩
    · unfold dthdr M2.inv
      simp only [h, Bind.bind, Except.bind, M2.det, Dbl.mul_fin, Dbl.sub_fin, Dbl.zero_dbl, Dbl.eq_fin, hd, decide_false, Bool.false_eq_true, if_false,
        Dbl.neg_fin, Dbl.div_fin hd]
    · generalize hD : a * e - b * c = D at hd
      ext i j
      fin_cases i <;> fin_cases j <;> simp [Matrix.mul_apply, Fin.sum_univ_two] <;> field_simp <;> linarith

/-- A screen 5 behind a stop of diameter 4, with the y and z axes reversed. -/
noncomputable def frontCamera : System Dbl :=
  { camera with optic := demoComp "T" [.iface { demoFlat "D" (-5) with coordSys := (⟨⟨0, 0, -5⟩, ⟨1, 0, 0, 0, -1, 0, 0, 0, -1⟩⟩ : CoordSys ℝ).fin }] }

theorem frontCamera_optic : ∃ det, Screen frontCamera 5 (CoordSys.std ℝ) (-1) det := by
  refine ⟨_, ⟨⟨_, rfl⟩, ⟨⟨1, 0, 0, 0, -1, 0, 0, 0, -1⟩, ⟨rfl, rfl, rfl, ?_, ?_⟩, ?_⟩, .inr rfl, rfl⟩⟩
  · rw [std_toGlobal]
  · constructor <;> norm_num [V3.dot, M3.one]
  · intro v
    ext <;> simp [M3.mulVec, V3.dot, M3.tr, CoordSys.std, M3.one]

theorem frontCamera_legal : LegalSystem frontCamera Surface.plane (CoordSys.std ℝ) globalFrame 1 (1 / 2) 30 4 :=
  ⟨rfl, ⟨_, rfl, rfl⟩, rfl, rfl, rfl, std_orth, globalFrame_orth, one_pos⟩

/-- The camera of focal length 5: derivative 5, focal length 5, inverse 1/5. -/
example (junk : ℕ → Dbl) (x y : ℝ) :
    drdth junk camera (Dbl.fin x) (Dbl.fin y) (Dbl.fin (1 / 2)) (6 : ℕ) (36 : ℕ) "gnomonic" = .ok ⟨Dbl.fin 5, Dbl.fin 0, Dbl.fin 0, Dbl.fin 5⟩ ∧
    focalLength junk camera (Dbl.fin x) (Dbl.fin y) (Dbl.fin (1 / 2)) (6 : ℕ) (36 : ℕ) "gnomonic" = .ok (Dbl.fin 5) := by
  have hp : (CoordSys.std ℝ).rot = globalFrame.rot := rfl
  refine ⟨?_, C89_camera_focalLength camera_legal camera_optic (by norm_num) (by norm_num) camera_inner (by norm_num) junk hp⟩
  rw [C89_gnomonic camera_legal camera_optic (by norm_num) camera_inner (by norm_num) junk hp]
  norm_num

/-- The defect is there. -/
example (junk : ℕ → Dbl) (x y : ℝ) :
    focalLength junk frontCamera (Dbl.fin x) (Dbl.fin y) (Dbl.fin (1 / 2)) (6 : ℕ) (36 : ℕ) "gnomonic" = .ok Dbl.nan := by
  obtain ⟨det, h⟩ := frontCamera_optic
  exact C89_reversed_violated frontCamera_legal h (by norm_num) (by norm_num) (inner := 0) (.inr ⟨rfl, rfl⟩) (by norm_num) junk rfl

end Batoid.Props
