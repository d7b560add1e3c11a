import Verif.Props.Newtonian

/-!
# Spot diagrams and the Huygens PSF (C76, C77)
-/

namespace Batoid.Props
open Batoid Batoid.Analysis Batoid.Construct

/-! ## Spots -/

/-- The rays that got through are at finite places. -/
def Landed (rays : List (Ray Dbl)) : Prop := ∀ ray ∈ rays, ray.vignetted = false → ∃ r : V3 ℝ, ray.r = r.fin

/-- The places of the rays that got through. -/
noncomputable def landings (rays : List (Ray Dbl)) : List (V3 ℝ) :=
  (rays.filter fun ray => !ray.vignetted).map fun ray => ray.r.map realPart

theorem realPart_fin (p : V3 ℝ) : p.fin.map realPart = p := rfl

/-- The point that spots are measured from. -/
def SpotOrigin (ref : Reference) (nx : ℕ) (rays : List (Ray Dbl)) (P : V3 ℝ) : Prop :=
  match ref with
  | .chief => ∃ ray, rays[nx / 2 * nx + nx / 2]? = some ray ∧ ray.r = P.fin
  | .mean => landings rays ≠ [] ∧ P = centroid (landings rays)
  | .other => P = ⟨0, 0, 0⟩

theorem landings_map {rays : List (Ray Dbl)} (h : Landed rays) : (clear rays).map (·.r) = (landings rays).map V3.fin := by
  unfold landings
  rw [List.map_map]
  refine List.map_congr_left fun ray hray => ?_
  rw [clear, List.mem_filter] at hray
  obtain ⟨r, hr⟩ := h ray hray.1 (by simpa using hray.2)
  simp [hr, realPart_fin]

variable {s : System Dbl} {thx thy wl : Dbl} {projection : String} {nx : ℕ} {rv : RayVec Dbl} {out : CoordSys ℝ} {P : V3 ℝ} {ref : Reference}

/-- **C76**: for every system, field angle and number of rays, `spot` returns one point for every ray that is not vignetted, in
order: its place on the last surface minus the place of the chief ray, or minus the mean place, or minus nothing. -/
theorem C76_spot (hrv : startGrid s thx thy wl projection nx = .ok rv) (ho : out.rot.Orth) (hf : (s.trace rv).coordSys = out.fin)
    (hl : Landed (s.trace rv).rays) (hP : SpotOrigin ref nx (s.trace rv).rays P) :
    spot s thx thy wl projection nx ref = .ok ((landings (s.trace rv).rays).map fun r => (Dbl.fin (r.x - P.x), Dbl.fin (r.y - P.y))) := by
  have hpt : (match ref with
    | .other => (.ok ⟨0, 0, 0⟩ : Except PyErr (V3 Dbl))
    | _ => refPoint ref nx (s.trace rv).rays) = .ok P.fin := by
    cases ref with
    | other => obtain rfl : P = ⟨0, 0, 0⟩ := hP; rw [origin_fin]
    | mean =>
      obtain ⟨h1, rfl⟩ := hP
      simp only [refPoint]
      rw [landings_map hl, meanV_fin h1]
    | chief =>
      obtain ⟨ray, h1, h2⟩ := hP
      simp only [refPoint]
      rw [chiefIndex_eq, item_nat h1]
      simp only [Except.map]
      rw [h2]
  have key : (clear ((s.trace rv).toCoordSys ((s.trace rv).coordSys.shiftLocal P.fin)).rays).map (fun ray => (ray.r.x, ray.r.y)) =
      (landings (s.trace rv).rays).map fun r => (Dbl.fin (r.x - P.x), Dbl.fin (r.y - P.y)) := by
    generalize s.trace rv = tr at *
    obtain ⟨rays, c⟩ := tr
    simp only at hf hl
    subst hf
    clear hrv hP hpt
    unfold landings clear RayVec.toCoordSys RayVec.applyForward
    simp only [shiftLocal_fin]
    induction rays with
    | nil => rfl
    | cons ray rays ih =>
      have ih := ih fun x hx => hl x (List.mem_cons_of_mem _ hx)
      have hvig : (Ray.forward (CoordTransform.make out.fin (out.shiftLocal P).fin) ray).vignetted = ray.vignetted := rfl
      rw [List.map_cons, List.filter_cons, List.filter_cons, hvig]
      by_cases hv : ray.vignetted = true
      · simp only [hv, Bool.not_true, Bool.false_eq_true, if_false]; exact ih
      · rw [Bool.not_eq_true] at hv
        obtain ⟨r, h2⟩ := hl ray List.mem_cons_self hv
        simp only [hv, Bool.not_false, if_true, List.map_cons]
        rw [ih]
        congr 1
        unfold Ray.forward
        rw [h2]
        simp only
        rw [CoordTransform.forward_fin, shift_forward ho, realPart_fin]
        simp
  unfold spot
  rw [hrv]
  cases ref <;> simp only at hpt <;> simp only [bind, Except.bind] <;> try rw [hpt]
  · simp only [key]
  · simp only [key]
  · rw [Except.ok.injEq] at hpt
    rw [hpt]
    simp only [key]

/-- The number of points is the number of rays that are not vignetted. -/
theorem C76_count (hrv : startGrid s thx thy wl projection nx = .ok rv) (ho : out.rot.Orth) (hf : (s.trace rv).coordSys = out.fin)
    (hl : Landed (s.trace rv).rays) (hP : SpotOrigin ref nx (s.trace rv).rays P) :
    ∃ pts, spot s thx thy wl projection nx ref = .ok pts ∧ pts.length = (s.trace rv).rays.countP fun ray => !ray.vignetted :=
  ⟨_, C76_spot hrv ho hf hl hP, by simp [landings, List.countP_eq_length_filter]⟩

/-- Around the mean the points balance. -/
theorem C76_mean (hrv : startGrid s thx thy wl projection nx = .ok rv) (ho : out.rot.Orth) (hf : (s.trace rv).coordSys = out.fin)
    (hl : Landed (s.trace rv).rays) (hne : ∃ ray ∈ (s.trace rv).rays, ray.vignetted = false) :
    ∃ pts : List (ℝ × ℝ), spot s thx thy wl projection nx .mean = .ok (pts.map fun p => (Dbl.fin p.1, Dbl.fin p.2)) ∧
      (pts.map Prod.fst).sum = 0 ∧ (pts.map Prod.snd).sum = 0 := by
  have hne' : landings (s.trace rv).rays ≠ [] := by
    obtain ⟨ray, h1, h2⟩ := hne
    exact List.ne_nil_of_mem (List.mem_map_of_mem (List.mem_filter.mpr ⟨h1, by simp [h2]⟩))
  refine ⟨(landings (s.trace rv).rays).map fun r => (r.x - (centroid (landings (s.trace rv).rays)).x, r.y - (centroid (landings (s.trace rv).rays)).y),
    ?_, ?_, ?_⟩
  · rw [C76_spot (ref := .mean) hrv ho hf hl ⟨hne', rfl⟩, List.map_map]; rfl
  all_goals
    generalize landings (s.trace rv).rays = l at *
    have hlen : (l.length : ℝ) ≠ 0 := by
      have := List.length_pos_iff.mpr hne'
      exact_mod_cast this.ne'
    have hsum : ∀ (f : V3 ℝ → ℝ) (a : ℝ), (l.map fun r => f r - a).sum = (l.map f).sum - l.length * a := by
      intro f a
      clear hne' hlen
      induction l with
      | nil => simp
      | cons x l ih => simp only [List.map_cons, List.sum_cons, ih, List.length_cons]; push_cast; ring
    rw [List.map_map]
    simp only [Function.comp_def]
    rw [hsum]
    simp only [centroid]
    rw [mul_div_cancel₀ _ hlen, sub_self]

/-- Around an unvignetted chief ray, the chief ray is at the origin. -/
theorem C76_chief (hrv : startGrid s thx thy wl projection nx = .ok rv) (ho : out.rot.Orth) (hf : (s.trace rv).coordSys = out.fin)
    (hl : Landed (s.trace rv).rays) {ray : Ray Dbl} (hc : (s.trace rv).rays[nx / 2 * nx + nx / 2]? = some ray) (hv : ray.vignetted = false) :
    ∃ pts, spot s thx thy wl projection nx .chief = .ok pts ∧
      pts[((s.trace rv).rays.take (nx / 2 * nx + nx / 2)).countP fun ray => !ray.vignetted]? = some (Dbl.fin 0, Dbl.fin 0) := by
  obtain ⟨r, hr⟩ := hl ray (List.mem_of_getElem? hc) hv
  refine ⟨_, C76_spot (P := r) hrv ho hf hl ⟨ray, hc, hr⟩, ?_⟩
  generalize (s.trace rv).rays = rays at *
  have hsplit : rays = rays.take (nx / 2 * nx + nx / 2) ++ ray :: rays.drop (nx / 2 * nx + nx / 2 + 1) := by
    obtain ⟨h, rfl⟩ := List.getElem?_eq_some_iff.mp hc
    rw [List.getElem_cons_drop, List.take_append_drop]
  rw [landings]
  conv_lhs => rw [hsplit]
  rw [List.filter_append, List.filter_cons, hv]
  simp only [Bool.not_false, if_true, List.map_append, List.map_cons, hr, realPart_fin, sub_self]
  rw [List.countP_eq_length_filter]
  have hs2 : List.take (nx / 2 * nx + nx / 2) (List.take (nx / 2 * nx + nx / 2) rays ++ ray :: List.drop (nx / 2 * nx + nx / 2 + 1) rays) =
      List.take (nx / 2 * nx + nx / 2) rays := by rw [← hsplit]
  rw [hs2]
  rw [List.getElem?_append_right (by simp)]
  simp

/-! ## Intensity -/

/-- The rays that contribute. -/
def used (rays : List (Ray Dbl)) : List (Ray Dbl) := rays.filter fun ray => !ray.failed && !ray.vignetted

/-- The contributing rays are finite, move, and have the wavelength `w`. -/
def Lit (w : ℝ) (rays : List (Ray Dbl)) : Prop :=
  ∀ ray ∈ used rays, ∃ (r v : V3 ℝ) (t fl : ℝ), ray = finRay r v t w fl false false ∧ v ≠ ⟨0, 0, 0⟩

theorem used_eq (rays : List (Ray Dbl)) : rays.filter (Counted true) = used rays := by
  refine List.filter_congr fun ray _ => ?_
  simp [Counted]

theorem Lit.good {w : ℝ} (hw : w ≠ 0) {rays : List (Ray Dbl)} (h : Lit w rays) : GoodRays true rays := by
  intro ray h1 h2
  obtain ⟨r, v, t, fl, h3, h4⟩ := h ray (by rw [← used_eq]; exact List.mem_filter.mpr ⟨h1, h2⟩)
  exact ⟨r, v, t, w, fl, false, false, h3, h4, hw⟩

/-- The intensity is the absolute square of the sum of the plane waves. -/
theorem C77_intensity {w : ℝ} (hw : w ≠ 0) {rv : RayVec Dbl} (h : Lit w rv.rays) (q : V3 ℝ) (s : ℝ) :
    intensity rv q.fin (Dbl.fin s) = Dbl.fin (‖((used rv.rays).map (waveOf q s)).sum‖ ^ 2) := by
  obtain ⟨z, h1, h2⟩ := C39_sum rv true (h.good hw) q s
  unfold intensity
  simp only [h1, Dbl.mul_fin, Dbl.add_fin]
  rw [h2, used_eq, ← Complex.normSq_eq_norm_sq, Complex.normSq_apply]

theorem wave_shift {r v : V3 ℝ} {t w fl : ℝ} (q : V3 ℝ) (s s' : ℝ) :
    wave r v t w fl q s' = Complex.exp (((2 * Real.pi / w * (s - s') : ℝ) : ℂ) * Complex.I) * wave r v t w fl q s := by
  unfold wave phaseR
  have e : ((2 * Real.pi / w * (V3.dot (q - r) v / V3.dot v v - (s' - t)) : ℝ) : ℂ) =
      ((2 * Real.pi / w * (s - s') : ℝ) : ℂ) + ((2 * Real.pi / w * (V3.dot (q - r) v / V3.dot v v - (s - t)) : ℝ) : ℂ) := by
    push_cast; ring
  rw [e, mul_add, Complex.exp_add]
  ring_nf

theorem waveOf_finRay (r v : V3 ℝ) (t w fl : ℝ) (vig fail : Bool) (q : V3 ℝ) (s : ℝ) : waveOf q s (finRay r v t w fl vig fail) = wave r v t w fl q s := rfl

/-- The time at which the waves are added makes no difference: taking it from the first ray, which may be vignetted, is harmless. -/
theorem C77_time {w : ℝ} (hw : w ≠ 0) {rv : RayVec Dbl} (h : Lit w rv.rays) (q : V3 ℝ) (s s' : ℝ) :
    intensity rv q.fin (Dbl.fin s) = intensity rv q.fin (Dbl.fin s') := by
  rw [C77_intensity hw h, C77_intensity hw h]
  have e : (used rv.rays).map (waveOf q s') = (used rv.rays).map fun ray => Complex.exp (((2 * Real.pi / w * (s - s') : ℝ) : ℂ) * Complex.I) * waveOf q s ray := by
    refine List.map_congr_left fun ray hray => ?_
    obtain ⟨r, v, t, fl, rfl, -⟩ := h ray hray
    rw [waveOf_finRay, waveOf_finRay, wave_shift q s s']
  rw [e, List.sum_map_mul_left, norm_mul, Complex.norm_exp_ofReal_mul_I, one_mul]

/-- The fluxes of the contributing rays. -/
noncomputable def fluxes (rays : List (Ray Dbl)) : List ℝ := (used rays).map fun ray => realPart ray.flux

theorem norm_wave (r v : V3 ℝ) (t w fl : ℝ) (q : V3 ℝ) (s : ℝ) : ‖wave r v t w fl q s‖ = |fl| := by
  unfold wave
  rw [norm_mul, mul_comm Complex.I, Complex.norm_exp_ofReal_mul_I, mul_one, Complex.norm_real, Real.norm_eq_abs]

theorem norm_waveOf (q : V3 ℝ) (s : ℝ) (ray : Ray Dbl) : ‖waveOf q s ray‖ = |realPart ray.flux| := norm_wave ..

/-- No point is brighter than if all waves were in phase. -/
theorem C77_bound {w : ℝ} (hw : w ≠ 0) {rv : RayVec Dbl} (h : Lit w rv.rays) (hfl : ∀ f ∈ fluxes rv.rays, 0 ≤ f) (q : V3 ℝ) (s : ℝ) :
    ∃ I, intensity rv q.fin (Dbl.fin s) = Dbl.fin I ∧ 0 ≤ I ∧ I ≤ (fluxes rv.rays).sum ^ 2 := by
  refine ⟨_, C77_intensity hw h q s, by positivity, ?_⟩
  refine pow_le_pow_left₀ (norm_nonneg _) ?_ 2
  have key : ∀ l : List (Ray Dbl), (∀ f ∈ l.map fun ray => realPart ray.flux, 0 ≤ f) →
      ‖(l.map (waveOf q s)).sum‖ ≤ (l.map fun ray => realPart ray.flux).sum := by
    intro l
    induction l with
    | nil => simp
    | cons a l ih =>
      intro hf
      simp only [List.map_cons, List.sum_cons]
      refine (norm_add_le _ _).trans (add_le_add ?_ (ih fun f hf' => hf f (List.mem_cons_of_mem _ hf')))
      rw [norm_waveOf, abs_of_nonneg (hf _ List.mem_cons_self)]
  exact key _ hfl

/-- Where all rays arrive at one time, all waves are in phase. -/
theorem C77_peak {w : ℝ} (hw : w ≠ 0) {rv : RayVec Dbl} (h : Lit w rv.rays) {q : V3 ℝ} {tau : ℝ}
    (hq : ∀ ray ∈ used rv.rays, ∀ (r v : V3 ℝ) (t : ℝ), ray.r = r.fin → ray.v = v.fin → ray.t = Dbl.fin t → r + v.smulR (tau - t) = q) (s : ℝ) :
    intensity rv q.fin (Dbl.fin s) = Dbl.fin ((fluxes rv.rays).sum ^ 2) := by
  rw [C77_time hw h q s tau, C77_intensity hw h]
  have e : (used rv.rays).map (waveOf q tau) = (used rv.rays).map fun ray => ((realPart ray.flux : ℝ) : ℂ) := by
    refine List.map_congr_left fun ray hray => ?_
    obtain ⟨r, v, t, fl, rfl, hv⟩ := h ray hray
    have hpos := V3.normSq_pos hv
    have hdot : V3.dot (q - r) v / V3.dot v v = tau - t := by
      rw [← hq _ hray r v t rfl rfl rfl, div_eq_iff (show V3.dot v v ≠ 0 from hpos.ne')]
      simp [V3.dot]; ring
    rw [waveOf_finRay, wave, phaseR, hdot, sub_self, mul_zero, Complex.ofReal_zero, mul_zero, Complex.exp_zero, mul_one]
    rfl
  rw [e, fluxes]
  have key : ∀ l : List (Ray Dbl), (l.map fun ray => ((realPart ray.flux : ℝ) : ℂ)).sum = (((l.map fun ray => realPart ray.flux).sum : ℝ) : ℂ) := by
    intro l
    induction l with
    | nil => simp
    | cons a l ih => simp only [List.map_cons, List.sum_cons, ih]; push_cast; rfl
  rw [key, Complex.norm_real, Real.norm_eq_abs, sq_abs]

/-! ## The PSF -/

/-- The two lattice vectors that `dx` and `dy` stand for. -/
inductive Steps : Ext Dbl → Option (Ext Dbl) → ℝ × ℝ → ℝ × ℝ → Prop
  | square (d : ℝ) : Steps (.num (Dbl.fin d)) none (d, 0) (0, d)
  | rect (d e : ℝ) : Steps (.num (Dbl.fin d)) (some (.num (Dbl.fin e))) (d, 0) (0, e)
  | oblique (a b c d : ℝ) : Steps (.vec (Dbl.fin a) (Dbl.fin b)) (some (.vec (Dbl.fin c) (Dbl.fin d))) (a, b) (c, d)

/-- The point of column `j` and row `i` of the output, for the reference point `P`. -/
noncomputable def latticePoint (n : ℕ) (a b : ℝ × ℝ) (P : V3 ℝ) (i j : ℕ) : V3 ℝ :=
  ⟨P.x + ((j : ℝ) - ((n / 2 : ℕ) : ℝ)) * a.1 + ((i : ℝ) - ((n / 2 : ℕ) : ℝ)) * b.1,
   P.y + ((j : ℝ) - ((n / 2 : ℕ) : ℝ)) * a.2 + ((i : ℝ) - ((n / 2 : ℕ) : ℝ)) * b.2, 0⟩

theorem lattice_square (n : ℕ) (a b : ℝ × ℝ) :
    ∃ lat, Grids.Lattice.make [n, n] (.mat 2 [[Dbl.fin a.1, Dbl.fin a.2], [Dbl.fin b.1, Dbl.fin b.2]]) = .ok lat ∧
      ∀ i j : ℕ, i < n → j < n → lat.coords[i * n + j]? =
        some [Dbl.fin (((i : ℝ) - ((n / 2 : ℕ) : ℝ)) * a.1 + ((j : ℝ) - ((n / 2 : ℕ) : ℝ)) * b.1),
          Dbl.fin (((i : ℝ) - ((n / 2 : ℕ) : ℝ)) * a.2 + ((j : ℝ) - ((n / 2 : ℕ) : ℝ)) * b.2)] := by
  obtain ⟨lat, h1, h2⟩ := C61_coords [n, n] [[a.1, a.2], [b.1, b.2]] (by simp) (by simp) (by simp)
  refine ⟨lat, ?_, ?_⟩
  · rw [← h1]; simp [finRows]
  · intro i j hi hj
    rw [h2]
    have e : indices [n, n] = (List.range n).flatMap fun i => (List.range n).map fun j => [i, j] := by
      have : ∀ l : List ℕ, (l.flatMap fun i => [[i]]) = l.map fun i => [i] := by
        intro l; induction l with
        | nil => rfl
        | cons a l ih => simp [ih]
      simp [indices, this, Function.comp_def]
    rw [e, List.getElem?_map, flatMap_range_getElem? n (fun i j => [i, j]) n i j hi hj]
    simp [latticeSum, List.range_succ]
    rw [show ((n : ℤ) / 2) = ((n / 2 : ℕ) : ℤ) by omega, Int.cast_natCast]
    exact ⟨rfl, rfl⟩

/-- **C77**: for every system, field angle, sampling and lattice: the entry in row `i` and column `j` of the PSF is the absolute
square of the sum of the plane waves of all rays that got through, at the lattice point `i`, `j` around the reference point. -/
theorem C77_psf {w : ℝ} (hw : w ≠ 0) (hrv : startGrid s thx thy wl projection nx = .ok rv) (hlit : Lit w (s.trace rv).rays)
    (hP : refPoint ref nx (s.trace rv).rays = .ok P.fin) {first : Ray Dbl} (h0 : (s.trace rv).rays[0]? = some first) {t0 : ℝ}
    (ht0 : first.t = Dbl.fin t0) {dx : Ext Dbl} {dy : Option (Ext Dbl)} {a b : ℝ × ℝ} (hst : Steps dx dy a b) {nxOut : Option ℤ} {n : ℕ}
    (hn : nxOut = some (n : ℤ) ∨ (nxOut = none ∧ n = nx)) :
    ∃ lat vals, huygensPSF s thx thy wl projection nx dx dy nxOut ref = .ok (lat, vals) ∧ vals.length = n * n ∧
      ∀ i j : ℕ, i < n → j < n → ∀ time : ℝ,
        vals[i * n + j]? = some (Dbl.fin (‖((used (s.trace rv).rays).map (waveOf (latticePoint n a b P i j) time)).sum‖ ^ 2)) := by
  obtain ⟨lat, h1, h2⟩ := lattice_square n a b
  have hN : nxOut.getD (nx : ℤ) = (n : ℤ) := by
    rcases hn with rfl | ⟨rfl, rfl⟩ <;> rfl
  have hitem : item (s.trace rv).rays 0 = .ok first := by
    have := item_nat (k := 0) h0
    exact_mod_cast this
  refine ⟨lat, (outPoints lat n P.fin).map fun p => intensity (s.trace rv) p (Dbl.fin t0), ?_, ?_, ?_⟩
  · unfold huygensPSF huygensOn
    rw [hN, hrv, mul_one]
    cases hst <;> simp only [bind, Except.bind] <;> rw [if_neg (by omega), Int.toNat_natCast] <;> simp only [Dbl.zero_dbl] at h1 ⊢ <;> rw [h1] <;>
      simp only [hP, hitem, ht0]
  · simp [outPoints]
  · intro i j hi hj time
    rw [List.getElem?_map, outPoints, flatMap_range_getElem? n (fun i j => _) n i j hi hj, Option.map_some]
    have hc : lat.coords.getD (j * n + i) [] = [Dbl.fin (((j : ℝ) - ((n / 2 : ℕ) : ℝ)) * a.1 + ((i : ℝ) - ((n / 2 : ℕ) : ℝ)) * b.1),
          Dbl.fin (((j : ℝ) - ((n / 2 : ℕ) : ℝ)) * a.2 + ((i : ℝ) - ((n / 2 : ℕ) : ℝ)) * b.2)] := by
      rw [List.getD_eq_getElem?_getD, h2 j i hj hi]; rfl
    have hp : (⟨(lat.coords.getD (j * n + i) []).getD 0 0 + P.fin.x, (lat.coords.getD (j * n + i) []).getD 1 0 + P.fin.y, 0⟩ : V3 Dbl) =
        (latticePoint n a b P i j).fin := by
      rw [hc]
      apply V3.ext <;> simp [latticePoint] <;> ring
    simp only [hp]
    rw [C77_time hw hlit _ t0 time, C77_intensity hw hlit]

/-- The middle of the output is the reference point, if that has `z = 0` as on a plane detector. -/
theorem C77_centre (n : ℕ) (a b : ℝ × ℝ) {P : V3 ℝ} (hz : P.z = 0) : latticePoint n a b P (n / 2) (n / 2) = P := by
  ext <;> simp [latticePoint, hz]

/-! ## What tracing keeps -/

theorem onRay_keeps {F : Type} [Arith F] (d : Iface F) (niter : ℕ) (reverse : Bool) (ct : CoordTransform F) (ray : Ray F) :
    (Iface.onRay d niter reverse ct ray).wavelength = ray.wavelength ∧ (Iface.onRay d niter reverse ct ray).flux = ray.flux := by
  unfold Iface.onRay Ray.refract Ray.reflect Ray.refractScreen Ray.intersect Ray.markFailed
  simp only
  split
  all_goals
    split
    · exact ⟨rfl, rfl⟩
    · split
      · exact ⟨rfl, rfl⟩
      · first
        | exact ⟨rfl, rfl⟩
        | (split <;> exact ⟨rfl, rfl⟩)

/-- **C79**: through every optic, in either direction and in any arithmetic, each ray comes out at its place in the vector with the
wavelength and the flux it went in with: `trace` does not apply coatings. -/
theorem C79_keeps {F : Type} [Arith F] (niter : ℕ) (reverse : Bool) (o : Optic F) (rv : RayVec F) :
    (o.trace niter reverse rv).rays.map (fun ray => (ray.wavelength, ray.flux)) = rv.rays.map fun ray => (ray.wavelength, ray.flux) := by
  have h1 : ∀ (b : Bool) (d : Iface F) (rv : RayVec F), (d.trace niter b rv).rays.map (fun ray => (ray.wavelength, ray.flux)) =
      rv.rays.map fun ray => (ray.wavelength, ray.flux) := by
    intro b d rv
    unfold Iface.trace Iface.applyObscuration
    rw [interact_rays]
    cases d.obscuration with
    | none =>
      simp only [List.map_map]
      refine List.map_congr_left fun ray _ => ?_
      obtain ⟨h, h'⟩ := onRay_keeps d niter b (CoordTransform.make rv.coordSys d.coordSys) ray
      simp only [Function.comp, h, h']
    | some ob =>
      simp only [RayVec.obscure, List.map_map]
      refine List.map_congr_left fun ray _ => ?_
      obtain ⟨h, h'⟩ := onRay_keeps d niter b (CoordTransform.make rv.coordSys d.coordSys) ray
      simp only [Function.comp, Ray.obscure, h, h']
  have h2 : ∀ (b : Bool) (ds : List (Iface F)) (rv : RayVec F),
      (ds.foldl (fun rv d => d.trace niter b rv) rv).rays.map (fun ray => (ray.wavelength, ray.flux)) =
        rv.rays.map fun ray => (ray.wavelength, ray.flux) := by
    intro b ds
    induction ds with
    | nil => intro rv; rfl
    | cons d ds ih => intro rv; rw [List.foldl_cons, ih, h1]
  cases reverse
  · rw [trace_visits, h2]
  · rw [trace_visits_rev, h2]

theorem keeps_at {F : Type} [Arith F] {niter : ℕ} {reverse : Bool} {o : Optic F} {rv : RayVec F} {out : Ray F}
    (h : out ∈ (o.trace niter reverse rv).rays) : ∃ ray ∈ rv.rays, out.wavelength = ray.wavelength ∧ out.flux = ray.flux := by
  have := List.mem_map_of_mem (f := fun ray : Ray F => (ray.wavelength, ray.flux)) h
  rw [C79_keeps] at this
  obtain ⟨ray, h1, h2⟩ := List.mem_map.mp this
  rw [Prod.mk.injEq] at h2
  exact ⟨ray, h1, h2.1.symm, h2.2.symm⟩

/-! ## The paraboloid -/

variable {m cs : CoordSys ℝ} {idx w back pupil R : ℝ} {d : V3 ℝ} {d1 d2 : Iface Dbl}

/-- All rays of an on-axis star that get through make one point. -/
theorem C76_newtonian (h : Newtonian s R m d1 d2) (hR : R ≠ 0) (hs : LegalSystem s Surface.plane m cs idx w back pupil)
    (hd : FieldAngle thx thy projection d) {L : ℝ} (hL : 0 < L) (haxis : m.rot.tr.mulVec (cs.rot.mulVec d) = ⟨0, 0, -L⟩) (hnx : 0 < nx)
    (hap : ∀ p ∈ pupilGrid nx pupil, p.1 ^ 2 + p.2 ^ 2 < R ^ 2)
    (hlight : ∀ rv, startGrid s thx thy (Dbl.fin w) projection nx = .ok rv → ref = .other ∨ SomeLight ref (s.trace rv).rays) :
    ∃ pts, spot s thx thy (Dbl.fin w) projection nx ref = .ok pts ∧ ∀ p ∈ pts, p = (Dbl.fin 0, Dbl.fin 0) := by
  obtain ⟨rv, tau, h1, h2, h3, h4⟩ := newtonian_rays h hR hs hd hL haxis hnx hap
  have hr : ∀ ray ∈ (s.trace rv).rays, ray.r = (⟨0, 0, 0⟩ : V3 ℝ).fin := fun ray hray => (h4 ray hray).choose_spec.2.1
  have hland : ∀ r ∈ landings (s.trace rv).rays, r = ⟨0, 0, 0⟩ := by
    intro r hmem
    obtain ⟨ray, h5, rfl⟩ := List.mem_map.mp hmem
    rw [hr ray (List.mem_filter.mp h5).1, realPart_fin]
  have horigin : SpotOrigin ref nx (s.trace rv).rays ⟨0, 0, 0⟩ := by
    have := hlight rv h1
    cases ref with
    | other => rfl
    | mean =>
      obtain ⟨ray, h5, h6⟩ : ∃ ray ∈ (s.trace rv).rays, ray.vignetted = false := by
        rcases this with h | h
        · cases h
        · exact h
      have hne : landings (s.trace rv).rays ≠ [] := List.ne_nil_of_mem (List.mem_map_of_mem (List.mem_filter.mpr ⟨h5, by simp [h6]⟩))
      exact ⟨hne, (centroid_const hne hland).symm⟩
    | chief =>
      obtain ⟨a, ha, hm⟩ := getElem?_of_lt (l := (s.trace rv).rays) (i := nx / 2 * nx + nx / 2) (by
        rw [h2]; nlinarith [Nat.mul_le_mul_right nx (show nx / 2 + 1 ≤ nx by omega), show nx / 2 < nx by omega])
      exact ⟨a, ha, hr a hm⟩
  refine ⟨_, C76_spot (out := ⟨m.toGlobal ⟨0, 0, R / 2⟩, m.rot⟩) h1 h.mirror.orth h3 (fun ray hray _ => ⟨_, hr ray hray⟩) horigin, ?_⟩
  intro p hp
  obtain ⟨r, h5, rfl⟩ := List.mem_map.mp hp
  rw [hland r h5]
  simp

/-- The PSF of a paraboloid on its axis: the middle of the output is the square of the number of rays that get through, and no
other value is larger; for every sampling, lattice and obscuration. -/
theorem C77_newtonian (h : Newtonian s R m d1 d2) (hR : R ≠ 0) (hs : LegalSystem s Surface.plane m cs idx w back pupil)
    (hd : FieldAngle thx thy projection d) {L : ℝ} (hL : 0 < L) (haxis : m.rot.tr.mulVec (cs.rot.mulVec d) = ⟨0, 0, -L⟩) (hnx : 0 < nx)
    (hap : ∀ p ∈ pupilGrid nx pupil, p.1 ^ 2 + p.2 ^ 2 < R ^ 2) (hw : w ≠ 0) {dx : Ext Dbl} {dy : Option (Ext Dbl)} {a b : ℝ × ℝ}
    (hst : Steps dx dy a b) {nxOut : Option ℤ} {n : ℕ} (hn : nxOut = some (n : ℤ) ∨ (nxOut = none ∧ n = nx)) (hn0 : 0 < n) :
    ∃ rv lat vals, startGrid s thx thy (Dbl.fin w) projection nx = .ok rv ∧
      huygensPSF s thx thy (Dbl.fin w) projection nx dx dy nxOut .chief = .ok (lat, vals) ∧
      vals[n / 2 * n + n / 2]? = some (Dbl.fin (((s.trace rv).rays.countP fun ray => !ray.vignetted : ℕ) ^ 2)) ∧
      ∀ v ∈ vals, ∃ I, v = Dbl.fin I ∧ 0 ≤ I ∧ I ≤ ((s.trace rv).rays.countP fun ray => !ray.vignetted : ℕ) ^ 2 := by
  obtain ⟨rv, tau, h1, h2, h3, h4⟩ := newtonian_rays h hR hs hd hL haxis hnx hap
  obtain ⟨rv', h1', hwave⟩ := startGrid_wave hs hd hnx (plane_onSurface _)
  rw [h1, Except.ok.injEq] at h1'
  subst h1'
  have hin : ∀ ray ∈ rv.rays, ray.wavelength = Dbl.fin w ∧ ray.flux = Dbl.fin 1 := by
    intro ray hray
    obtain ⟨v, -, -, hw3⟩ := hwave.rays
    obtain ⟨i, hi, rfl⟩ := List.getElem_of_mem hray
    have hlen : rv.rays.length = nx * nx := by rw [hwave.size, pupilGrid, gridSpec_length]
    obtain ⟨p, hp⟩ : ∃ p, (pupilGrid nx pupil)[i]? = some p := by
      refine ⟨_, List.getElem?_eq_getElem ?_⟩
      rw [pupilGrid, gridSpec_length, ← hlen]; exact hi
    obtain ⟨r, z, T, e1, -⟩ := hw3 i p 1 hp (by rw [List.getElem?_replicate, if_pos (hlen ▸ hi)])
    rw [List.getElem?_eq_getElem hi, Option.some.injEq] at e1
    rw [e1]
    exact ⟨rfl, rfl⟩
  have hray : ∀ ray ∈ (s.trace rv).rays, ∃ v : V3 ℝ, ray = finRay ⟨0, 0, 0⟩ v tau w 1 ray.vignetted false ∧ v ≠ ⟨0, 0, 0⟩ := by
    intro ray hray
    obtain ⟨v, k1, k2, k3, k4, k5, k6⟩ := h4 ray hray
    obtain ⟨r0, hr0, k7, k8⟩ := keeps_at hray
    obtain ⟨k9, k10⟩ := hin r0 hr0
    refine ⟨v, ?_, ?_⟩
    · obtain ⟨rr, vv, tt, wl, fl, vg, fd⟩ := ray
      simp only at k1 k2 k3 k4 k7 k8
      subst k1 k2 k3 k4
      rw [k7, k8, k9, k10]
      rfl
    · rintro rfl; simp at k6
  have hlit : Lit w (s.trace rv).rays := by
    intro ray hmem
    rw [used, List.mem_filter] at hmem
    obtain ⟨v, k1, k2⟩ := hray ray hmem.1
    refine ⟨⟨0, 0, 0⟩, v, tau, 1, ?_, k2⟩
    have : ray.vignetted = false := by
      have := hmem.2
      simp only [Bool.and_eq_true, Bool.not_eq_true'] at this
      exact this.2
    rw [this] at k1
    exact k1
  have hfl : (fluxes (s.trace rv).rays).sum = ((s.trace rv).rays.countP fun ray => !ray.vignetted : ℕ) := by
    have e1 : fluxes (s.trace rv).rays = (used (s.trace rv).rays).map fun _ => 1 := by
      unfold fluxes
      refine List.map_congr_left fun ray hmem => ?_
      obtain ⟨r, v, t, fl, k1, -⟩ := hlit ray hmem
      obtain ⟨v', k2, -⟩ := hray ray (List.mem_filter.mp hmem).1
      rw [k2]; rfl
    have e2 : used (s.trace rv).rays = (s.trace rv).rays.filter fun ray => !ray.vignetted := by
      unfold used
      refine List.filter_congr fun ray hmem => ?_
      obtain ⟨v', k2, -⟩ := hray ray hmem
      rw [k2]; simp [finRay]
    rw [e1, e2, List.countP_eq_length_filter]
    simp
  have hpos : ∀ f ∈ fluxes (s.trace rv).rays, 0 ≤ f := by
    intro f hf
    obtain ⟨ray, hmem, rfl⟩ := List.mem_map.mp hf
    obtain ⟨v', k2, -⟩ := hray ray (List.mem_filter.mp hmem).1
    rw [k2]
    simp [finRay, realPart]
  obtain ⟨c, hc, hcm⟩ := getElem?_of_lt (l := (s.trace rv).rays) (i := nx / 2 * nx + nx / 2) (by
    rw [h2]; nlinarith [Nat.mul_le_mul_right nx (show nx / 2 + 1 ≤ nx by omega), show nx / 2 < nx by omega])
  obtain ⟨first, hfirst, hfm⟩ := getElem?_of_lt (l := (s.trace rv).rays) (i := 0) (by rw [h2]; positivity)
  have hP : refPoint .chief nx (s.trace rv).rays = .ok (⟨0, 0, 0⟩ : V3 ℝ).fin :=
    refPoint_const (ok := fun _ => True) (fun ray hm => (h4 ray hm).choose_spec.2.1) ⟨c, hc, trivial⟩
  obtain ⟨lat, vals, j1, j2, j3⟩ := C77_psf hw h1 hlit hP hfirst (t0 := tau) (h4 first hfm).choose_spec.2.2.2.1 hst hn
  refine ⟨rv, lat, vals, h1, j1, ?_, ?_⟩
  · rw [j3 _ _ (by omega) (by omega) tau, C77_centre _ _ _ rfl, ← C77_intensity hw hlit, C77_peak hw hlit (tau := tau), hfl]
    intro ray hmem r v t e1 e2 e3
    obtain ⟨v', k2, -⟩ := hray ray (List.mem_filter.mp hmem).1
    rw [k2] at e1 e2 e3
    simp only [finRay, V3.fin_inj, Dbl.fin_inj] at e1 e2 e3
    subst e1 e2 e3
    ext <;> simp
  · intro v hv
    obtain ⟨k, hk, rfl⟩ := List.getElem_of_mem hv
    have hk' : k < n * n := j2 ▸ hk
    have := j3 (k / n) (k % n) (Nat.div_lt_of_lt_mul hk') (Nat.mod_lt _ hn0) tau
    rw [Nat.div_add_mod', List.getElem?_eq_getElem hk, Option.some.injEq] at this
    obtain ⟨I, i1, i2, i3⟩ := C77_bound hw hlit hpos (latticePoint n a b ⟨0, 0, 0⟩ (k / n) (k % n)) tau
    rw [this, ← C77_intensity hw hlit]
    exact ⟨I, i1, i2, hfl ▸ i3⟩

/-! ## A concrete telescope -/

/-- A paraboloid of radius 20 and aperture 4 with a central obscuration, and a detector in its focus. -/
noncomputable def newton : System Dbl where
  optic := demoComp "T" [.iface { demoMirror with surface := Surface.paraboloid (Dbl.fin 20) }, .iface (demoFlat "D" 10)]
  attrs := ⟨some (Dbl.fin 30), some ⟨fun _ => Dbl.fin 1⟩, some ⟨Surface.plane, (CoordSys.std ℝ).fin⟩, some (Dbl.fin 4), none, globalFrame.fin⟩
  sphereRadius := none
  niter := 5

theorem newton_optic : Newtonian newton 20 (CoordSys.std ℝ) { demoMirror with surface := Surface.paraboloid (Dbl.fin 20) } (demoFlat "D" 10) where
  optic := ⟨_, rfl⟩
  mirror := demo_mirrorIn _
  detector := ⟨rfl, rfl, rfl, by
    rw [std_toGlobal]
    norm_num [demoFlat, CoordSys.std, M3.one], std_orth⟩
  skip1 := rfl
  skip2 := rfl

theorem newton_legal : LegalSystem newton Surface.plane (CoordSys.std ℝ) globalFrame 1 (1 / 2) 30 4 where
  back := rfl
  medium := ⟨_, rfl, rfl⟩
  stopSurface := rfl
  pupil := rfl
  frame := rfl
  stop := std_orth
  cs := globalFrame_orth
  n := one_pos

theorem newton_field : FieldAngle (Dbl.fin 0) (Dbl.fin 0) "orthographic" ⟨0, 0, -1⟩ where
  dir := by simp [Projection.fieldToDirCos, orthographic_fwd (show (0 : ℝ) * 0 + 0 * 0 ≤ 1 by norm_num)]
  legal := .inr (by norm_num)

theorem newton_axis : (CoordSys.std ℝ).rot.tr.mulVec (globalFrame.rot.mulVec ⟨0, 0, -1⟩) = ⟨0, 0, -1⟩ := by
  rw [std_tr]; ext <;> simp [globalFrame, M3.mulVec, M3.one, V3.dot]

theorem newton_aperture : ∀ p ∈ pupilGrid 6 4, p.1 ^ 2 + p.2 ^ 2 < (20 : ℝ) ^ 2 := by
  intro p hp
  unfold pupilGrid gridSpec at hp
  obtain ⟨j, hj, hp⟩ := List.mem_flatMap.mp hp
  obtain ⟨i, hi, rfl⟩ := List.mem_map.mp hp
  rw [List.mem_range] at hi hj
  have h1 : (i : ℝ) ≤ 5 := by exact_mod_cast Nat.le_of_lt_succ hi
  have h2 : (j : ℝ) ≤ 5 := by exact_mod_cast Nat.le_of_lt_succ hj
  have h3 : (0 : ℝ) ≤ i := Nat.cast_nonneg i
  have h4 : (0 : ℝ) ≤ j := Nat.cast_nonneg j
  norm_num [axisCells]
  nlinarith

/-- With 6 times 6 rays its wavefront is zero. -/
example : ∃ wf, wavefront newton (Dbl.fin 0) (Dbl.fin 0) (Dbl.fin (1 / 2)) "orthographic" 6 (some (Dbl.fin 5)) .chief = .ok wf ∧
    wf.cells.length = 6 * 6 ∧ ∀ x, (x, false) ∈ wf.cells → x = Dbl.fin 0 :=
  C75_newtonian newton_optic.turned (by norm_num) newton_legal newton_field one_pos newton_axis (nx := 6) (by norm_num) newton_aperture
    (by norm_num) (by norm_num) (fun _ _ => trivial)

/-- Its spot diagram is a point. -/
example : ∃ pts, spot newton (Dbl.fin 0) (Dbl.fin 0) (Dbl.fin (1 / 2)) "orthographic" 6 .chief = .ok pts ∧
    ∀ p ∈ pts, p = (Dbl.fin 0, Dbl.fin 0) :=
  C76_newtonian newton_optic (by norm_num) newton_legal newton_field one_pos newton_axis (nx := 6) (by norm_num) newton_aperture
    (fun _ _ => .inr trivial)

/-- Its PSF on 5 times 5 points is greatest in the middle. -/
example : ∃ rv lat vals, startGrid newton (Dbl.fin 0) (Dbl.fin 0) (Dbl.fin (1 / 2)) "orthographic" 6 = .ok rv ∧
    huygensPSF newton (Dbl.fin 0) (Dbl.fin 0) (Dbl.fin (1 / 2)) "orthographic" 6 (.num (Dbl.fin (1 / 10))) none (some 5) .chief = .ok (lat, vals) ∧
    vals[12]? = some (Dbl.fin (((newton.trace rv).rays.countP fun ray => !ray.vignetted : ℕ) ^ 2)) := by
  obtain ⟨rv, lat, vals, h1, h2, h3, -⟩ := C77_newtonian newton_optic (by norm_num) newton_legal newton_field one_pos newton_axis (nx := 6)
    (by norm_num) newton_aperture (by norm_num) (Steps.square (1 / 10)) (nxOut := some 5) (n := 5) (.inl rfl) (by norm_num)
  exact ⟨rv, lat, vals, h1, h2, h3⟩

end Batoid.Props
