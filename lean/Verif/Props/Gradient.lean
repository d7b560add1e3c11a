import Verif.Props.Derivatives
import Verif.Props.Clear
import Verif.Props.Quadrature

/-!
# The derivative of the wave vector (C90)

`dkdu` holds the slopes of the plane that fits the wave vectors best, as a function of where the rays start.
-/

namespace Batoid.Props
open Batoid Batoid.Surface Batoid.Analysis Batoid.Construct

/-- The plane `c0 + c1 x + c2 y` leaves the least sum of squares of the data `k` at the points `U`. -/
def BestPlane (lit : Finset ℕ) (U : ℕ → ℝ × ℝ) (k : ℕ → ℝ) (c0 c1 c2 : ℝ) : Prop :=
  ∀ a0 a1 a2 : ℝ, ∑ i ∈ lit, (k i - (c0 + c1 * (U i).1 + c2 * (U i).2)) ^ 2 ≤ ∑ i ∈ lit, (k i - (a0 + a1 * (U i).1 + a2 * (U i).2)) ^ 2

/-- The points are not on one line. -/
def NotOnLine (lit : Finset ℕ) (U : ℕ → ℝ × ℝ) : Prop :=
  ∀ a0 a1 a2 : ℝ, (∀ i ∈ lit, a0 + a1 * (U i).1 + a2 * (U i).2 = 0) → a1 = 0 ∧ a2 = 0

/-- A best plane through data that are on a plane is that plane. -/
theorem bestPlane_recovers {lit : Finset ℕ} {U : ℕ → ℝ × ℝ} {k : ℕ → ℝ} {c0 c1 c2 a0 a1 a2 : ℝ} (h : BestPlane lit U k c0 c1 c2) (hl : NotOnLine lit U)
    (hk : ∀ i ∈ lit, k i = a0 + a1 * (U i).1 + a2 * (U i).2) : c1 = a1 ∧ c2 = a2 := by
  have h0 : ∑ i ∈ lit, (k i - (c0 + c1 * (U i).1 + c2 * (U i).2)) ^ 2 ≤ 0 := by
    refine (h a0 a1 a2).trans (le_of_eq (Finset.sum_eq_zero fun i hi => ?_))
    rw [hk i hi, sub_self]
    norm_num
  have h1 := (Finset.sum_eq_zero_iff_of_nonneg fun i _ => sq_nonneg _).1 (le_antisymm h0 (Finset.sum_nonneg fun i _ => sq_nonneg _))
  obtain ⟨e1, e2⟩ := hl (c0 - a0) (c1 - a1) (c2 - a2) (by
    intro i hi
    have e := pow_eq_zero_iff two_ne_zero |>.1 (h1 i hi)
    have := hk i hi
    linarith)
  exact ⟨by linarith, by linarith⟩

/-- The fit of a plane from `lstsq`. -/
theorem plane_fit {lstsq : Lstsq Dbl} (hl : LeastSquares lstsq) (l : List ℕ) (hne : l ≠ []) (hnd : l.Nodup) (U : ℕ → ℝ × ℝ) (k : ℕ → ℝ) :
    ∃ c : ℕ → ℝ, (lstsq (l.map fun i => [Dbl.fin 1, Dbl.fin (U i).1, Dbl.fin (U i).2]) (l.map fun i => Dbl.fin (k i))).1 =
        [Dbl.fin (c 0), Dbl.fin (c 1), Dbl.fin (c 2)] ∧ BestPlane l.toFinset U k (c 0) (c 1) (c 2) := by
  obtain ⟨-, h⟩ := hl l.length 3 (fun i => ![1, (U l[i]).1, (U l[i]).2]) (fun i => k l[i])
  obtain ⟨x, h1, h2⟩ := h (List.length_pos_iff.2 hne)
  have e1 : rowsOf (fun i : Fin l.length => ![1, (U l[i]).1, (U l[i]).2]) = l.map fun i => [Dbl.fin 1, Dbl.fin (U i).1, Dbl.fin (U i).2] := by
    apply List.ext_getElem
    · simp [rowsOf]
    · intro i h1 h2
      simp [rowsOf, vecOf, List.ofFn_succ]
  have e2 : vecOf (fun i : Fin l.length => k l[i]) = l.map fun i => Dbl.fin (k i) := by
    apply List.ext_getElem <;> simp [vecOf]
  rw [e1, e2] at h1
  have hm : ∀ y : Fin 3 → ℝ, misfit (fun i : Fin l.length => ![1, (U l[i]).1, (U l[i]).2]) (fun i => k l[i]) y =
      ∑ i ∈ l.toFinset, (k i - (y 0 + y 1 * (U i).1 + y 2 * (U i).2)) ^ 2 := by
    intro y
    rw [List.sum_toFinset _ hnd, ← Fin.sum_univ_fun_getElem]
    unfold misfit
    refine Finset.sum_congr rfl fun i _ => ?_
    simp [Matrix.mulVec, dotProduct, Fin.sum_univ_succ]
    ring
  refine ⟨extend x, ?_, ?_⟩
  · rw [h1, vecOf_extend]
    simp [List.range_succ]
  · intro a0 a1 a2
    have := h2.1 ![a0, a1, a2]
    rw [hm, hm] at this
    simpa [extend] using this

variable {s : System Dbl} {surf : Surface Dbl} {stop cs m : CoordSys ℝ} {n w back pupil inner f σ R : ℝ} {d : V3 ℝ} {thx thy : Dbl} {projection : String}
  {nrad naz : ℕ}

/-- **C90**: `dkdu` holds the slopes of the planes that fit the two components of the wave vector `2 pi n/lambda` of the rays at the end best,
as functions of where the rays are launched; row 0 has the slopes along x, row 1 those along y.  Only rays that are not vignetted count. -/
theorem C90_fit (h : LegalSystem s surf stop cs n w back pupil) (hd : FieldAngle thx thy projection d) (hp : 0 < pupil) (hi : PupilInner s pupil inner)
    (hr : 0 < nrad) (hs : OnSurface surf (polarPoints pupil inner nrad naz)) (junk : ℕ → Dbl) {lstsq : Lstsq Dbl} (hl : LeastSquares lstsq) (hw : w ≠ 0) :
    ∃ rv, PlaneWave surf stop cs n w back d (polarPoints pupil inner nrad naz) (List.replicate (polarPoints pupil inner nrad naz).length 1) rv ∧
      ∀ (U : ℕ → ℝ × ℝ) (v : ℕ → V3 ℝ), (litAt (s.trace rv).rays).Nonempty →
        (∀ i ∈ litAt (s.trace rv).rays, V3.normSq (v i) ≠ 0 ∧ ∃ start fin, rv.rays[i]? = some start ∧ (s.trace rv).rays[i]? = some fin ∧
          start.r.x = Dbl.fin (U i).1 ∧ start.r.y = Dbl.fin (U i).2 ∧ fin.v = (v i).fin) →
        ∃ c e : ℕ → ℝ, dkdu lstsq junk s thx thy (Dbl.fin w) nrad naz projection = .ok ⟨Dbl.fin (c 1), Dbl.fin (e 1), Dbl.fin (c 2), Dbl.fin (e 2)⟩ ∧
          BestPlane (litAt (s.trace rv).rays) U (fun i => 2 * Real.pi / w * ((v i).x / V3.normSq (v i))) (c 0) (c 1) (c 2) ∧
          BestPlane (litAt (s.trace rv).rays) U (fun i => 2 * Real.pi / w * ((v i).y / V3.normSq (v i))) (e 0) (e 1) (e 2) := by
  obtain ⟨med, hm1, hm2⟩ := h.medium
  have hcall : LegalCall { optic := some s.attrs, wavelength := some (Dbl.fin w), theta_x := some thx, theta_y := some thy, projection := projection }
      surf stop cs n w back d :=
    ⟨⟨med, ⟨.inr ⟨rfl, .inl ⟨_, rfl, h.back⟩⟩, .inr ⟨rfl, .inl ⟨_, rfl, hm1⟩⟩, .inr ⟨rfl, .inl ⟨_, rfl, h.stopSurface⟩⟩,
      .inr ⟨rfl, .inl ⟨_, rfl, by simp only [h.frame]⟩⟩, rfl, ⟨rfl, .inr ⟨rfl, _, _, rfl, rfl, hd.dir⟩⟩⟩, hm2⟩, h.stop, h.cs, h.n, hd.legal⟩
  obtain ⟨rv, k1, k2⟩ := asPolar_pupil h hcall rfl hp hi hr junk hs (naz := naz)
  refine ⟨rv, k2, fun U v hne hU => ?_⟩
  obtain ⟨i0, hi0⟩ := hne
  obtain ⟨-, a0, b0, -⟩ := hU i0 hi0
  have hlen : (s.trace rv).rays.length = rv.rays.length := trace_size s rv
  have hwl : ∀ fin ∈ (s.trace rv).rays, fin.wavelength = Dbl.fin w := by
    intro fin hf
    obtain ⟨ray, h1, h2, -⟩ := keeps_at hf
    obtain ⟨j, hj, rfl⟩ := List.getElem_of_mem h1
    obtain ⟨v, -, -, h3⟩ := k2.rays
    have hj' : j < (polarPoints pupil inner nrad naz).length := by rw [← k2.size]; exact hj
    obtain ⟨r, z, T, e1, -⟩ := h3 j _ 1 (List.getElem?_eq_getElem hj') (by rw [List.getElem?_replicate, if_pos hj'])
    rw [List.getElem?_eq_getElem hj, Option.some.injEq] at e1
    rw [h2, e1]
  set lit := (List.range rv.rays.length).filter fun i => !((s.trace rv).rays.getD i b0).vignetted with hlit
  have hfin : lit.toFinset = litAt (s.trace rv).rays := by
    ext i
    unfold litAt
    rw [List.mem_toFinset, hlit, List.mem_filter, Finset.mem_filter, hlen, List.mem_range, Finset.mem_range]
    refine and_congr_right fun hi => ?_
    have : i < (s.trace rv).rays.length := by omega
    simp [List.getD_eq_getElem?_getD, this]
  have hnd : lit.Nodup := List.Nodup.filter _ List.nodup_range
  have hne : lit ≠ [] := by
    intro h
    rw [← hfin, h] at hi0
    simp at hi0
  have hz : (rv.rays.zip (s.trace rv).rays).filter (fun p => !p.2.vignetted) = lit.map fun i => (rv.rays.getD i a0, (s.trace rv).rays.getD i b0) := by
    have : rv.rays.zip (s.trace rv).rays = (List.range rv.rays.length).map fun i => (rv.rays.getD i a0, (s.trace rv).rays.getD i b0) := by
      apply List.ext_getElem
      · simp [hlen]
      · intro i h1 h2
        have h3 : i < rv.rays.length := by simpa using h2
        have h4 : i < (s.trace rv).rays.length := by omega
        simp [List.getD_eq_getElem?_getD, h3, h4]
    rw [this, List.filter_map]
    rfl
  have hcell : ∀ i ∈ lit, (rv.rays.getD i a0).r.x = Dbl.fin (U i).1 ∧ (rv.rays.getD i a0).r.y = Dbl.fin (U i).2 ∧
      (RayVec.waveVector ((s.trace rv).rays.getD i b0)).x = Dbl.fin (2 * Real.pi / w * ((v i).x / V3.normSq (v i))) ∧
      (RayVec.waveVector ((s.trace rv).rays.getD i b0)).y = Dbl.fin (2 * Real.pi / w * ((v i).y / V3.normSq (v i))) := by
    intro i hi
    obtain ⟨hn, start, fin, e1, e2, e3, e4, e5⟩ := hU i (by rw [← hfin, List.mem_toFinset]; exact hi)
    have e6 := hwl fin (List.mem_of_getElem? e2)
    have h2' : (2 : Dbl) = Dbl.fin 2 := Dbl.ofNat_dbl' 2
    have hn' : V3.dot (v i) (v i) ≠ 0 := hn
    simp only [List.getD_eq_getElem?_getD, e1, e2, Option.getD_some, e3, e4, RayVec.waveVector, e5, e6, h2', Dbl.pi_def, V3.fin_dot, V3.fin_x, V3.fin_y, Dbl.mul_fin,
      Dbl.div_fin hw, Dbl.div_fin hn', true_and, V3.normSq]
    constructor <;> · congr 1; field_simp
  obtain ⟨c, c1, c2⟩ := plane_fit hl lit hne hnd U fun i => 2 * Real.pi / w * ((v i).x / V3.normSq (v i))
  obtain ⟨e, e1, e2⟩ := plane_fit hl lit hne hnd U fun i => 2 * Real.pi / w * ((v i).y / V3.normSq (v i))
  rw [hfin] at c2 e2
  refine ⟨c, e, ?_, c2, e2⟩
  have hx : lit.map (fun i => (RayVec.waveVector ((s.trace rv).rays.getD i b0)).x) = lit.map fun i => Dbl.fin (2 * Real.pi / w * ((v i).x / V3.normSq (v i))) :=
    List.map_congr_left fun i hi => (hcell i hi).2.2.1
  have hy : lit.map (fun i => (RayVec.waveVector ((s.trace rv).rays.getD i b0)).y) = lit.map fun i => Dbl.fin (2 * Real.pi / w * ((v i).y / V3.normSq (v i))) :=
    List.map_congr_left fun i hi => (hcell i hi).2.2.2
  have hrow : lit.map (fun i => [(1 : Dbl), (rv.rays.getD i a0).r.x, (rv.rays.getD i a0).r.y]) = lit.map fun i => [Dbl.fin 1, Dbl.fin (U i).1, Dbl.fin (U i).2] :=
    List.map_congr_left fun i hi => by rw [(hcell i hi).1, (hcell i hi).2.1, Dbl.one_dbl]
  unfold dkdu
  simp only [Bind.bind, Except.bind, k1, hz, bilinearFit, List.map_map, Function.comp_def, hx, hy, hrow, c1, e1]
  simp

/-- **C90**: where the wave vector depends on the starting point like an affine map, its coefficients are found. -/
theorem C90_recovers (h : LegalSystem s surf stop cs n w back pupil) (hd : FieldAngle thx thy projection d) (hp : 0 < pupil) (hi : PupilInner s pupil inner)
    (hr : 0 < nrad) (hs : OnSurface surf (polarPoints pupil inner nrad naz)) (junk : ℕ → Dbl) {lstsq : Lstsq Dbl} (hl : LeastSquares lstsq) (hw : w ≠ 0) :
    ∃ rv, PlaneWave surf stop cs n w back d (polarPoints pupil inner nrad naz) (List.replicate (polarPoints pupil inner nrad naz).length 1) rv ∧
      ∀ (U : ℕ → ℝ × ℝ) (v : ℕ → V3 ℝ) (a b : ℕ → ℝ), NotOnLine (litAt (s.trace rv).rays) U → (litAt (s.trace rv).rays).Nonempty →
        (∀ i ∈ litAt (s.trace rv).rays, V3.normSq (v i) ≠ 0 ∧ ∃ start fin, rv.rays[i]? = some start ∧ (s.trace rv).rays[i]? = some fin ∧
          start.r.x = Dbl.fin (U i).1 ∧ start.r.y = Dbl.fin (U i).2 ∧ fin.v = (v i).fin ∧
          2 * Real.pi / w * ((v i).x / V3.normSq (v i)) = a 0 + a 1 * (U i).1 + a 2 * (U i).2 ∧
          2 * Real.pi / w * ((v i).y / V3.normSq (v i)) = b 0 + b 1 * (U i).1 + b 2 * (U i).2) →
        dkdu lstsq junk s thx thy (Dbl.fin w) nrad naz projection = .ok ⟨Dbl.fin (a 1), Dbl.fin (b 1), Dbl.fin (a 2), Dbl.fin (b 2)⟩ := by
  obtain ⟨rv, h1, h2⟩ := C90_fit h hd hp hi hr hs junk hl hw (naz := naz)
  refine ⟨rv, h1, fun U v a b hline hne hU => ?_⟩
  obtain ⟨c, e, h3, h4, h5⟩ := h2 U v hne fun i hi => by
    obtain ⟨hn, start, fin, e1, e2, e3, e4, e5, -⟩ := hU i hi
    exact ⟨hn, start, fin, e1, e2, e3, e4, e5⟩
  obtain ⟨c1, c2⟩ := bestPlane_recovers h4 hline fun i hi => by
    obtain ⟨-, -, -, -, -, -, -, -, e6, -⟩ := hU i hi
    exact e6
  obtain ⟨e1, e2⟩ := bestPlane_recovers h5 hline fun i hi => by
    obtain ⟨-, -, -, -, -, -, -, -, -, e7⟩ := hU i hi
    exact e7
  rw [h3, c1, c2, e1, e2]

/-! ## A paraboloid -/

/-- The slopes of the best plane through data on symmetric points. -/
theorem bestPlane_symmetric {lit : Finset ℕ} {p : ℕ → ℝ × ℝ} {k : ℕ → ℝ} {X Y S B C c0 c1 c2 : ℝ}
    (h : BestPlane lit (fun i => ((p i).1 - X, (p i).2 - Y)) k c0 c1 c2) (hS : 0 < S)
    (hx : ∑ i ∈ lit, (p i).1 = 0) (hy : ∑ i ∈ lit, (p i).2 = 0) (hxy : ∑ i ∈ lit, (p i).1 * (p i).2 = 0)
    (hxx : ∑ i ∈ lit, (p i).1 ^ 2 = S) (hyy : ∑ i ∈ lit, (p i).2 ^ 2 = S)
    (hk : ∑ i ∈ lit, k i = 0) (hkx : ∑ i ∈ lit, (p i).1 * k i = S * B) (hky : ∑ i ∈ lit, (p i).2 * k i = S * C) : c1 = B ∧ c2 = C := by
  have hexp : ∀ a0 a1 a2 : ℝ, ∑ i ∈ lit, (k i - (a0 + a1 * ((p i).1 - X) + a2 * ((p i).2 - Y))) ^ 2 =
      ∑ i ∈ lit, k i ^ 2 - 2 * S * (a1 * B + a2 * C) + lit.card * (a0 - a1 * X - a2 * Y) ^ 2 + S * a1 ^ 2 + S * a2 ^ 2 := by
    intro a0 a1 a2
    have e : ∀ i ∈ lit, (k i - (a0 + a1 * ((p i).1 - X) + a2 * ((p i).2 - Y))) ^ 2 =
        k i ^ 2 + (-2 * (a0 - a1 * X - a2 * Y)) * k i + (-2 * a1) * ((p i).1 * k i) + (-2 * a2) * ((p i).2 * k i) + (a0 - a1 * X - a2 * Y) ^ 2 +
        (2 * (a0 - a1 * X - a2 * Y) * a1) * (p i).1 + (2 * (a0 - a1 * X - a2 * Y) * a2) * (p i).2 + (2 * a1 * a2) * ((p i).1 * (p i).2) +
        a1 ^ 2 * (p i).1 ^ 2 + a2 ^ 2 * (p i).2 ^ 2 := by
      intro i _; ring
    rw [Finset.sum_congr rfl e]
    simp only [Finset.sum_add_distrib, ← Finset.mul_sum, hx, hy, hxy, hxx, hyy, hk, hkx, hky, Finset.sum_const, nsmul_eq_mul]
    ring
  have h1 := h (B * X + C * Y) B C
  simp only [hexp] at h1
  have h2 : (lit.card : ℝ) * (c0 - c1 * X - c2 * Y) ^ 2 + S * (c1 - B) ^ 2 + S * (c2 - C) ^ 2 ≤ 0 := by
    have : (lit.card : ℝ) * (B * X + C * Y - B * X - C * Y) ^ 2 = 0 := by ring
    nlinarith
  have h3 : 0 ≤ (lit.card : ℝ) * (c0 - c1 * X - c2 * Y) ^ 2 := by positivity
  have h4 : 0 ≤ S * (c1 - B) ^ 2 := by positivity
  have h5 : 0 ≤ S * (c2 - C) ^ 2 := by positivity
  have h6 : S * (c1 - B) ^ 2 = 0 := by linarith
  have h7 : S * (c2 - C) ^ 2 = 0 := by linarith
  have h8 := pow_eq_zero_iff two_ne_zero |>.1 ((mul_eq_zero.1 h6).resolve_left hS.ne')
  have h9 := pow_eq_zero_iff two_ne_zero |>.1 ((mul_eq_zero.1 h7).resolve_left hS.ne')
  exact ⟨by linarith, by linarith⟩

/-- Sums over a ring of points. -/
theorem ring_sums {ρ : ℝ} {N : ℕ} (h : 6 ≤ N ∨ ρ = 0) :
    ((ringXY ρ N).map Prod.fst).sum = 0 ∧ ((ringXY ρ N).map Prod.snd).sum = 0 ∧ ((ringXY ρ N).map fun p => p.1 * p.2).sum = 0 ∧
      ((ringXY ρ N).map fun p => p.1 ^ 2).sum = N * ρ ^ 2 / 2 ∧ ((ringXY ρ N).map fun p => p.2 ^ 2).sum = N * ρ ^ 2 / 2 := by
  rcases h with h | rfl
  · have hsum : ∀ (c : ℝ) (a b : ℕ), ((List.range N).map fun j : ℕ => c * (Real.cos (2 * Real.pi * j / N) ^ a * Real.sin (2 * Real.pi * j / N) ^ b)).sum =
        c * ∑ j ∈ Finset.range N, Real.cos (2 * Real.pi * j / N) ^ a * Real.sin (2 * Real.pi * j / N) ^ b := by
      intro c a b
      rw [Finset.mul_sum]
      clear h
      generalize (N : ℝ) = M
      induction N with
      | zero => rfl
      | succ k ih => rw [List.range_succ, List.map_append, List.sum_append, ih, Finset.sum_range_succ]; simp
    have hN : (N : ℝ) ≠ 0 := by
      have : N ≠ 0 := by omega
      exact_mod_cast this
    have h1 : ∀ a b : ℕ, a + b < N → ∑ j ∈ Finset.range N, Real.cos (2 * Real.pi * j / N) ^ a * Real.sin (2 * Real.pi * j / N) ^ b =
        N * ((∫ t in -Real.pi..Real.pi, Real.cos t ^ a * Real.sin t ^ b) / (2 * Real.pi)) := by
      intro a b hab
      have := circle_mean hab
      rw [div_eq_iff hN] at this
      rw [this, mul_comm]
    have hcos := h1 1 0 (by omega)
    have hsin := h1 0 1 (by omega)
    rw [circle_odd (by decide)] at hcos hsin
    have hcs : ∑ j ∈ Finset.range N, Real.cos (2 * Real.pi * j / N) ^ 1 * Real.sin (2 * Real.pi * j / N) ^ 1 = 0 := by
      rw [h1 1 1 (by omega)]
      have : ∫ t in -Real.pi..Real.pi, Real.cos t ^ 1 * Real.sin t ^ 1 = 0 := by
        have e : (fun t : ℝ => Real.cos t ^ 1 * Real.sin t ^ 1) = fun t => Real.sin t * Real.cos t := by funext t; ring
        rw [e, integral_sin_mul_cos₁]; simp
      rw [this]; ring
    have hc2 : ∑ j ∈ Finset.range N, Real.cos (2 * Real.pi * j / N) ^ 2 * Real.sin (2 * Real.pi * j / N) ^ 0 = N / 2 := by
      rw [h1 2 0 (by omega)]
      have : ∫ t in -Real.pi..Real.pi, Real.cos t ^ 2 * Real.sin t ^ 0 = Real.pi := by
        simp only [pow_zero, mul_one]
        rw [integral_cos_sq]; simp
      rw [this]
      field_simp
    have hs2 : ∑ j ∈ Finset.range N, Real.cos (2 * Real.pi * j / N) ^ 0 * Real.sin (2 * Real.pi * j / N) ^ 2 = N / 2 := by
      rw [h1 0 2 (by omega)]
      have : ∫ t in -Real.pi..Real.pi, Real.cos t ^ 0 * Real.sin t ^ 2 = Real.pi := by
        simp only [pow_zero, one_mul]
        rw [integral_sin_sq]; simp
      rw [this]
      field_simp
    simp only [ringXY, List.map_map, Function.comp_def]
    refine ⟨?_, ?_, ?_, ?_, ?_⟩
    · have := hsum ρ 1 0
      rw [hcos] at this
      simpa using this
    · have := hsum ρ 0 1
      rw [hsin] at this
      simpa using this
    · have := hsum (ρ ^ 2) 1 1
      rw [hcs, mul_zero] at this
      rw [← this]
      exact congrArg List.sum (List.map_congr_left fun j _ => by ring)
    · have := hsum (ρ ^ 2) 2 0
      rw [hc2] at this
      rw [show (N : ℝ) * ρ ^ 2 / 2 = ρ ^ 2 * (N / 2) by ring, ← this]
      exact congrArg List.sum (List.map_congr_left fun j _ => by ring)
    · have := hsum (ρ ^ 2) 0 2
      rw [hs2] at this
      rw [show (N : ℝ) * ρ ^ 2 / 2 = ρ ^ 2 * (N / 2) by ring, ← this]
      exact congrArg List.sum (List.map_congr_left fun j _ => by ring)
  · simp [ringXY]

/-- The weight of a ring in the fit: the number of its points times its radius squared. -/
noncomputable def ringWeight (p : ℝ × ℕ) : ℝ := p.2 * p.1 ^ 2 / 2

/-- Sums over rings of points, with a factor that depends on the distance from the centre. -/
theorem rings_sums (g : ℝ → ℝ) : ∀ rings : List (ℝ × ℕ), (∀ p ∈ rings, 6 ≤ p.2 ∨ p.1 = 0) →
    ((rings.flatMap fun p => ringXY p.1 p.2).map fun p => p.1 * g (p.1 ^ 2 + p.2 ^ 2)).sum = 0 ∧
    ((rings.flatMap fun p => ringXY p.1 p.2).map fun p => p.2 * g (p.1 ^ 2 + p.2 ^ 2)).sum = 0 ∧
    ((rings.flatMap fun p => ringXY p.1 p.2).map fun p => p.1 * p.2 * g (p.1 ^ 2 + p.2 ^ 2)).sum = 0 ∧
    ((rings.flatMap fun p => ringXY p.1 p.2).map fun p => p.1 ^ 2 * g (p.1 ^ 2 + p.2 ^ 2)).sum = (rings.map fun p => ringWeight p * g (p.1 ^ 2)).sum ∧
    ((rings.flatMap fun p => ringXY p.1 p.2).map fun p => p.2 ^ 2 * g (p.1 ^ 2 + p.2 ^ 2)).sum = (rings.map fun p => ringWeight p * g (p.1 ^ 2)).sum
  | [], _ => by simp
  | q :: rest, h => by
    obtain ⟨i1, i2, i3, i4, i5⟩ := rings_sums g rest fun p hp => h p (by simp [hp])
    obtain ⟨r1, r2, r3, r4, r5⟩ := ring_sums (h q (by simp))
    have hg : ∀ F : ℝ × ℝ → ℝ, ((ringXY q.1 q.2).map fun p => F p * g (p.1 ^ 2 + p.2 ^ 2)).sum = ((ringXY q.1 q.2).map F).sum * g (q.1 ^ 2) := by
      intro F
      rw [← List.sum_map_mul_right]
      refine congrArg List.sum (List.map_congr_left fun p hp => ?_)
      obtain ⟨j, -, rfl⟩ := List.mem_map.1 hp
      have := Real.sin_sq_add_cos_sq (2 * Real.pi * j / q.2)
      congr 2
      simp only
      linear_combination q.1 ^ 2 * this
    simp only [List.flatMap_cons, List.map_append, List.sum_append, i1, i2, i3, i4, i5, hg, r1, r2, r3, r4, r5, List.map_cons, List.sum_cons, ringWeight]
    simp

/-- Sums over the indices of a list. -/
theorem sum_index (l : List (ℝ × ℝ)) (g : ℝ × ℝ → ℝ) : ∑ i ∈ Finset.range l.length, g (l.getD i (0, 0)) = (l.map g).sum := by
  induction l with
  | nil => rfl
  | cons a l ih =>
    rw [List.length_cons, Finset.sum_range_succ']
    simp only [List.getD_cons_succ, List.getD_cons_zero, List.map_cons, List.sum_cons]
    rw [ih, add_comm]

/-- The points of the rings have at least sixfold symmetry, or are in the centre. -/
theorem hexRings_six (outer inner : ℝ) (nrad naz : ℕ) : ∀ p ∈ hexRings outer inner nrad naz 6, 6 ≤ p.2 ∨ p.1 = 0 := by
  intro p hp
  obtain ⟨k, -, rfl⟩ := List.mem_map.1 hp
  unfold ringPoints ringRadius
  by_cases h : inner = 0 ∧ k + 1 = nrad
  · right; simp only [if_pos h]
  · left; simp only [if_neg h]; exact le_max_left _ _

/-- Without obscuration nothing is vignetted. -/
theorem turned_lit {d1 d2 : Iface Dbl} {ψ : ℝ} (h : Turned s R ψ m d1 d2) (hR : R ≠ 0) (hn : 0 < n) (hst : m.rot.Orth) (hcs : cs.rot.Orth)
    {L : ℝ} (hL : 0 < L) (haxis : m.rot.tr.mulVec (cs.rot.mulVec d) = ⟨0, 0, -L⟩) (hclear : d1.obscuration = none) {pts : List (ℝ × ℝ)} {fl : List ℝ}
    (hfl : fl.length = pts.length) {rv : RayVec Dbl} (h2 : PlaneWave plane m cs n w back d pts fl rv) (hap : ∀ p ∈ pts, p.1 ^ 2 + p.2 ^ 2 < R ^ 2) :
    ∀ out ∈ (s.trace rv).rays, out.vignetted = false := by
  intro out hout
  obtain ⟨i, hi', hi⟩ := List.getElem_of_mem hout
  have hlt : i < pts.length := by rw [← h2.size, ← trace_size s rv]; exact hi'
  have hp := List.getElem?_eq_getElem hlt
  obtain ⟨ray, out0, r, a1, a2, -, -, -, v, a3, -⟩ := turned_point h hR hn hst hcs hL haxis hfl h2 hp (hap _ (List.getElem_mem hlt))
  obtain ⟨info, ho⟩ := h.optic
  have hv : visits s.optic = [d1, d2] := by
    rw [ho]; simp [visits, visitsItems, Optic.skip, h.skip1, h.skip2]
  obtain ⟨out', b1, -, b3⟩ := bare_fold s.niter false (visits s.optic) rv (by
    rw [hv]; intro d hd
    simp only [List.mem_cons, List.not_mem_nil, or_false] at hd
    rcases hd with rfl | rfl
    · exact hclear
    · exact h.detector.obscuration) i ray a1
  rw [← trace_visits] at b1
  have e : out' = out0 := by
    have : some out' = some out0 := b1.symm.trans a2
    simpa using this
  have e' : out0 = out := by
    rw [List.getElem?_eq_getElem hi', hi] at a2
    exact (Option.some.inj a2).symm
  subst e e'
  obtain ⟨v, -, -, h3⟩ := h2.rays
  obtain ⟨_, _, _, e1, -⟩ := h3 i _ (fl[i]'(by omega)) hp (List.getElem?_eq_getElem _)
  have hr0 := Option.some.inj (a1.symm.trans e1)
  have hv0 : ray.vignetted = false := by rw [hr0]
  rw [hv0, a3] at b3
  simpa using b3

/-- The slope of the wave vector of a paraboloid at the distance `sqrt q` from the axis. -/
noncomputable def mirrorSlope (n w R q : ℝ) : ℝ := -(2 * Real.pi * n / w * (2 * R / (R ^ 2 + q)))

/-- Its mean over the rings. -/
noncomputable def meanSlope (n w R : ℝ) (rings : List (ℝ × ℕ)) : ℝ :=
  (rings.map fun p => ringWeight p * mirrorSlope n w R (p.1 ^ 2)).sum / (rings.map ringWeight).sum

/-- **C90**: for a paraboloid of radius of curvature `R` without obscuration and a detector turned by `ψ`, the derivative is the slope of the
wave vectors, averaged over the rings with the weights of a least squares fit, times a rotation by `ψ`. -/
theorem C90_newtonian {d1 d2 : Iface Dbl} {ψ : ℝ} (h : Turned s R ψ m d1 d2) (hR : R ≠ 0) (hs : LegalSystem s plane m cs n w back pupil)
    (hd : FieldAngle thx thy projection d) {L : ℝ} (hL : 0 < L) (haxis : m.rot.tr.mulVec (cs.rot.mulVec d) = ⟨0, 0, -L⟩) (hpar : m.rot = cs.rot)
    (hclear : d1.obscuration = none) (hp : 0 < pupil) (hi : PupilInner s pupil inner) (hr : 2 ≤ nrad)
    (hap : ∀ p ∈ polarPoints pupil inner nrad naz, p.1 ^ 2 + p.2 ^ 2 < R ^ 2) (junk : ℕ → Dbl) {lstsq : Lstsq Dbl} (hl : LeastSquares lstsq) (hw : w ≠ 0) :
    ∃ A, A = meanSlope n w R (hexRings (pupil / 2) inner nrad naz 6) ∧
      dkdu lstsq junk s thx thy (Dbl.fin w) nrad naz projection = .ok
        ⟨Dbl.fin (A * Real.cos ψ), Dbl.fin (-(A * Real.sin ψ)), Dbl.fin (A * Real.sin ψ), Dbl.fin (A * Real.cos ψ)⟩ := by
  obtain ⟨rv, w1, key⟩ := C90_fit hs hd hp hi (show 0 < nrad by omega) (plane_onSurface _) junk hl hw (naz := naz)
  have hn := hs.n
  set pts := polarPoints pupil inner nrad naz with hptsdef
  set rings := hexRings (pupil / 2) inner nrad naz 6 with hrings
  have hlen : (s.trace rv).rays.length = pts.length := by rw [trace_size, w1.size]
  have hpt := fun (i : ℕ) p (hip : pts[i]? = some p) => turned_point h hR hn hs.stop hs.cs hL haxis (by simp) w1 hip (hap p (List.mem_of_getElem? hip))
  -- nothing is vignetted
  have hlit : litAt (s.trace rv).rays = Finset.range pts.length := by
    unfold litAt
    rw [hlen]
    refine Finset.filter_true_of_mem fun i hi => ?_
    obtain ⟨out, ho⟩ : ∃ out, (s.trace rv).rays[i]? = some out := ⟨_, List.getElem?_eq_getElem (hlen.symm ▸ Finset.mem_range.1 hi)⟩
    exact ⟨out, ho, turned_lit h hR hn hs.stop hs.cs hL haxis hclear (by simp) w1 hap out (List.mem_of_getElem? ho)⟩
  -- where the rays start
  have hstart : ∀ r : V3 ℝ, (m.toLocal (cs.toGlobal r)).x = r.x + (m.toLocal cs.origin).x ∧ (m.toLocal (cs.toGlobal r)).y = r.y + (m.toLocal cs.origin).y := by
    intro r
    have hsplit : m.toLocal (cs.toGlobal r) = m.toLocal cs.origin + m.rot.tr.mulVec (cs.rot.mulVec r) := by
      unfold CoordSys.toLocal CoordSys.toGlobal
      ext <;> simp [M3.mulVec, V3.dot] <;> ring
    rw [hsplit, hpar, hs.cs.tr_mulVec]
    simp [add_comm]
  set X := (m.toLocal cs.origin).x
  set Y := (m.toLocal cs.origin).y
  have hget : ∀ i, i ∈ litAt (s.trace rv).rays → pts[i]? = some (pts.getD i (0, 0)) := by
    intro i hi
    rw [hlit] at hi
    have hi := Finset.mem_range.1 hi
    simp [List.getD_eq_getElem?_getD, hi]
  have hring0 : (pupil / 2, ringPoints (pupil / 2) inner nrad naz 6 0) ∈ rings := by
    refine List.mem_map.2 ⟨0, List.mem_range.2 (by omega), ?_⟩
    unfold ringRadius
    rw [if_neg (by omega)]
    simp
  have hS : 0 < (rings.map ringWeight).sum := by
    have hnn : ∀ x ∈ rings.map ringWeight, 0 ≤ x := by
      intro x hx
      obtain ⟨q, -, rfl⟩ := List.mem_map.1 hx
      unfold ringWeight; positivity
    refine lt_of_lt_of_le ?_ (List.single_le_sum hnn _ (List.mem_map_of_mem hring0))
    have : 6 ≤ ringPoints (pupil / 2) inner nrad naz 6 0 := by
      unfold ringPoints
      rw [if_neg (by omega)]
      exact le_max_left _ _
    have h6 : (6 : ℝ) ≤ (ringPoints (pupil / 2) inner nrad naz 6 0 : ℝ) := by exact_mod_cast this
    unfold ringWeight
    simp only
    have : 0 < (ringPoints (pupil / 2) inner nrad naz 6 0 : ℝ) := by linarith
    positivity
  refine ⟨_, rfl, ?_⟩
  set A := meanSlope n w R rings with hA
  have hAS : (rings.map fun p => ringWeight p * mirrorSlope n w R (p.1 ^ 2)).sum = (rings.map ringWeight).sum * A := by
    rw [hA, meanSlope]; field_simp
  obtain ⟨c, e, k1, k2, k3⟩ := key (fun i => ((pts.getD i (0, 0)).1 - X, (pts.getD i (0, 0)).2 - Y))
    (fun i => (RotZ ψ).tr.mulVec (V3.smulR ⟨2 * R * (pts.getD i (0, 0)).1, 2 * R * (pts.getD i (0, 0)).2, (pts.getD i (0, 0)).1 ^ 2 + (pts.getD i (0, 0)).2 ^ 2 - R ^ 2⟩
      (-(1 / n) / (R ^ 2 + (pts.getD i (0, 0)).1 ^ 2 + (pts.getD i (0, 0)).2 ^ 2)))) (by
      rw [hlit]
      refine ⟨0, Finset.mem_range.2 (List.length_pos_of_mem (a := (pupil / 2 * 1, pupil / 2 * 0)) ?_)⟩
      refine List.mem_flatMap.2 ⟨_, hring0, List.mem_map.2 ⟨0, List.mem_range.2 ?_, by simp⟩⟩
      simp only
      unfold ringPoints
      rw [if_neg (by omega)]
      exact lt_of_lt_of_le (by norm_num) (le_max_left _ _)) (by
      intro i hi
      have hp' := hget i hi
      obtain ⟨ray, out, r, b1, b2, b3, b4, b5, v, -, -, c1, -, c2, -, c3⟩ := hpt i _ hp'
      rw [← c3]
      rw [(hstart r).1] at b4
      rw [(hstart r).2] at b5
      refine ⟨by rw [c2]; positivity, ray, out, b1, b2, ?_, ?_, c1⟩
      · rw [b3, ← b4]; simp
      · rw [b3, ← b5]; simp)
  have hval : ∀ i ∈ litAt (s.trace rv).rays,
      2 * Real.pi / w * (((RotZ ψ).tr.mulVec (V3.smulR ⟨2 * R * (pts.getD i (0, 0)).1, 2 * R * (pts.getD i (0, 0)).2, (pts.getD i (0, 0)).1 ^ 2 + (pts.getD i (0, 0)).2 ^ 2 - R ^ 2⟩
        (-(1 / n) / (R ^ 2 + (pts.getD i (0, 0)).1 ^ 2 + (pts.getD i (0, 0)).2 ^ 2)))).x /
        V3.normSq ((RotZ ψ).tr.mulVec (V3.smulR ⟨2 * R * (pts.getD i (0, 0)).1, 2 * R * (pts.getD i (0, 0)).2, (pts.getD i (0, 0)).1 ^ 2 + (pts.getD i (0, 0)).2 ^ 2 - R ^ 2⟩
        (-(1 / n) / (R ^ 2 + (pts.getD i (0, 0)).1 ^ 2 + (pts.getD i (0, 0)).2 ^ 2))))) =
        (Real.cos ψ * (pts.getD i (0, 0)).1 + Real.sin ψ * (pts.getD i (0, 0)).2) * mirrorSlope n w R ((pts.getD i (0, 0)).1 ^ 2 + (pts.getD i (0, 0)).2 ^ 2) ∧
      2 * Real.pi / w * (((RotZ ψ).tr.mulVec (V3.smulR ⟨2 * R * (pts.getD i (0, 0)).1, 2 * R * (pts.getD i (0, 0)).2, (pts.getD i (0, 0)).1 ^ 2 + (pts.getD i (0, 0)).2 ^ 2 - R ^ 2⟩
        (-(1 / n) / (R ^ 2 + (pts.getD i (0, 0)).1 ^ 2 + (pts.getD i (0, 0)).2 ^ 2)))).y /
        V3.normSq ((RotZ ψ).tr.mulVec (V3.smulR ⟨2 * R * (pts.getD i (0, 0)).1, 2 * R * (pts.getD i (0, 0)).2, (pts.getD i (0, 0)).1 ^ 2 + (pts.getD i (0, 0)).2 ^ 2 - R ^ 2⟩
        (-(1 / n) / (R ^ 2 + (pts.getD i (0, 0)).1 ^ 2 + (pts.getD i (0, 0)).2 ^ 2))))) =
        (-Real.sin ψ * (pts.getD i (0, 0)).1 + Real.cos ψ * (pts.getD i (0, 0)).2) * mirrorSlope n w R ((pts.getD i (0, 0)).1 ^ 2 + (pts.getD i (0, 0)).2 ^ 2) := by
    intro i hi
    obtain ⟨ray, out, r, b1, b2, b3, b4, b5, v, -, -, c1, -, c2, -, c3⟩ := hpt i _ (hget i hi)
    generalize pts.getD i (0, 0) = q at c3
    have hQ : R ^ 2 + q.1 ^ 2 + q.2 ^ 2 ≠ 0 := by positivity
    have hQ' : R ^ 2 + (q.1 ^ 2 + q.2 ^ 2) ≠ 0 := by positivity
    rw [← c3, c2, c3]
    constructor
    · simp only [RotZ, M3.tr, M3.mulVec, V3.dot, V3.smulR_x, V3.smulR_y, V3.smulR_z, mirrorSlope]
      field_simp
      ring
    · simp only [RotZ, M3.tr, M3.mulVec, V3.dot, V3.smulR_x, V3.smulR_y, V3.smulR_z, mirrorSlope]
      field_simp
      ring
  obtain ⟨s1, s2, s3, s4, s5⟩ := rings_sums (fun _ => 1) rings (hexRings_six _ _ _ _)
  obtain ⟨t1, t2, t3, t4, t5⟩ := rings_sums (mirrorSlope n w R) rings (hexRings_six _ _ _ _)
  simp only [mul_one] at s1 s2 s3 s4 s5
  have hpr : (rings.flatMap fun p => ringXY p.1 p.2) = pts := rfl
  rw [hpr] at s1 s2 s3 s4 s5 t1 t2 t3 t4 t5
  rw [hAS] at t4 t5
  have hsum : ∀ g : ℝ × ℝ → ℝ, ∑ i ∈ litAt (s.trace rv).rays, g (pts.getD i (0, 0)) = (pts.map g).sum := by
    intro g; rw [hlit]; exact sum_index pts g
  have hlin : ∀ (a b : ℝ) (F G : ℝ × ℝ → ℝ), (pts.map fun q => a * F q + b * G q).sum = a * (pts.map F).sum + b * (pts.map G).sum := by
    intro a b F G
    rw [List.sum_map_add, List.sum_map_mul_left, List.sum_map_mul_left]
  have hfit := fun (k : ℕ → ℝ) (c0 c1 c2 a b : ℝ) (hk : ∀ i ∈ litAt (s.trace rv).rays, k i = (a * (pts.getD i (0, 0)).1 + b * (pts.getD i (0, 0)).2) *
      mirrorSlope n w R ((pts.getD i (0, 0)).1 ^ 2 + (pts.getD i (0, 0)).2 ^ 2)) (hb : BestPlane (litAt (s.trace rv).rays)
        (fun i => ((pts.getD i (0, 0)).1 - X, (pts.getD i (0, 0)).2 - Y)) k c0 c1 c2) =>
    bestPlane_symmetric (p := fun i => pts.getD i (0, 0)) (B := a * A) (C := b * A) hb hS (by rw [hsum Prod.fst]; exact s1) (by rw [hsum Prod.snd]; exact s2)
      (by rw [hsum fun q => q.1 * q.2]; exact s3) (by rw [hsum fun q => q.1 ^ 2]; exact s4) (by rw [hsum fun q => q.2 ^ 2]; exact s5)
      (by
        rw [Finset.sum_congr rfl hk, hsum fun q => (a * q.1 + b * q.2) * mirrorSlope n w R (q.1 ^ 2 + q.2 ^ 2)]
        have := hlin a b (fun q => q.1 * mirrorSlope n w R (q.1 ^ 2 + q.2 ^ 2)) (fun q => q.2 * mirrorSlope n w R (q.1 ^ 2 + q.2 ^ 2))
        rw [t1, t2] at this
        rw [← show a * 0 + b * 0 = (0 : ℝ) by ring, ← this]
        exact congrArg List.sum (List.map_congr_left fun q _ => by ring))
      (by
        rw [Finset.sum_congr rfl fun i hi => by rw [hk i hi], hsum fun q => q.1 * ((a * q.1 + b * q.2) * mirrorSlope n w R (q.1 ^ 2 + q.2 ^ 2))]
        have := hlin a b (fun q => q.1 ^ 2 * mirrorSlope n w R (q.1 ^ 2 + q.2 ^ 2)) (fun q => q.1 * q.2 * mirrorSlope n w R (q.1 ^ 2 + q.2 ^ 2))
        rw [t3, t4] at this
        rw [show (rings.map ringWeight).sum * (a * A) = a * ((rings.map ringWeight).sum * A) + b * 0 by ring, ← this]
        exact congrArg List.sum (List.map_congr_left fun q _ => by ring))
      (by
        rw [Finset.sum_congr rfl fun i hi => by rw [hk i hi], hsum fun q => q.2 * ((a * q.1 + b * q.2) * mirrorSlope n w R (q.1 ^ 2 + q.2 ^ 2))]
        have := hlin a b (fun q => q.1 * q.2 * mirrorSlope n w R (q.1 ^ 2 + q.2 ^ 2)) (fun q => q.2 ^ 2 * mirrorSlope n w R (q.1 ^ 2 + q.2 ^ 2))
        rw [t3, t5] at this
        rw [show (rings.map ringWeight).sum * (b * A) = a * 0 + b * ((rings.map ringWeight).sum * A) by ring, ← this]
        exact congrArg List.sum (List.map_congr_left fun q _ => by ring))
  obtain ⟨u1, u2⟩ := hfit _ _ _ _ (Real.cos ψ) (Real.sin ψ) (fun i hi => (hval i hi).1) k2
  obtain ⟨v1, v2⟩ := hfit _ _ _ _ (-Real.sin ψ) (Real.cos ψ) (fun i hi => (hval i hi).2) k3
  rw [k1, u1, u2, v1, v2]
  congr 2 <;> congr 1 <;> ring

/-- The slope of a mirror is negative, for positive wavelengths. -/
theorem meanSlope_ne (hn : 0 < n) (hw : w ≠ 0) (hR : R ≠ 0) {rings : List (ℝ × ℕ)} (hS : ∃ p ∈ rings, 0 < ringWeight p) : meanSlope n w R rings ≠ 0 := by
  have hnn : ∀ p : ℝ × ℕ, 0 ≤ ringWeight p := fun p => by unfold ringWeight; positivity
  obtain ⟨q, hq, hq'⟩ := hS
  have hpos : 0 < (rings.map ringWeight).sum := by
    refine lt_of_lt_of_le hq' (List.single_le_sum ?_ _ (List.mem_map_of_mem hq))
    intro x hx
    obtain ⟨p, -, rfl⟩ := List.mem_map.1 hx
    exact hnn p
  have hpos2 : 0 < (rings.map fun p => ringWeight p * (1 / (R ^ 2 + p.1 ^ 2))).sum := by
    refine lt_of_lt_of_le (b := ringWeight q * (1 / (R ^ 2 + q.1 ^ 2))) (by positivity) (List.single_le_sum ?_ _ (List.mem_map_of_mem (f := fun p : ℝ × ℕ => ringWeight p * (1 / (R ^ 2 + p.1 ^ 2))) hq))
    intro x hx
    obtain ⟨p, -, rfl⟩ := List.mem_map.1 hx
    have := hnn p
    positivity
  have e : (rings.map fun p => ringWeight p * mirrorSlope n w R (p.1 ^ 2)).sum = -(2 * Real.pi * n / w * (2 * R)) * (rings.map fun p => ringWeight p * (1 / (R ^ 2 + p.1 ^ 2))).sum := by
    rw [← List.sum_map_mul_left]
    refine congrArg List.sum (List.map_congr_left fun p _ => ?_)
    unfold mirrorSlope
    ring
  unfold meanSlope
  rw [e]
  have := Real.pi_pos
  refine div_ne_zero (mul_ne_zero (neg_ne_zero.2 ?_) hpos2.ne') hpos.ne'
  positivity

/-- The telescope of `newton` without its central obscuration, with the detector turned by `ψ`. -/
noncomputable def clearNewton (ψ : ℝ) : System Dbl :=
  { newton with optic := demoComp "T" [.iface { demoMirror with surface := Surface.paraboloid (Dbl.fin 20), obscuration := none },
      .iface { demoFlat "D" 10 with coordSys := (CoordSys.mk ⟨0, 0, 10⟩ (RotZ ψ)).fin }] }

theorem clearNewton_optic (ψ : ℝ) : Turned (clearNewton ψ) 20 ψ (CoordSys.std ℝ) { demoMirror with surface := Surface.paraboloid (Dbl.fin 20), obscuration := none }
    { demoFlat "D" 10 with coordSys := (CoordSys.mk ⟨0, 0, 10⟩ (RotZ ψ)).fin } where
  optic := ⟨_, rfl⟩
  mirror := ⟨rfl, rfl, rfl, std_orth⟩
  detector := ⟨rfl, rfl, rfl, by
    rw [std_toGlobal]
    norm_num
    simp [CoordSys.std, M3.one, M3.mul], std_orth.mul (rotZ_orth ψ)⟩
  skip1 := rfl
  skip2 := rfl

theorem clearNewton_legal (ψ : ℝ) : LegalSystem (clearNewton ψ) plane (CoordSys.std ℝ) globalFrame 1 (1 / 2) 30 4 :=
  ⟨rfl, ⟨_, rfl, rfl⟩, rfl, rfl, rfl, std_orth, globalFrame_orth, one_pos⟩

theorem clearNewton_aperture (nrad naz : ℕ) : ∀ p ∈ polarPoints 4 0 nrad naz, p.1 ^ 2 + p.2 ^ 2 < (20 : ℝ) ^ 2 := by
  intro p hp
  obtain ⟨q, hq, hp⟩ := List.mem_flatMap.1 hp
  obtain ⟨k, hk, rfl⟩ := List.mem_map.1 hq
  obtain ⟨j, -, rfl⟩ := List.mem_map.1 hp
  have h1 := ringRadius_between (outer := 4 / 2) (inner := 0) nrad k (List.mem_range.1 hk) (by norm_num) le_rfl
  norm_num at h1
  have h2 := Real.sin_sq_add_cos_sq (2 * Real.pi * j / (ringPoints (4 / 2) 0 nrad naz 6 k))
  have h3 : ringRadius (4 / 2) 0 nrad k ^ 2 ≤ 2 ^ 2 := by
    norm_num [div_eq_mul_inv] at h1 ⊢
    nlinarith [h1.1, h1.2]
  simp only [mul_pow]
  nlinarith [h3]

/-- Radius 20, pupil 4, the detector turned by a quarter, default numbers of rays: the derivative is a multiple of a rotation by a quarter. -/
example (junk : ℕ → Dbl) {lstsq : Lstsq Dbl} (hl : LeastSquares lstsq) : ∃ A : ℝ, A ≠ 0 ∧
    dkdu lstsq junk (clearNewton (Real.pi / 2)) (Dbl.fin 0) (Dbl.fin 0) (Dbl.fin (1 / 2)) (6 : ℕ) (36 : ℕ) "orthographic" = .ok
      ⟨Dbl.fin 0, Dbl.fin (-A), Dbl.fin A, Dbl.fin 0⟩ := by
  obtain ⟨A, h1, h2⟩ := C90_newtonian (clearNewton_optic (Real.pi / 2)) (by norm_num) (clearNewton_legal _) newton_field one_pos newton_axis rfl rfl
    (by norm_num) (.inr ⟨rfl, rfl⟩) (nrad := 6) (by norm_num) (clearNewton_aperture 6 36) junk hl (by norm_num)
  refine ⟨A, ?_, by simpa using h2⟩
  rw [h1]
  refine meanSlope_ne one_pos (by norm_num) (by norm_num) ⟨(4 / 2, ringPoints (4 / 2) 0 6 36 6 0), List.mem_map.2 ⟨0, List.mem_range.2 (by norm_num), by simp [ringRadius]⟩, ?_⟩
  have : 6 ≤ ringPoints (4 / 2) 0 6 36 6 0 := by
    unfold ringPoints
    rw [if_neg (by omega)]
    exact le_max_left _ _
  have h6 : (6 : ℝ) ≤ (ringPoints (4 / 2) 0 6 36 6 0 : ℝ) := by exact_mod_cast this
  unfold ringWeight
  simp only
  linarith

end Batoid.Props
