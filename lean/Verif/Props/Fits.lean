import Verif.Props.LeastSquares
import Verif.Props.Zernike
import Verif.Props.Screen

/-!
# Property C87: Zernike coefficients by least squares
-/

namespace Batoid.Props
open Batoid Batoid.Analysis Batoid.Construct

/-! ## Specification -/

/-- The sum of the squares of what the combination of the functions `Z j` leaves of the data.  Each observation has the values of the
functions and the datum. -/
def leftover (J : Finset ℕ) (obs : List ((ℕ → ℝ) × ℝ)) (c : ℕ → ℝ) : ℝ := (obs.map fun o => (o.2 - ∑ j ∈ J, c j * o.1 j) ^ 2).sum

/-- No other coefficients leave less. -/
def BestFit (J : Finset ℕ) (obs : List ((ℕ → ℝ) × ℝ)) (c : ℕ → ℝ) : Prop := ∀ c', leftover J obs c ≤ leftover J obs c'

/-- The observations tell the functions apart. -/
def Distinguishes (J : Finset ℕ) (obs : List ((ℕ → ℝ) × ℝ)) : Prop :=
  ∀ c : ℕ → ℝ, (∀ o ∈ obs, ∑ j ∈ J, c j * o.1 j = 0) → ∀ j ∈ J, c j = 0

/-- The best fit to a combination has its coefficients. -/
theorem bestFit_recovers {J : Finset ℕ} {obs : List ((ℕ → ℝ) × ℝ)} (hi : Distinguishes J obs) {c a : ℕ → ℝ} (hc : BestFit J obs c)
    (ha : ∀ o ∈ obs, o.2 = ∑ j ∈ J, a j * o.1 j) : ∀ j ∈ J, c j = a j := by
  have h0 : leftover J obs c ≤ 0 := by
    refine (hc a).trans (le_of_eq ?_)
    unfold leftover
    refine List.sum_eq_zero fun x hx => ?_
    obtain ⟨o, ho, rfl⟩ := List.mem_map.1 hx
    rw [ha o ho, sub_self]
    norm_num
  have h1 : ∀ o ∈ obs, o.2 - ∑ j ∈ J, c j * o.1 j = 0 := by
    intro o ho
    have := List.single_le_sum (l := obs.map fun o => (o.2 - ∑ j ∈ J, c j * o.1 j) ^ 2)
      (by intro x hx; obtain ⟨o, _, rfl⟩ := List.mem_map.1 hx; exact sq_nonneg _) _ (List.mem_map_of_mem ho)
    exact pow_eq_zero_iff two_ne_zero |>.1 (le_antisymm (this.trans h0) (sq_nonneg _))
  intro j hj
  have := hi (fun j => c j - a j) (by
    intro o ho
    have e1 := h1 o ho
    have e2 := ha o ho
    simp only [sub_mul, Finset.sum_sub_distrib]
    linarith) j hj
  linarith

/-! ## From lists to matrices -/

/-- The matrix of the observations. -/
def obsMatrix (n : ℕ) (obs : List ((ℕ → ℝ) × ℝ)) : Matrix (Fin obs.length) (Fin n) ℝ := fun i j => (obs[i]).1 j

theorem obsMatrix_rows (n : ℕ) (obs : List ((ℕ → ℝ) × ℝ)) :
    rowsOf (obsMatrix n obs) = obs.map fun o => (List.range n).map fun j => Dbl.fin (o.1 j) := by
  apply List.ext_getElem
  · simp [rowsOf]
  · intro i h1 h2
    simp only [rowsOf, List.getElem_ofFn, List.getElem_map, vecOf]
    apply List.ext_getElem
    · simp
    · intro j h3 h4
      simp [obsMatrix]

theorem obsVector (obs : List ((ℕ → ℝ) × ℝ)) : vecOf (fun i : Fin obs.length => (obs[i]).2) = obs.map fun o => Dbl.fin o.2 := by
  apply List.ext_getElem <;> simp [vecOf]

/-- A vector as a function. -/
def extend {n : ℕ} (x : Fin n → ℝ) (j : ℕ) : ℝ := if h : j < n then x ⟨j, h⟩ else 0

theorem extend_sum {n k : ℕ} (B : ℕ → ℝ) (hB : ∀ j < k, B j = 0) (c : ℕ → ℝ) :
    ∑ j : Fin n, B j * c j = ∑ j ∈ Finset.Ico k n, c j * B j := by
  rw [Fin.sum_univ_eq_sum_range (fun j => B j * c j) n, Finset.sum_subset (s₁ := Finset.Ico k n) (s₂ := Finset.range n)]
  · exact Finset.sum_congr rfl fun j _ => mul_comm _ _
  · intro j hj
    simp only [Finset.mem_Ico, Finset.mem_range] at *
    exact hj.2
  · intro j h1 h2
    simp only [Finset.mem_Ico, Finset.mem_range] at *
    rw [hB j (by omega), mul_zero]

theorem vecOf_extend {n : ℕ} (x : Fin n → ℝ) : vecOf x = ((List.range n).map (extend x)).map Dbl.fin := by
  apply List.ext_getElem
  · simp [vecOf]
  · intro i h1 h2
    simp at h2
    simp [vecOf, extend, h2]

theorem leftover_misfit {n k : ℕ} {obs : List ((ℕ → ℝ) × ℝ)} (hB : ∀ o ∈ obs, ∀ j < k, o.1 j = 0) (c : ℕ → ℝ) :
    misfit (obsMatrix n obs) (fun i => (obs[i]).2) (fun j => c j) = leftover (Finset.Ico k n) obs c := by
  unfold misfit leftover
  rw [← Fin.sum_univ_fun_getElem]
  refine Finset.sum_congr rfl fun i _ => ?_
  rw [← extend_sum (n := n) _ (hB _ (List.getElem_mem _)) c]
  rfl

/-- The fit of functions of which the first `k` are zero, from `lstsq`. -/
theorem fit_core {lstsq : Lstsq Dbl} (hl : LeastSquares lstsq) {k n : ℕ} (hk : k < n) {obs : List ((ℕ → ℝ) × ℝ)} (hB : ∀ o ∈ obs, ∀ j < k, o.1 j = 0) :
    (Distinguishes (Finset.Ico k n) obs →
      n - k ≤ (lstsq (obs.map fun o => (List.range n).map fun j => Dbl.fin (o.1 j)) (obs.map fun o => Dbl.fin o.2)).2 ∧
      ∃ x : ℕ → ℝ, (lstsq (obs.map fun o => (List.range n).map fun j => Dbl.fin (o.1 j)) (obs.map fun o => Dbl.fin o.2)).1 =
        ((List.range n).map x).map Dbl.fin ∧ (∀ j < k, x j = 0) ∧ BestFit (Finset.Ico k n) obs x) ∧
    (¬ Distinguishes (Finset.Ico k n) obs →
      (lstsq (obs.map fun o => (List.range n).map fun j => Dbl.fin (o.1 j)) (obs.map fun o => Dbl.fin o.2)).2 < n - k) := by
  obtain ⟨h1, h2⟩ := hl obs.length n (obsMatrix n obs) (fun i => (obs[i]).2)
  rw [obsMatrix_rows, obsVector] at h1 h2
  have hz : ∀ i (j : Fin n), (j : ℕ) < k → obsMatrix n obs i j = 0 := fun i j hj => hB _ (List.getElem_mem _) j hj
  have hcard : (Finset.univ.filter fun j : Fin n => (j : ℕ) < k).card = k := by
    rw [Fin.card_filter_val_lt]
    omega
  have hrank := rank_independent (zero := fun j : Fin n => (j : ℕ) < k) hz
  rw [hcard, ← h1] at hrank
  have hmul : ∀ (c : ℕ → ℝ) (i : Fin obs.length), ((obsMatrix n obs).mulVec fun j => c j) i = ∑ j ∈ Finset.Ico k n, c j * (obs[i]).1 j := by
    intro c i
    exact extend_sum (n := n) (obs[i]).1 (hB _ (List.getElem_mem i.2)) c
  have hind : Distinguishes (Finset.Ico k n) obs ↔ IndependentCols (obsMatrix n obs) (fun j : Fin n => (j : ℕ) < k) := by
    constructor
    · intro h c hc j hj
      have := h (extend c) (by
        intro o ho
        obtain ⟨i, hi, rfl⟩ := List.getElem_of_mem ho
        have e := congrFun hc ⟨i, hi⟩
        have e' := hmul (extend c) ⟨i, hi⟩
        have e3 : (fun j : Fin n => extend c j) = c := by funext j; simp [extend]
        rw [e3, e] at e'
        exact e'.symm) j (Finset.mem_Ico.2 ⟨not_lt.1 hj, j.2⟩)
      simpa [extend] using this
    · intro h c hc j hj
      rw [Finset.mem_Ico] at hj
      exact h (fun j => c j) (by
        funext i
        rw [hmul]
        exact hc _ (List.getElem_mem _)) ⟨j, hj.2⟩ (not_lt.2 hj.1)
  constructor
  · intro h
    have hne : 0 < obs.length := by
      rcases Nat.eq_zero_or_pos obs.length with h0 | h0
      · have := h (fun _ => 1) (by rw [List.length_eq_zero_iff.1 h0]; simp) k (Finset.mem_Ico.2 ⟨le_rfl, hk⟩)
        exact absurd this one_ne_zero
      · exact h0
    obtain ⟨x, e, hx⟩ := h2 hne
    refine ⟨hrank.1 (hind.1 h), extend x, by rw [e, vecOf_extend], ?_, ?_⟩
    · intro j hj
      have hjn : j < n := by omega
      simp only [extend, hjn, dif_pos]
      exact solution_zero hx fun i => hz i ⟨j, hjn⟩ hj
    · intro c'
      rw [← leftover_misfit hB, ← leftover_misfit hB]
      have e3 : (fun j : Fin n => extend x j) = x := by funext j; simp [extend]
      rw [e3]
      exact hx.1 _
  · intro h
    rw [hind, hrank] at h
    omega

/-- Only the functions with index in `J` matter. -/
theorem fit_congr {J : Finset ℕ} {A : Type} {l : List A} {f g : A → ℕ → ℝ} {v : A → ℝ} (h : ∀ a ∈ l, ∀ j ∈ J, f a j = g a j) :
    (Distinguishes J (l.map fun a => (f a, v a)) ↔ Distinguishes J (l.map fun a => (g a, v a))) ∧
      ∀ c, BestFit J (l.map fun a => (f a, v a)) c ↔ BestFit J (l.map fun a => (g a, v a)) c := by
  have e : ∀ a ∈ l, ∀ c : ℕ → ℝ, ∑ j ∈ J, c j * f a j = ∑ j ∈ J, c j * g a j := fun a ha c =>
    Finset.sum_congr rfl fun j hj => by rw [h a ha j hj]
  have hl : ∀ c, leftover J (l.map fun a => (f a, v a)) c = leftover J (l.map fun a => (g a, v a)) c := by
    intro c
    unfold leftover
    rw [List.map_map, List.map_map]
    refine congrArg _ (List.map_congr_left fun a ha => ?_)
    simp only [Function.comp, e a ha]
  refine ⟨?_, fun c => ?_⟩
  · unfold Distinguishes
    simp only [List.forall_mem_map]
    refine forall_congr' fun c => imp_congr (forall₂_congr fun a ha => ?_) Iff.rfl
    rw [e a ha]
  · unfold BestFit
    simp only [hl]

/-- A list of observations, over the points `pts`, of `Z` and `W`. -/
def pupilData (Z : ℕ → ℝ × ℝ → ℝ) (W : ℝ × ℝ → ℝ) (pts : List (ℝ × ℝ)) : List ((ℕ → ℝ) × ℝ) := pts.map fun p => (fun j => Z j p, W p)

/-- The points of which the flag is not set. -/
def unmasked (pts : List (ℝ × ℝ)) (mask : List Bool) : List (ℝ × ℝ) := ((pts.zip mask).filter fun c => !c.2).map (·.1)

/-! ## The arrays -/

theorem transpose_rows {m : ℕ} (B : ℕ → (Dbl × Dbl) → Dbl) (pts : List (Dbl × Dbl)) {k : ℕ} (hk : pts.length = k) :
    transpose ((List.range m).map fun j => pts.map (B j)) k = pts.map fun p => (List.range m).map fun j => B j p := by
  subst hk
  unfold transpose
  apply List.ext_getElem
  · simp
  · intro i h1 h2
    simp at h2
    simp [List.getD_eq_getElem?_getD, h2]

theorem filter_data {V : Type} {g : ℝ × ℝ → V} (pts : List (ℝ × ℝ)) (cells : List (V × Bool))
    (h : ∀ (i : ℕ) p x, pts[i]? = some p → cells[i]? = some (x, false) → x = g p) :
    ((pts.map fun p => (Dbl.fin p.1, Dbl.fin p.2)).zip cells).filter (fun c => !c.2.2) =
      (unmasked pts (cells.map (·.2))).map fun p => ((Dbl.fin p.1, Dbl.fin p.2), g p, false) := by
  induction pts generalizing cells with
  | nil => simp [unmasked]
  | cons p pts ih =>
    cases cells with
    | nil => simp [unmasked]
    | cons c cells =>
      have ih' := ih cells fun i q x h1 h2 => h (i + 1) q x h1 h2
      obtain ⟨x, b⟩ := c
      unfold unmasked at ih' ⊢
      simp only [List.map_cons, List.zip_cons_cons, List.filter_cons]
      cases b with
      | true => simpa using ih'
      | false =>
        have := h 0 p x rfl rfl
        subst this
        simpa using ih'

/-- The same with all the rays. -/
theorem all_data {V : Type} {g : ℝ × ℝ → V} (pts : List (ℝ × ℝ)) (cells : List (V × Bool)) (hl : cells.length = pts.length)
    (h : ∀ (i : ℕ) p x b, pts[i]? = some p → cells[i]? = some (x, b) → x = g p) :
    ((pts.map fun p => (Dbl.fin p.1, Dbl.fin p.2)).zip cells).map (fun c => (c.1, c.2.1)) = pts.map fun p => ((Dbl.fin p.1, Dbl.fin p.2), g p) := by
  induction pts generalizing cells with
  | nil => simp
  | cons p pts ih =>
    cases cells with
    | nil => simp at hl
    | cons c cells =>
      obtain ⟨x, b⟩ := c
      have := h 0 p x b rfl rfl
      subst this
      simp only [List.map_cons, List.zip_cons_cons]
      rw [ih cells (by simpa using hl) fun i q y b h1 h2 => h (i + 1) q y b h1 h2]

/-! ## C87 -/

variable {s : System Dbl} {surf : Surface Dbl} {stop cs : CoordSys ℝ} {n w back pupil : ℝ} {d : V3 ℝ} {thx thy : Dbl} {projection : String}

/-- **C87** for `zernike`: the coefficients are the least squares fit of the Zernike polynomials to the wavefront at the unvignetted
points of the pupil, if these points tell the polynomials apart; otherwise RuntimeError. -/
theorem C87_zernike (h : LegalSystem s surf stop cs n w back pupil) (hd : FieldAngle thx thy projection d) {nx : ℕ} (hnx : 0 < nx)
    (hs : OnSurface surf (pupilGrid nx pupil))
    (hfind : ∀ c, 0 < c → Finds surf s.niter (stop.rot.tr.mulVec (cs.rot.mulVec (d.smulR c))) (pupilGrid nx pupil))
    {lstsq : Lstsq Dbl} (hl : LeastSquares lstsq) {sphereRadius : Option Dbl} {ref : Reference} {wf : Analysis.Wavefront Dbl}
    (hwf : wavefront s thx thy (Dbl.fin w) projection nx sphereRadius ref = .ok wf) {W : ℝ × ℝ → ℝ}
    (hW : ∀ (i : ℕ) p x, (pupilGrid nx pupil)[i]? = some p → wf.cells[i]? = some (x, false) → x = Dbl.fin (W p))
    {eps : ℝ} {zern : Family Dbl} {Z : ℕ → ℝ × ℝ → ℝ} {jmax : ℕ} (hj : 0 < jmax)
    (hZ : ∀ j x y, 1 ≤ j → j ≤ jmax → zern j (Dbl.fin (pupil / 2)) (Dbl.fin (pupil / 2 * eps)) (Dbl.fin x) (Dbl.fin y) = Dbl.fin (Z j (x, y))) :
    (Distinguishes (Finset.Icc 1 jmax) (pupilData Z W (unmasked (pupilGrid nx pupil) (wf.cells.map (·.2)))) →
      ∃ c : ℕ → ℝ, zernike lstsq zern s thx thy (Dbl.fin w) projection nx sphereRadius ref jmax (Dbl.fin eps) =
          .ok (((List.range (jmax + 1)).map c).map Dbl.fin) ∧ c 0 = 0 ∧
        BestFit (Finset.Icc 1 jmax) (pupilData Z W (unmasked (pupilGrid nx pupil) (wf.cells.map (·.2)))) c) ∧
    (¬ Distinguishes (Finset.Icc 1 jmax) (pupilData Z W (unmasked (pupilGrid nx pupil) (wf.cells.map (·.2)))) →
      zernike lstsq zern s thx thy (Dbl.fin w) projection nx sphereRadius ref jmax (Dbl.fin eps) = .error .runtimeError) := by
  obtain ⟨rv, hrv, hwave⟩ := startGrid_wave h hd hnx hs
  have hstop := stopPoints_eq h (by simp [pupilGrid, gridSpec_length]) hwave hfind
  have hfil := filter_data (g := fun p => Dbl.fin (W p)) (pupilGrid nx pupil) wf.cells hW
  set P := unmasked (pupilGrid nx pupil) (wf.cells.map (·.2)) with hP
  have hpu : s.pupil = .ok (Dbl.fin pupil) := by unfold System.pupil; rw [h.pupil]
  have h2' : (2 : Dbl) = Dbl.fin 2 := Dbl.ofNat_dbl' 2
  have hp2 : Dbl.fin pupil / 2 = Dbl.fin (pupil / 2) := by rw [h2', Dbl.div_fin two_ne_zero]
  -- the arrays given to lstsq
  have hrows : transpose ((List.range (jmax + 1)).map (basisRow zern (Dbl.fin (pupil / 2)) (Dbl.fin (pupil / 2 * eps)) (P.map fun p => (Dbl.fin p.1, Dbl.fin p.2)))) P.length =
      (P.map fun p => (fun j => if j = 0 ∨ jmax < j then 0 else Z j p, W p)).map fun o => (List.range (jmax + 1)).map fun j => Dbl.fin (o.1 j) := by
    have := transpose_rows (m := jmax + 1) (fun j p => if j = 0 then 0 else zern j (Dbl.fin (pupil / 2)) (Dbl.fin (pupil / 2 * eps)) p.1 p.2)
      (P.map fun p => (Dbl.fin p.1, Dbl.fin p.2)) (k := P.length) (by simp)
    unfold basisRow
    rw [this, List.map_map, List.map_map]
    refine List.map_congr_left fun p _ => ?_
    simp only [Function.comp]
    refine List.map_congr_left fun j hj => ?_
    rw [List.mem_range] at hj
    by_cases h0 : j = 0
    · simp [h0]
    · rw [if_neg h0, if_neg (by omega), hZ j _ _ (by omega) (by omega)]
  have hrhs : P.map (fun p => Dbl.fin (W p)) = (P.map fun p => ((fun j => if j = 0 ∨ jmax < j then 0 else Z j p : ℕ → ℝ), W p)).map fun o => Dbl.fin o.2 := by
    rw [List.map_map]; rfl
  obtain ⟨f1, f2⟩ := fit_core hl (k := 1) (n := jmax + 1) (by omega) (obs := P.map fun p => (fun j => if j = 0 ∨ jmax < j then 0 else Z j p, W p)) (by
    intro o ho j hj
    obtain ⟨p, _, rfl⟩ := List.mem_map.1 ho
    simp [show j = 0 by omega])
  have hJ : Finset.Ico 1 (jmax + 1) = Finset.Icc 1 jmax := by ext j; simp [Finset.mem_Ico, Finset.mem_Icc]
  rw [← hrows, ← hrhs, hJ] at f1 f2
  obtain ⟨g1, g2⟩ := fit_congr (J := Finset.Icc 1 jmax) (l := P) (f := fun p j => if j = 0 ∨ jmax < j then 0 else Z j p) (g := fun p j => Z j p) (v := W) (by
    intro p _ j hj
    rw [Finset.mem_Icc] at hj
    rw [if_neg (by omega)])
  rw [g1] at f1 f2
  simp only [g2] at f1
  have hz : ∀ r : List Dbl × ℕ, r = lstsq (transpose ((List.range (jmax + 1)).map (basisRow zern (Dbl.fin (pupil / 2)) (Dbl.fin (pupil / 2 * eps))
      (P.map fun p => (Dbl.fin p.1, Dbl.fin p.2)))) P.length) (P.map fun p => Dbl.fin (W p)) →
      zernike lstsq zern s thx thy (Dbl.fin w) projection nx sphereRadius ref jmax (Dbl.fin eps) =
        if r.2 < jmax then .error .runtimeError else .ok (r.1.set 0 0) := by
    rintro r rfl
    unfold zernike
    simp only [bind, Except.bind, hrv, hstop, hwf, hfil, hpu, hp2, Dbl.mul_fin, List.map_map, List.length_map]
    rfl
  constructor
  · intro hD
    obtain ⟨k1, x, k2, k3, k4⟩ := f1 hD
    refine ⟨x, ?_, k3 0 one_pos, k4⟩
    rw [hz _ rfl, if_neg (by omega), k2]
    refine congrArg _ ?_
    rw [List.range_succ_eq_map]
    simp [k3 0 one_pos]
  · intro hD
    rw [hz _ rfl, if_pos (by have := f2 hD; omega)]

/-- **C87** (`zernike`): a wavefront that is a combination of the polynomials gives its coefficients, whatever is vignetted, as long as
the unvignetted points tell the polynomials apart. -/
theorem C87_zernike_recovers (h : LegalSystem s surf stop cs n w back pupil) (hd : FieldAngle thx thy projection d) {nx : ℕ} (hnx : 0 < nx)
    (hs : OnSurface surf (pupilGrid nx pupil))
    (hfind : ∀ c, 0 < c → Finds surf s.niter (stop.rot.tr.mulVec (cs.rot.mulVec (d.smulR c))) (pupilGrid nx pupil))
    {lstsq : Lstsq Dbl} (hl : LeastSquares lstsq) {sphereRadius : Option Dbl} {ref : Reference} {wf : Analysis.Wavefront Dbl}
    (hwf : wavefront s thx thy (Dbl.fin w) projection nx sphereRadius ref = .ok wf)
    {eps : ℝ} {zern : Family Dbl} {Z : ℕ → ℝ × ℝ → ℝ} {jmax : ℕ} (hj : 0 < jmax)
    (hZ : ∀ j x y, 1 ≤ j → j ≤ jmax → zern j (Dbl.fin (pupil / 2)) (Dbl.fin (pupil / 2 * eps)) (Dbl.fin x) (Dbl.fin y) = Dbl.fin (Z j (x, y)))
    {a : ℕ → ℝ}
    (hW : ∀ (i : ℕ) p x, (pupilGrid nx pupil)[i]? = some p → wf.cells[i]? = some (x, false) → x = Dbl.fin (∑ j ∈ Finset.Icc 1 jmax, a j * Z j p))
    (hD : Distinguishes (Finset.Icc 1 jmax) (pupilData Z (fun _ => 0) (unmasked (pupilGrid nx pupil) (wf.cells.map (·.2))))) :
    ∃ c : List ℝ, zernike lstsq zern s thx thy (Dbl.fin w) projection nx sphereRadius ref jmax (Dbl.fin eps) = .ok (c.map Dbl.fin) ∧
      c.length = jmax + 1 ∧ c[0]? = some 0 ∧ ∀ j, 1 ≤ j → j ≤ jmax → c[j]? = some (a j) := by
  have hD' : Distinguishes (Finset.Icc 1 jmax) (pupilData Z (fun p => ∑ j ∈ Finset.Icc 1 jmax, a j * Z j p)
      (unmasked (pupilGrid nx pupil) (wf.cells.map (·.2)))) := by
    unfold Distinguishes pupilData at hD ⊢
    simpa only [List.forall_mem_map] using hD
  obtain ⟨c, c1, c2, c3⟩ := (C87_zernike h hd hnx hs hfind hl hwf (W := fun p => ∑ j ∈ Finset.Icc 1 jmax, a j * Z j p) hW hj hZ).1 hD'
  have hr := bestFit_recovers hD' c3 (a := a) (by
    intro o ho
    obtain ⟨p, _, rfl⟩ := List.mem_map.1 ho
    rfl)
  refine ⟨_, c1, by simp, ?_, ?_⟩
  · rw [List.getElem?_map, List.getElem?_range (by omega), Option.map_some, c2]
  · intro j h1 h2
    rw [List.getElem?_map, List.getElem?_range (by omega), Option.map_some, hr j (Finset.mem_Icc.2 ⟨h1, h2⟩)]

/-! ## Transverse aberrations -/

/-- The inner radius of the pupil. -/
def PupilInner (s : System Dbl) (pupil inner : ℝ) : Prop :=
  (∃ f, s.attrs.pupilObscuration = some (Dbl.fin f) ∧ 0 ≤ f ∧ inner = f * (pupil / 2)) ∨ (s.attrs.pupilObscuration = none ∧ inner = 0)

/-- The points of the rings of `asPolar` in the pupil. -/
noncomputable def polarPoints (pupil inner : ℝ) (nrad naz : ℕ) : List (ℝ × ℝ) :=
  (hexRings (pupil / 2) inner nrad naz 6).flatMap fun p => ringXY p.1 p.2

/-- `asPolar` over the pupil of an optic. -/
theorem asPolar_pupil (h : LegalSystem s surf stop cs n w back pupil) {a : Args Dbl} (hl : LegalCall a surf stop cs n w back d)
    (ho : a.optic = some s.attrs) (hp : 0 < pupil) {inner : ℝ} (hi : PupilInner s pupil inner) {nrad naz : ℕ} (hr : 0 < nrad) (junk : ℕ → Dbl)
    (hs : OnSurface surf (polarPoints pupil inner nrad naz)) :
    ∃ rv, asPolar junk a none none (some (nrad : ℤ)) (some (naz : ℤ)) 6 1 = .ok (some rv) ∧
      PlaneWave surf stop cs n w back d (polarPoints pupil inner nrad naz) (List.replicate (polarPoints pupil inner nrad naz).length 1) rv := by
  rcases hi with ⟨f, h1, h2, rfl⟩ | ⟨h1, rfl⟩
  · rw [Dbl.one_dbl]
    exact C43_polar_pupil_partial hl junk ho h.pupil h1 nrad naz 6 hp h2 hr (by norm_num) hs 1
  · obtain ⟨rv, h3, h4⟩ := C43_asPolar_partial hl junk (pupil / 2) 0 nrad naz 6 (by positivity) le_rfl hr (by norm_num) hs 1
    refine ⟨rv, ?_, h4⟩
    have h2' : (2 : Dbl) = Dbl.fin 2 := Dbl.ofNat_dbl' 2
    have e1 : pupilOuter a none = pupilOuter a (some (Dbl.fin (pupil / 2))) := by
      unfold pupilOuter fromOptic
      simp [ho, h.pupil, h2', Dbl.div_fin]
    have e2 : polarInner a none = polarInner a (some (Dbl.fin 0)) := by
      unfold polarInner
      simp [ho, h1]
    rw [← Dbl.one_dbl] at h3
    rw [← h3]
    unfold asPolar
    rw [e1, e2]
    rfl

theorem polarFor_wave (h : LegalSystem s surf stop cs n w back pupil) (hd : d.y ≠ 0 ∨ d.z ≠ 0) (hp : 0 < pupil) {inner : ℝ}
    (hi : PupilInner s pupil inner) {nrad naz : ℕ} (hr : 0 < nrad) (junk : ℕ → Dbl) (hs : OnSurface surf (polarPoints pupil inner nrad naz)) :
    ∃ rv, polarFor junk s (Dbl.fin w) nrad naz (Dbl.fin d.x, Dbl.fin d.y, Dbl.fin d.z) = .ok rv ∧
      PlaneWave surf stop cs n w back d (polarPoints pupil inner nrad naz) (List.replicate (polarPoints pupil inner nrad naz).length 1) rv := by
  obtain ⟨med, hm1, hm2⟩ := h.medium
  have hl : LegalCall { optic := some s.attrs, wavelength := some (Dbl.fin w), dirCos := some d.fin } surf stop cs n w back d :=
    ⟨⟨med, ⟨.inr ⟨rfl, .inl ⟨_, rfl, h.back⟩⟩, .inr ⟨rfl, .inl ⟨_, rfl, hm1⟩⟩, .inr ⟨rfl, .inl ⟨_, rfl, h.stopSurface⟩⟩,
      .inr ⟨rfl, .inl ⟨_, rfl, by simp only [h.frame]⟩⟩, rfl, ⟨rfl, .inl rfl⟩⟩, hm2⟩, h.stop, h.cs, h.n, hd⟩
  have key := asPolar_pupil h hl rfl hp hi hr junk hs (naz := naz)
  obtain ⟨rv, k1, k2⟩ := key
  refine ⟨rv, ?_, k2⟩
  unfold polarFor
  have k1' : asPolar junk { optic := some s.attrs, wavelength := some (Dbl.fin w), dirCos := some ⟨Dbl.fin d.x, Dbl.fin d.y, Dbl.fin d.z⟩ } none none
    (some (nrad : ℤ)) (some (naz : ℤ)) 6 1 = .ok (some rv) := k1
  simp only [bind, Except.bind, k1']

/-- The point of reference: the mean of the unvignetted rays, or where the ray through the centre of the stop ends. -/
def TransversePoint (ref : Reference) (s : System Dbl) (d : V3 ℝ) (w : ℝ) (rays : List (Ray Dbl)) (P : V3 ℝ) : Prop :=
  match ref with
  | .mean => meanV ((clear rays).map (·.r)) = P.fin
  | .chief => ∃ rv ray, fromStop { optic := some s.attrs, wavelength := some (Dbl.fin w), dirCos := some d.fin } [(0, 0)] 1 = .ok (some rv) ∧
      (s.trace rv).rays[0]? = some ray ∧ ray.r = P.fin
  | .other => False

/-- `X` and `Y` are the distances of the rays, at the end, from the point of reference. -/
def Aberration (X Y : ℝ × ℝ → ℝ) (P : V3 ℝ) (pts : List (ℝ × ℝ)) (rays : List (Ray Dbl)) (which : Ray Dbl → Prop) : Prop :=
  ∀ (i : ℕ) (p : ℝ × ℝ) (ray : Ray Dbl), pts[i]? = some p → rays[i]? = some ray → which ray →
    ray.r.x = Dbl.fin (P.x + X p) ∧ ray.r.y = Dbl.fin (P.y + Y p)

theorem transverse_eq (h : LegalSystem s surf stop cs n w back pupil) (hd : FieldAngle thx thy projection d) {pts : List (ℝ × ℝ)} {fl : List ℝ}
    (hfl : fl.length = pts.length) {junk : ℕ → Dbl} {nrad naz : ℤ} {rv : RayVec Dbl}
    (hrv : polarFor junk s (Dbl.fin w) nrad naz (Dbl.fin d.x, Dbl.fin d.y, Dbl.fin d.z) = .ok rv) (hwave : PlaneWave surf stop cs n w back d pts fl rv)
    (hfind : ∀ c, 0 < c → Finds surf s.niter (stop.rot.tr.mulVec (cs.rot.mulVec (d.smulR c))) pts)
    {ref : Reference} {P : V3 ℝ} (hP : TransversePoint ref s d w (s.trace rv).rays P) :
    transverse junk s thx thy (Dbl.fin w) projection nrad naz ref = .ok ((pts.map fun p => (Dbl.fin p.1, Dbl.fin p.2)).zip
      ((s.trace rv).rays.map fun ray => ((ray.r.x - Dbl.fin P.x, ray.r.y - Dbl.fin P.y), ray.vignetted))) := by
  have hstop := stopPoints_eq h hfl hwave hfind
  unfold transverse
  rw [hd.dir]
  simp only [bind, Except.bind, hrv, hstop]
  cases ref with
  | other => exact hP.elim
  | mean =>
    have hP' : meanV ((clear (s.trace rv).rays).map (·.r)) = P.fin := hP
    simp only [hP', V3.fin_x, V3.fin_y]
  | chief =>
    obtain ⟨crv, ray, c1, c2, c3⟩ := hP
    have c1' : fromStop { optic := some s.attrs, wavelength := some (Dbl.fin w), dirCos := some ⟨Dbl.fin d.x, Dbl.fin d.y, Dbl.fin d.z⟩ } [(0, 0)] 1 =
        .ok (some crv) := c1
    have hi : item (s.trace crv).rays 0 = .ok ray := item_nat (k := 0) c2
    simp only [c1', hi, Except.map, c3, V3.fin_x, V3.fin_y]

theorem trace_size (s : System Dbl) (rv : RayVec Dbl) : (s.trace rv).rays.length = rv.rays.length := by
  obtain ⟨g, c', hg⟩ := trace_map s.niter false s.optic rv.coordSys
  have : s.trace rv = ⟨rv.rays.map g, c'⟩ := hg rv.rays
  rw [this, List.length_map]

/-- What the arrays of the fits hold. -/
theorem aberration_cells {X Y : ℝ × ℝ → ℝ} {P : V3 ℝ} {pts : List (ℝ × ℝ)} {rays : List (Ray Dbl)} {which : Ray Dbl → Prop}
    (h : Aberration X Y P pts rays which) {i : ℕ} {p : ℝ × ℝ} {ray : Ray Dbl} (hp : pts[i]? = some p) (hr : rays[i]? = some ray) (hw : which ray) :
    (ray.r.x - Dbl.fin P.x, ray.r.y - Dbl.fin P.y) = (Dbl.fin (X p), Dbl.fin (Y p)) := by
  obtain ⟨h1, h2⟩ := h i p ray hp hr hw
  rw [h1, h2, Dbl.sub_fin, Dbl.sub_fin, add_sub_cancel_left, add_sub_cancel_left]

/-- The unvignetted points of the pupil. -/
def litPoints (pts : List (ℝ × ℝ)) (rays : List (Ray Dbl)) : List (ℝ × ℝ) := unmasked pts (rays.map (·.vignetted))

/-- The observations of both components. -/
def bothData (Gx Gy : ℕ → ℝ × ℝ → ℝ) (X Y : ℝ × ℝ → ℝ) (pts : List (ℝ × ℝ)) : List ((ℕ → ℝ) × ℝ) := pupilData Gx X pts ++ pupilData Gy Y pts

theorem fit_append {J : Finset ℕ} {l1 l2 l1' l2' : List ((ℕ → ℝ) × ℝ)} (h1 : ∀ c, leftover J l1 c = leftover J l1' c)
    (h2 : ∀ c, leftover J l2 c = leftover J l2' c) (c : ℕ → ℝ) : leftover J (l1 ++ l2) c = leftover J (l1' ++ l2') c := by
  unfold leftover at *
  rw [List.map_append, List.sum_append, h1, h2, List.map_append, List.sum_append]

/-- **C87** for `zernikeTA`: minus the focal length times the wavelength times the coefficients is the least squares fit of the gradients
of the polynomials to the transverse aberrations of the unvignetted rays; coefficients 0 and 1 are zero; if the rays do not tell the
gradients apart, RuntimeError. -/
theorem C87_transverse (h : LegalSystem s surf stop cs n w back pupil) (hd : FieldAngle thx thy projection d) (hp : 0 < pupil) {inner : ℝ}
    (hi : PupilInner s pupil inner) {nrad naz : ℕ} (hr : 0 < nrad) (junk : ℕ → Dbl) (hs : OnSurface surf (polarPoints pupil inner nrad naz))
    (hfind : ∀ c, 0 < c → Finds surf s.niter (stop.rot.tr.mulVec (cs.rot.mulVec (d.smulR c))) (polarPoints pupil inner nrad naz))
    {rv : RayVec Dbl} (hrv : polarFor junk s (Dbl.fin w) nrad naz (Dbl.fin d.x, Dbl.fin d.y, Dbl.fin d.z) = .ok rv)
    {lstsq : Lstsq Dbl} (hl : LeastSquares lstsq) {ref : Reference} {P : V3 ℝ} (hP : TransversePoint ref s d w (s.trace rv).rays P)
    {X Y : ℝ × ℝ → ℝ} (hX : Aberration X Y P (polarPoints pupil inner nrad naz) (s.trace rv).rays fun ray => ray.vignetted = false)
    {focal : Option Dbl} {f : ℝ} (hf : focal = some (Dbl.fin f) ∨ (focal = none ∧ focalLength junk s thx thy (Dbl.fin w) 6 36 projection = .ok (Dbl.fin f)))
    (hf0 : f ≠ 0) (hw : w ≠ 0) {eps : ℝ} {gradX gradY : Family Dbl} {Gx Gy : ℕ → ℝ × ℝ → ℝ} {jmax : ℕ} (hj : 2 ≤ jmax)
    (hGx : ∀ j x y, 2 ≤ j → j ≤ jmax → gradX j (Dbl.fin (pupil / 2)) (Dbl.fin (eps * pupil / 2)) (Dbl.fin x) (Dbl.fin y) = Dbl.fin (Gx j (x, y)))
    (hGy : ∀ j x y, 2 ≤ j → j ≤ jmax → gradY j (Dbl.fin (pupil / 2)) (Dbl.fin (eps * pupil / 2)) (Dbl.fin x) (Dbl.fin y) = Dbl.fin (Gy j (x, y))) :
    (Distinguishes (Finset.Icc 2 jmax) (bothData Gx Gy X Y (litPoints (polarPoints pupil inner nrad naz) (s.trace rv).rays)) →
      ∃ r : ℕ → ℝ, zernikeTA lstsq gradX gradY junk s thx thy (Dbl.fin w) projection nrad naz ref jmax (Dbl.fin eps) focal =
          .ok ((List.range (jmax + 1)).map fun j => Dbl.fin (-(r j) / f / w)) ∧ r 0 = 0 ∧ r 1 = 0 ∧
        BestFit (Finset.Icc 2 jmax) (bothData Gx Gy X Y (litPoints (polarPoints pupil inner nrad naz) (s.trace rv).rays)) r) ∧
    (¬ Distinguishes (Finset.Icc 2 jmax) (bothData Gx Gy X Y (litPoints (polarPoints pupil inner nrad naz) (s.trace rv).rays)) →
      zernikeTA lstsq gradX gradY junk s thx thy (Dbl.fin w) projection nrad naz ref jmax (Dbl.fin eps) focal = .error .runtimeError) := by
  obtain ⟨rv', hrv', hwave⟩ := polarFor_wave h hd.legal hp hi hr junk hs (naz := naz)
  rw [hrv] at hrv'
  injection hrv' with hrv'
  subst hrv'
  have htr := transverse_eq h hd (by simp) hrv hwave hfind hP
  have hfil := filter_data (g := fun p => (Dbl.fin (X p), Dbl.fin (Y p))) (polarPoints pupil inner nrad naz)
    ((s.trace rv).rays.map fun ray => ((ray.r.x - Dbl.fin P.x, ray.r.y - Dbl.fin P.y), ray.vignetted)) (by
      intro i p x h1 h2
      rw [List.getElem?_map, Option.map_eq_some_iff] at h2
      obtain ⟨ray, h3, h4⟩ := h2
      rw [Prod.mk.injEq] at h4
      rw [← h4.1]
      exact aberration_cells hX h1 h3 h4.2)
  rw [List.map_map] at hfil
  set Q := litPoints (polarPoints pupil inner nrad naz) (s.trace rv).rays with hQ
  have hQ' : unmasked (polarPoints pupil inner nrad naz) ((s.trace rv).rays.map ((fun x : (Dbl × Dbl) × Bool => x.2) ∘
      fun ray => ((ray.r.x - Dbl.fin P.x, ray.r.y - Dbl.fin P.y), ray.vignetted))) = Q := rfl
  rw [hQ'] at hfil
  have hpu : s.pupil = .ok (Dbl.fin pupil) := by unfold System.pupil; rw [h.pupil]
  have h2' : (2 : Dbl) = Dbl.fin 2 := Dbl.ofNat_dbl' 2
  have hp2 : Dbl.fin pupil / 2 = Dbl.fin (pupil / 2) := by rw [h2', Dbl.div_fin two_ne_zero]
  have hpe : Dbl.fin eps * Dbl.fin pupil / 2 = Dbl.fin (eps * pupil / 2) := by rw [Dbl.mul_fin, h2', Dbl.div_fin two_ne_zero]
  have hrows : ∀ (grad : Family Dbl) (G : ℕ → ℝ × ℝ → ℝ) (V : ℝ × ℝ → ℝ),
      (∀ j x y, 2 ≤ j → j ≤ jmax → grad j (Dbl.fin (pupil / 2)) (Dbl.fin (eps * pupil / 2)) (Dbl.fin x) (Dbl.fin y) = Dbl.fin (G j (x, y))) →
      transpose ((List.range (jmax + 1)).map (gradRow grad (Dbl.fin (pupil / 2)) (Dbl.fin (eps * pupil / 2)) (Q.map fun p => (Dbl.fin p.1, Dbl.fin p.2)))) Q.length =
        (Q.map fun p => ((fun j => if j < 2 ∨ jmax < j then 0 else G j p : ℕ → ℝ), V p)).map fun o => (List.range (jmax + 1)).map fun j => Dbl.fin (o.1 j) := by
    intro grad G V hG
    have := transpose_rows (m := jmax + 1) (fun j p => if j < 2 then 0 else grad j (Dbl.fin (pupil / 2)) (Dbl.fin (eps * pupil / 2)) p.1 p.2)
      (Q.map fun p => (Dbl.fin p.1, Dbl.fin p.2)) (k := Q.length) (by simp)
    unfold gradRow
    rw [this, List.map_map, List.map_map]
    refine List.map_congr_left fun p _ => ?_
    simp only [Function.comp]
    refine List.map_congr_left fun j hj => ?_
    rw [List.mem_range] at hj
    by_cases h0 : j < 2
    · simp [h0]
    · rw [if_neg h0, if_neg (by omega), hG j _ _ (by omega) (by omega)]
  obtain ⟨f1, f2⟩ := fit_core hl (k := 2) (n := jmax + 1) (by omega)
    (obs := (Q.map fun p => ((fun j => if j < 2 ∨ jmax < j then 0 else Gx j p : ℕ → ℝ), X p)) ++
      Q.map fun p => ((fun j => if j < 2 ∨ jmax < j then 0 else Gy j p : ℕ → ℝ), Y p)) (by
    intro o ho j hj
    rcases List.mem_append.1 ho with ho | ho
    · obtain ⟨p, _, rfl⟩ := List.mem_map.1 ho
      simp [hj]
    · obtain ⟨p, _, rfl⟩ := List.mem_map.1 ho
      simp [hj])
  have hJ : Finset.Ico 2 (jmax + 1) = Finset.Icc 2 jmax := by ext j; simp [Finset.mem_Ico, Finset.mem_Icc]
  rw [List.map_append, List.map_append, ← hrows gradX Gx X hGx, ← hrows gradY Gy Y hGy, hJ] at f1 f2
  have hout : ∀ (G : ℕ → ℝ × ℝ → ℝ) (V : ℝ × ℝ → ℝ) (p : ℝ × ℝ) (c : ℕ → ℝ),
      ∑ j ∈ Finset.Icc 2 jmax, c j * (if j < 2 ∨ jmax < j then 0 else G j p) = ∑ j ∈ Finset.Icc 2 jmax, c j * G j p := by
    intro G V p c
    refine Finset.sum_congr rfl fun j hj => ?_
    rw [Finset.mem_Icc] at hj
    rw [if_neg (by omega)]
  have hleft : ∀ c, leftover (Finset.Icc 2 jmax) ((Q.map fun p => ((fun j => if j < 2 ∨ jmax < j then 0 else Gx j p : ℕ → ℝ), X p)) ++
      Q.map fun p => ((fun j => if j < 2 ∨ jmax < j then 0 else Gy j p : ℕ → ℝ), Y p)) c = leftover (Finset.Icc 2 jmax) (bothData Gx Gy X Y Q) c := by
    refine fit_append (fun c => ?_) (fun c => ?_)
    all_goals
      unfold leftover pupilData
      rw [List.map_map, List.map_map]
      refine congrArg _ (List.map_congr_left fun p _ => ?_)
      simp only [Function.comp]
    · rw [hout Gx X]
    · rw [hout Gy Y]
  have hdist : Distinguishes (Finset.Icc 2 jmax) ((Q.map fun p => ((fun j => if j < 2 ∨ jmax < j then 0 else Gx j p : ℕ → ℝ), X p)) ++
      Q.map fun p => ((fun j => if j < 2 ∨ jmax < j then 0 else Gy j p : ℕ → ℝ), Y p)) ↔ Distinguishes (Finset.Icc 2 jmax) (bothData Gx Gy X Y Q) := by
    unfold Distinguishes bothData pupilData
    simp only [List.forall_mem_append, List.forall_mem_map, hout Gx X, hout Gy Y]
  rw [hdist] at f1 f2
  have hbest : ∀ c, BestFit (Finset.Icc 2 jmax) ((Q.map fun p => ((fun j => if j < 2 ∨ jmax < j then 0 else Gx j p : ℕ → ℝ), X p)) ++
      Q.map fun p => ((fun j => if j < 2 ∨ jmax < j then 0 else Gy j p : ℕ → ℝ), Y p)) c ↔ BestFit (Finset.Icc 2 jmax) (bothData Gx Gy X Y Q) c := by
    intro c
    unfold BestFit
    simp only [hleft]
  simp only [hbest] at f1
  have hz : ∀ r : List Dbl × ℕ, r = lstsq (transpose ((List.range (jmax + 1)).map (gradRow gradX (Dbl.fin (pupil / 2)) (Dbl.fin (eps * pupil / 2))
      (Q.map fun p => (Dbl.fin p.1, Dbl.fin p.2)))) Q.length ++ transpose ((List.range (jmax + 1)).map (gradRow gradY (Dbl.fin (pupil / 2)) (Dbl.fin (eps * pupil / 2))
      (Q.map fun p => (Dbl.fin p.1, Dbl.fin p.2)))) Q.length)
      ((Q.map fun p => ((fun j => if j < 2 ∨ jmax < j then 0 else Gx j p : ℕ → ℝ), X p)).map (fun o => Dbl.fin o.2) ++
        (Q.map fun p => ((fun j => if j < 2 ∨ jmax < j then 0 else Gy j p : ℕ → ℝ), Y p)).map (fun o => Dbl.fin o.2)) →
      zernikeTA lstsq gradX gradY junk s thx thy (Dbl.fin w) projection nrad naz ref jmax (Dbl.fin eps) focal =
        if (r.2 : ℤ) < jmax - 1 then .error .runtimeError else .ok ((r.1.set 0 0).map fun r => -r / Dbl.fin f / Dbl.fin w) := by
    rintro r rfl
    unfold zernikeTA
    rcases hf with rfl | ⟨rfl, h1⟩
    · simp only [bind, Except.bind, htr, hfil, hpu, hp2, hpe, List.map_map, List.length_map]
      rfl
    · simp only [bind, Except.bind, htr, hfil, h1, hpu, hp2, hpe, List.map_map, List.length_map]
      rfl
  constructor
  · intro hD
    obtain ⟨k1, x, k2, k3, k4⟩ := f1 hD
    refine ⟨x, ?_, k3 0 (by norm_num), k3 1 (by norm_num), k4⟩
    rw [hz _ rfl, if_neg (by omega), k2]
    refine congrArg _ ?_
    have e : (((List.range (jmax + 1)).map x).map Dbl.fin).set 0 0 = ((List.range (jmax + 1)).map x).map Dbl.fin := by
      rw [List.range_succ_eq_map]
      simp [k3 0 (by norm_num)]
    rw [e, List.map_map, List.map_map]
    refine List.map_congr_left fun j _ => ?_
    simp only [Function.comp, Dbl.neg_fin, Dbl.div_fin hf0, Dbl.div_fin hw]
  · intro hD
    rw [hz _ rfl, if_pos (by have := f2 hD; omega)]

/-- **C87** (`zernikeTA`): if the transverse aberrations are those of a wavefront `Σ aⱼ Zⱼ` (in waves) according to the eikonal relation
`X = -f λ ∂W/∂x`, the coefficients are returned. -/
theorem C87_transverse_recovers (h : LegalSystem s surf stop cs n w back pupil) (hd : FieldAngle thx thy projection d) (hp : 0 < pupil) {inner : ℝ}
    (hi : PupilInner s pupil inner) {nrad naz : ℕ} (hr : 0 < nrad) (junk : ℕ → Dbl) (hs : OnSurface surf (polarPoints pupil inner nrad naz))
    (hfind : ∀ c, 0 < c → Finds surf s.niter (stop.rot.tr.mulVec (cs.rot.mulVec (d.smulR c))) (polarPoints pupil inner nrad naz))
    {rv : RayVec Dbl} (hrv : polarFor junk s (Dbl.fin w) nrad naz (Dbl.fin d.x, Dbl.fin d.y, Dbl.fin d.z) = .ok rv)
    {lstsq : Lstsq Dbl} (hl : LeastSquares lstsq) {ref : Reference} {P : V3 ℝ} (hP : TransversePoint ref s d w (s.trace rv).rays P)
    {focal : Option Dbl} {f : ℝ} (hf : focal = some (Dbl.fin f) ∨ (focal = none ∧ focalLength junk s thx thy (Dbl.fin w) 6 36 projection = .ok (Dbl.fin f)))
    (hf0 : f ≠ 0) (hw : w ≠ 0) {eps : ℝ} {gradX gradY : Family Dbl} {Gx Gy : ℕ → ℝ × ℝ → ℝ} {jmax : ℕ} (hj : 2 ≤ jmax)
    (hGx : ∀ j x y, 2 ≤ j → j ≤ jmax → gradX j (Dbl.fin (pupil / 2)) (Dbl.fin (eps * pupil / 2)) (Dbl.fin x) (Dbl.fin y) = Dbl.fin (Gx j (x, y)))
    (hGy : ∀ j x y, 2 ≤ j → j ≤ jmax → gradY j (Dbl.fin (pupil / 2)) (Dbl.fin (eps * pupil / 2)) (Dbl.fin x) (Dbl.fin y) = Dbl.fin (Gy j (x, y)))
    {a : ℕ → ℝ}
    (hX : Aberration (fun p => -(f * w) * ∑ j ∈ Finset.Icc 2 jmax, a j * Gx j p) (fun p => -(f * w) * ∑ j ∈ Finset.Icc 2 jmax, a j * Gy j p) P
      (polarPoints pupil inner nrad naz) (s.trace rv).rays fun ray => ray.vignetted = false)
    (hD : Distinguishes (Finset.Icc 2 jmax) (bothData Gx Gy (fun _ => 0) (fun _ => 0) (litPoints (polarPoints pupil inner nrad naz) (s.trace rv).rays))) :
    ∃ c : List ℝ, zernikeTA lstsq gradX gradY junk s thx thy (Dbl.fin w) projection nrad naz ref jmax (Dbl.fin eps) focal = .ok (c.map Dbl.fin) ∧
      c.length = jmax + 1 ∧ c[0]? = some 0 ∧ c[1]? = some 0 ∧ ∀ j, 2 ≤ j → j ≤ jmax → c[j]? = some (a j) := by
  have hD' : ∀ X Y, Distinguishes (Finset.Icc 2 jmax) (bothData Gx Gy X Y (litPoints (polarPoints pupil inner nrad naz) (s.trace rv).rays)) := by
    intro X Y
    unfold Distinguishes bothData pupilData at hD ⊢
    simpa only [List.forall_mem_append, List.forall_mem_map] using hD
  obtain ⟨r, c1, c2, c3, c4⟩ := (C87_transverse h hd hp hi hr junk hs hfind hrv hl hP hX hf hf0 hw hj hGx hGy).1 (hD' _ _)
  have hr := bestFit_recovers (hD' _ _) c4 (a := fun j => -(f * w) * a j) (by
    intro o ho
    unfold bothData at ho
    rcases List.mem_append.1 ho with ho | ho
    all_goals
      obtain ⟨p, _, rfl⟩ := List.mem_map.1 ho
      simp only [Finset.mul_sum]
      exact Finset.sum_congr rfl fun j _ => by ring)
  refine ⟨(List.range (jmax + 1)).map fun j => -(r j) / f / w, by rw [c1, List.map_map]; rfl, by simp, ?_, ?_, ?_⟩
  · rw [List.getElem?_map, List.getElem?_range (by omega), Option.map_some, c2]; simp
  · rw [List.getElem?_map, List.getElem?_range (by omega), Option.map_some, c3]; simp
  · intro j h1 h2
    rw [List.getElem?_map, List.getElem?_range (by omega), Option.map_some, hr j (Finset.mem_Icc.2 ⟨h1, h2⟩)]
    congr 1
    field_simp

/-- A fit of the polynomials to one quantity. -/
theorem basis_fit {lstsq : Lstsq Dbl} (hl : LeastSquares lstsq) {outer inner : ℝ} {zern : Family Dbl} {Z : ℕ → ℝ × ℝ → ℝ} {jmax : ℕ} (hj : 0 < jmax)
    (hZ : ∀ j x y, 1 ≤ j → j ≤ jmax → zern j (Dbl.fin outer) (Dbl.fin inner) (Dbl.fin x) (Dbl.fin y) = Dbl.fin (Z j (x, y)))
    (Q : List (ℝ × ℝ)) (V : ℝ × ℝ → ℝ) {r : List Dbl × ℕ}
    (hr : r = lstsq (transpose ((List.range (jmax + 1)).map (basisRow zern (Dbl.fin outer) (Dbl.fin inner) (Q.map fun p => (Dbl.fin p.1, Dbl.fin p.2)))) Q.length)
      (Q.map fun p => Dbl.fin (V p))) :
    (Distinguishes (Finset.Icc 1 jmax) (pupilData Z V Q) → jmax ≤ r.2 ∧
      ∃ c : ℕ → ℝ, r.1.set 0 0 = ((List.range (jmax + 1)).map c).map Dbl.fin ∧ c 0 = 0 ∧ BestFit (Finset.Icc 1 jmax) (pupilData Z V Q) c) ∧
    (¬ Distinguishes (Finset.Icc 1 jmax) (pupilData Z V Q) → r.2 < jmax) := by
  have hrows : transpose ((List.range (jmax + 1)).map (basisRow zern (Dbl.fin outer) (Dbl.fin inner) (Q.map fun p => (Dbl.fin p.1, Dbl.fin p.2)))) Q.length =
      (Q.map fun p => (fun j => if j = 0 ∨ jmax < j then 0 else Z j p, V p)).map fun o => (List.range (jmax + 1)).map fun j => Dbl.fin (o.1 j) := by
    have := transpose_rows (m := jmax + 1) (fun j p => if j = 0 then 0 else zern j (Dbl.fin outer) (Dbl.fin inner) p.1 p.2)
      (Q.map fun p => (Dbl.fin p.1, Dbl.fin p.2)) (k := Q.length) (by simp)
    unfold basisRow
    rw [this, List.map_map, List.map_map]
    refine List.map_congr_left fun p _ => ?_
    simp only [Function.comp]
    refine List.map_congr_left fun j hj => ?_
    rw [List.mem_range] at hj
    by_cases h0 : j = 0
    · simp [h0]
    · rw [if_neg h0, if_neg (by omega), hZ j _ _ (by omega) (by omega)]
  have hrhs : Q.map (fun p => Dbl.fin (V p)) = (Q.map fun p => ((fun j => if j = 0 ∨ jmax < j then 0 else Z j p : ℕ → ℝ), V p)).map fun o => Dbl.fin o.2 := by
    rw [List.map_map]; rfl
  obtain ⟨f1, f2⟩ := fit_core hl (k := 1) (n := jmax + 1) (by omega) (obs := Q.map fun p => (fun j => if j = 0 ∨ jmax < j then 0 else Z j p, V p)) (by
    intro o ho j hj
    obtain ⟨p, _, rfl⟩ := List.mem_map.1 ho
    simp [show j = 0 by omega])
  have hJ : Finset.Ico 1 (jmax + 1) = Finset.Icc 1 jmax := by ext j; simp [Finset.mem_Ico, Finset.mem_Icc]
  rw [← hrows, ← hrhs, hJ, ← hr] at f1 f2
  obtain ⟨g1, g2⟩ := fit_congr (J := Finset.Icc 1 jmax) (l := Q) (f := fun p j => if j = 0 ∨ jmax < j then 0 else Z j p) (g := fun p j => Z j p) (v := V) (by
    intro p _ j hj
    rw [Finset.mem_Icc] at hj
    rw [if_neg (by omega)])
  rw [g1] at f1 f2
  simp only [g2] at f1
  refine ⟨fun hD => ?_, fun hD => by have := f2 hD; omega⟩
  obtain ⟨k1, x, k2, k3, k4⟩ := f1 hD
  refine ⟨by omega, x, ?_, k3 0 one_pos, k4⟩
  rw [k2, List.range_succ_eq_map]
  simp [k3 0 one_pos]

/-- The points of the pupil that count: all or the unvignetted ones. -/
def chosenPoints (includeVignetted : Bool) (pts : List (ℝ × ℝ)) (rays : List (Ray Dbl)) : List (ℝ × ℝ) :=
  if includeVignetted then pts else litPoints pts rays

/-- **C87** for `zernikeXYAberrations`: the two lists are the least squares fits of the polynomials to the two components of the
transverse aberrations at the unvignetted points, or at all points with `include_vignetted`; if the points do not tell the polynomials
apart, RuntimeError. -/
theorem C87_xy (h : LegalSystem s surf stop cs n w back pupil) (hd : FieldAngle thx thy projection d) (hp : 0 < pupil) {inner : ℝ}
    (hi : PupilInner s pupil inner) {nrad naz : ℕ} (hr : 0 < nrad) (junk : ℕ → Dbl) (hs : OnSurface surf (polarPoints pupil inner nrad naz))
    (hfind : ∀ c, 0 < c → Finds surf s.niter (stop.rot.tr.mulVec (cs.rot.mulVec (d.smulR c))) (polarPoints pupil inner nrad naz))
    {rv : RayVec Dbl} (hrv : polarFor junk s (Dbl.fin w) nrad naz (Dbl.fin d.x, Dbl.fin d.y, Dbl.fin d.z) = .ok rv)
    {lstsq : Lstsq Dbl} (hl : LeastSquares lstsq) {ref : Reference} {P : V3 ℝ} (hP : TransversePoint ref s d w (s.trace rv).rays P) (includeVignetted : Bool)
    {X Y : ℝ × ℝ → ℝ} (hX : Aberration X Y P (polarPoints pupil inner nrad naz) (s.trace rv).rays fun ray => includeVignetted = false → ray.vignetted = false)
    {eps : ℝ} {zern : Family Dbl} {Z : ℕ → ℝ × ℝ → ℝ} {jmax : ℕ} (hj : 0 < jmax)
    (hZ : ∀ j x y, 1 ≤ j → j ≤ jmax → zern j (Dbl.fin (pupil / 2)) (Dbl.fin (pupil / 2 * eps)) (Dbl.fin x) (Dbl.fin y) = Dbl.fin (Z j (x, y))) :
    (Distinguishes (Finset.Icc 1 jmax) (pupilData Z (fun _ => 0) (chosenPoints includeVignetted (polarPoints pupil inner nrad naz) (s.trace rv).rays)) →
      ∃ cx cy : ℕ → ℝ, zernikeXYAberrations lstsq zern junk s thx thy (Dbl.fin w) projection nrad naz ref jmax (Dbl.fin eps) includeVignetted =
          .ok (((List.range (jmax + 1)).map cx).map Dbl.fin, ((List.range (jmax + 1)).map cy).map Dbl.fin) ∧ cx 0 = 0 ∧ cy 0 = 0 ∧
        BestFit (Finset.Icc 1 jmax) (pupilData Z X (chosenPoints includeVignetted (polarPoints pupil inner nrad naz) (s.trace rv).rays)) cx ∧
        BestFit (Finset.Icc 1 jmax) (pupilData Z Y (chosenPoints includeVignetted (polarPoints pupil inner nrad naz) (s.trace rv).rays)) cy) ∧
    (¬ Distinguishes (Finset.Icc 1 jmax) (pupilData Z (fun _ => 0) (chosenPoints includeVignetted (polarPoints pupil inner nrad naz) (s.trace rv).rays)) →
      zernikeXYAberrations lstsq zern junk s thx thy (Dbl.fin w) projection nrad naz ref jmax (Dbl.fin eps) includeVignetted = .error .runtimeError) := by
  obtain ⟨rv', hrv', hwave⟩ := polarFor_wave h hd.legal hp hi hr junk hs (naz := naz)
  rw [hrv] at hrv'
  injection hrv' with hrv'
  subst hrv'
  have htr := transverse_eq h hd (by simp) hrv hwave hfind hP
  set Q := chosenPoints includeVignetted (polarPoints pupil inner nrad naz) (s.trace rv).rays with hQ
  have hpu : s.pupil = .ok (Dbl.fin pupil) := by unfold System.pupil; rw [h.pupil]
  have h2' : (2 : Dbl) = Dbl.fin 2 := Dbl.ofNat_dbl' 2
  have hp2 : Dbl.fin pupil / 2 = Dbl.fin (pupil / 2) := by rw [h2', Dbl.div_fin two_ne_zero]
  have hcells : ∀ data, data = (if includeVignetted then ((polarPoints pupil inner nrad naz).map fun p => (Dbl.fin p.1, Dbl.fin p.2)).zip
        ((s.trace rv).rays.map fun ray => ((ray.r.x - Dbl.fin P.x, ray.r.y - Dbl.fin P.y), ray.vignetted)) else
      (((polarPoints pupil inner nrad naz).map fun p => (Dbl.fin p.1, Dbl.fin p.2)).zip
        ((s.trace rv).rays.map fun ray => ((ray.r.x - Dbl.fin P.x, ray.r.y - Dbl.fin P.y), ray.vignetted))).filter fun c => !c.2.2) →
      data.map (fun c => (c.1, c.2.1)) = Q.map fun p => ((Dbl.fin p.1, Dbl.fin p.2), (Dbl.fin (X p), Dbl.fin (Y p))) := by
    rintro data rfl
    cases hv : includeVignetted with
    | true =>
      have := all_data (g := fun p => (Dbl.fin (X p), Dbl.fin (Y p))) (polarPoints pupil inner nrad naz)
        ((s.trace rv).rays.map fun ray => ((ray.r.x - Dbl.fin P.x, ray.r.y - Dbl.fin P.y), ray.vignetted)) (by
          rw [List.length_map, trace_size]
          exact hwave.size) (by
          intro i p x b h1 h2
          rw [List.getElem?_map, Option.map_eq_some_iff] at h2
          obtain ⟨ray, h3, h4⟩ := h2
          rw [Prod.mk.injEq] at h4
          rw [← h4.1]
          exact aberration_cells hX h1 h3 (by simp [hv]))
      rw [if_pos rfl, this, hQ, hv]
      rfl
    | false =>
      have := filter_data (g := fun p => (Dbl.fin (X p), Dbl.fin (Y p))) (polarPoints pupil inner nrad naz)
        ((s.trace rv).rays.map fun ray => ((ray.r.x - Dbl.fin P.x, ray.r.y - Dbl.fin P.y), ray.vignetted)) (by
          intro i p x h1 h2
          rw [List.getElem?_map, Option.map_eq_some_iff] at h2
          obtain ⟨ray, h3, h4⟩ := h2
          rw [Prod.mk.injEq] at h4
          rw [← h4.1]
          exact aberration_cells hX h1 h3 fun _ => h4.2)
      rw [if_neg (by simp), this, List.map_map, List.map_map, hQ, hv]
      rfl
  have hz : zernikeXYAberrations lstsq zern junk s thx thy (Dbl.fin w) projection nrad naz ref jmax (Dbl.fin eps) includeVignetted =
      if min (lstsq (transpose ((List.range (jmax + 1)).map (basisRow zern (Dbl.fin (pupil / 2)) (Dbl.fin (pupil / 2 * eps)) (Q.map fun p => (Dbl.fin p.1, Dbl.fin p.2)))) Q.length) (Q.map fun p => Dbl.fin (X p))).2
        (lstsq (transpose ((List.range (jmax + 1)).map (basisRow zern (Dbl.fin (pupil / 2)) (Dbl.fin (pupil / 2 * eps)) (Q.map fun p => (Dbl.fin p.1, Dbl.fin p.2)))) Q.length) (Q.map fun p => Dbl.fin (Y p))).2 < jmax then .error .runtimeError
      else .ok ((lstsq (transpose ((List.range (jmax + 1)).map (basisRow zern (Dbl.fin (pupil / 2)) (Dbl.fin (pupil / 2 * eps)) (Q.map fun p => (Dbl.fin p.1, Dbl.fin p.2)))) Q.length) (Q.map fun p => Dbl.fin (X p))).1.set 0 0,
        (lstsq (transpose ((List.range (jmax + 1)).map (basisRow zern (Dbl.fin (pupil / 2)) (Dbl.fin (pupil / 2 * eps)) (Q.map fun p => (Dbl.fin p.1, Dbl.fin p.2)))) Q.length) (Q.map fun p => Dbl.fin (Y p))).1.set 0 0) := by
    unfold zernikeXYAberrations
    simp only [bind, Except.bind, htr, hpu, hp2, Dbl.mul_fin]
    generalize hdata : (if includeVignetted then ((polarPoints pupil inner nrad naz).map fun p => (Dbl.fin p.1, Dbl.fin p.2)).zip
        ((s.trace rv).rays.map fun ray => ((ray.r.x - Dbl.fin P.x, ray.r.y - Dbl.fin P.y), ray.vignetted)) else
      (((polarPoints pupil inner nrad naz).map fun p => (Dbl.fin p.1, Dbl.fin p.2)).zip
        ((s.trace rv).rays.map fun ray => ((ray.r.x - Dbl.fin P.x, ray.r.y - Dbl.fin P.y), ray.vignetted))).filter fun c => !c.2.2) = data
    have hm := hcells data hdata.symm
    have m1 : data.map (·.1) = Q.map fun p => (Dbl.fin p.1, Dbl.fin p.2) := by
      have := congrArg (List.map (·.1)) hm
      rw [List.map_map, List.map_map] at this
      exact this
    have m2 : data.map (·.2.1.1) = Q.map fun p => Dbl.fin (X p) := by
      have := congrArg (List.map (·.2.1)) hm
      rw [List.map_map, List.map_map] at this
      exact this
    have m3 : data.map (·.2.1.2) = Q.map fun p => Dbl.fin (Y p) := by
      have := congrArg (List.map (·.2.2)) hm
      rw [List.map_map, List.map_map] at this
      exact this
    have m4 : data.length = Q.length := by simpa using congrArg List.length hm
    rw [m1, m2, m3, m4]
  have hdist : ∀ V, Distinguishes (Finset.Icc 1 jmax) (pupilData Z V Q) ↔ Distinguishes (Finset.Icc 1 jmax) (pupilData Z (fun _ => 0) Q) := by
    intro V
    unfold Distinguishes pupilData
    simp only [List.forall_mem_map]
  obtain ⟨x1, x2⟩ := basis_fit hl hj hZ Q X rfl
  obtain ⟨y1, y2⟩ := basis_fit hl hj hZ Q Y rfl
  rw [hdist] at x1 x2 y1 y2
  constructor
  · intro hD
    obtain ⟨a1, cx, a2, a3, a4⟩ := x1 hD
    obtain ⟨b1, cy, b2, b3, b4⟩ := y1 hD
    refine ⟨cx, cy, ?_, a3, b3, a4, b4⟩
    rw [hz, if_neg (by omega), a2, b2]
  · intro hD
    rw [hz, if_pos (by have := x2 hD; omega)]

/-! ## A concrete system -/

/-- The first point of the rings is on the rim. -/
theorem polar_first : ∃ p, (polarPoints 4 0 2 6)[0]? = some p ∧ p.1 = 2 := by
  have h : polarPoints 4 0 2 6 = ringXY (ringRadius (4 / 2) 0 2 0) (ringPoints (4 / 2) 0 2 6 6 0) ++ ringXY (ringRadius (4 / 2) 0 2 1) (ringPoints (4 / 2) 0 2 6 6 1) := by
    simp [polarPoints, hexRings, List.range_succ]
  have hr : ringRadius (4 / 2) 0 2 0 = 2 := by norm_num [ringRadius]
  have hn : ringPoints (4 / 2) 0 2 6 6 0 = 6 := by
    unfold ringPoints
    rw [if_neg (by simp), hr]
    norm_num
  rw [h, hr, hn]
  refine ⟨(2 * Real.cos (2 * Real.pi * (0 : ℕ) / (6 : ℕ)), 2 * Real.sin (2 * Real.pi * (0 : ℕ) / (6 : ℕ))), by simp [ringXY], by simp⟩

theorem camera_inner : PupilInner camera 4 0 := .inr ⟨rfl, rfl⟩

theorem camera_rays (junk : ℕ → Dbl) : ∃ rv, polarFor junk camera (Dbl.fin (1 / 2)) (2 : ℕ) (6 : ℕ) (Dbl.fin 0, Dbl.fin 0, Dbl.fin (-1)) = .ok rv ∧
    (camera.trace rv).rays.length = (polarPoints 4 0 2 6).length ∧
    ∀ (i : ℕ) p, (polarPoints 4 0 2 6)[i]? = some p → ∃ out, (camera.trace rv).rays[i]? = some out ∧ out.vignetted = false ∧ out.r = (⟨p.1, p.2, 0⟩ : V3 ℝ).fin := by
  obtain ⟨rv, h1, h2⟩ := polarFor_wave camera_legal (d := ⟨0, 0, -1⟩) (.inr (by norm_num)) (by norm_num) camera_inner (nrad := 2) (naz := 6) (by norm_num)
    junk (plane_onSurface _)
  refine ⟨rv, h1, by rw [trace_size, h2.size], fun i p hp => ?_⟩
  obtain ⟨out, k1, -, k3, k4, -⟩ := screen_wave camera_optic std_orth globalFrame_orth (camera_dir _) (by norm_num) (by simp) h2 hp
  refine ⟨out, k1, k3, by simpa using k4⟩

/-- The chief ray of `zernikeTA`: launched through the centre of the stop. -/
theorem stop_wave (h : LegalSystem s surf stop cs n w back pupil) (hd : d.y ≠ 0 ∨ d.z ≠ 0) (hs : OnSurface surf [(0, 0)]) :
    ∃ rv, fromStop { optic := some s.attrs, wavelength := some (Dbl.fin w), dirCos := some d.fin } [(0, 0)] 1 = .ok (some rv) ∧
      PlaneWave surf stop cs n w back d [(0, 0)] [1] rv := by
  obtain ⟨med, hm1, hm2⟩ := h.medium
  have hl : LegalCall { optic := some s.attrs, wavelength := some (Dbl.fin w), dirCos := some d.fin } surf stop cs n w back d :=
    ⟨⟨med, ⟨.inr ⟨rfl, .inl ⟨_, rfl, h.back⟩⟩, .inr ⟨rfl, .inl ⟨_, rfl, hm1⟩⟩, .inr ⟨rfl, .inl ⟨_, rfl, h.stopSurface⟩⟩,
      .inr ⟨rfl, .inl ⟨_, rfl, by simp only [h.frame]⟩⟩, rfl, ⟨rfl, .inl rfl⟩⟩, hm2⟩, h.stop, h.cs, h.n, hd⟩
  have := C43_fromStop_partial hl [(0, 0)] hs 1
  simpa [Dbl.zero_dbl, Dbl.one_dbl] using this

theorem camera_chief (rays : List (Ray Dbl)) : TransversePoint .chief camera ⟨0, 0, -1⟩ (1 / 2) rays ⟨0, 0, 0⟩ := by
  obtain ⟨rv, h1, h2⟩ := stop_wave camera_legal (d := ⟨0, 0, -1⟩) (.inr (by norm_num)) (plane_onSurface _)
  obtain ⟨out, k1, -, -, k4, -⟩ := screen_wave camera_optic std_orth globalFrame_orth (camera_dir _) (by norm_num) (by simp) h2 (i := 0) rfl
  exact ⟨rv, out, h1, k1, by simpa using k4⟩

theorem camera_finds (pts : List (ℝ × ℝ)) (c : ℝ) (hc : 0 < c) :
    Finds Surface.plane camera.niter ((CoordSys.std ℝ).rot.tr.mulVec (globalFrame.rot.mulVec ((⟨0, 0, -1⟩ : V3 ℝ).smulR c))) pts :=
  plane_finds _ (by rw [camera_dir]; simpa using hc.ne') _

theorem unmasked_all {pts : List (ℝ × ℝ)} {mask : List Bool} (hl : mask.length = pts.length) (h : ∀ b ∈ mask, b = false) : unmasked pts mask = pts := by
  induction pts generalizing mask with
  | nil => simp [unmasked]
  | cons p pts ih =>
    cases mask with
    | nil => simp at hl
    | cons b mask =>
      have hb : b = false := h b (by simp)
      subst hb
      have := ih (mask := mask) (by simpa using hl) fun b hb => h b (List.mem_cons_of_mem _ hb)
      unfold unmasked at this ⊢
      simp [this]

/-- The camera without a lens, seen as an aberrated system of focal length 5: its transverse aberration is that of the defocus
`W = -(x² + y²) / 5` in waves of length 1/2. -/
example {lstsq : Lstsq Dbl} (hl : LeastSquares lstsq) (junk : ℕ → Dbl) : ∃ c : List ℝ,
    zernikeTA lstsq (fun _ _ _ x _ => x) (fun _ _ _ _ y => y) junk camera (Dbl.fin 0) (Dbl.fin 0) (Dbl.fin (1 / 2)) "orthographic" (2 : ℕ) (6 : ℕ) .chief 2
      (Dbl.fin 0) (some (Dbl.fin 5)) = .ok (c.map Dbl.fin) ∧ c = [0, 0, -(2 / 5)] := by
  obtain ⟨rv, h1, h2, h3⟩ := camera_rays junk
  obtain ⟨p, p1, p2⟩ := polar_first
  have hlit : litPoints (polarPoints 4 0 2 6) (camera.trace rv).rays = polarPoints 4 0 2 6 := by
    refine unmasked_all (by simpa using h2) fun b hb => ?_
    obtain ⟨ray, hm, rfl⟩ := List.mem_map.1 hb
    obtain ⟨i, hi, rfl⟩ := List.getElem_of_mem hm
    obtain ⟨out, k1, k2, -⟩ := h3 i _ (List.getElem?_eq_getElem (by omega))
    rw [List.getElem?_eq_getElem hi, Option.some.injEq] at k1
    rw [k1, k2]
  obtain ⟨c, c1, c2, c3, c4, c5⟩ := C87_transverse_recovers camera_legal newton_field (by norm_num) camera_inner (nrad := 2) (naz := 6) (by norm_num) junk (plane_onSurface _)
    (camera_finds _) h1 hl (camera_chief _) (focal := some (Dbl.fin 5)) (.inl rfl) (by norm_num) (by norm_num) (eps := 0) (gradX := fun _ _ _ x _ => x) (gradY := fun _ _ _ _ y => y)
    (Gx := fun _ p => p.1) (Gy := fun _ p => p.2) (jmax := 2) le_rfl (fun _ _ _ _ _ => rfl) (fun _ _ _ _ _ => rfl) (a := fun _ => -(2 / 5)) (by
      intro i q ray hq hr _
      obtain ⟨out, k1, -, k3⟩ := h3 i q hq
      rw [hr, Option.some.injEq] at k1
      rw [k1, k3]
      simp [V3.fin]
      constructor <;> ring) (by
      rw [hlit]
      intro c hc j hj
      have hj2 : j = 2 := by simpa using hj
      subst hj2
      have := hc (fun j => p.1, 0) (List.mem_append_left _ (List.mem_map.2 ⟨p, List.mem_of_getElem? p1, rfl⟩))
      simpa [p2] using this)
  refine ⟨c, c1, ?_⟩
  have h2 := c5 2 le_rfl le_rfl
  match c, c2 with
  | [x, y, z], _ => simp at c3 c4 h2 ⊢; exact ⟨c3, c4, h2⟩

/-- The same rays with two functions that do not depend on the point: they cannot be told apart. -/
example {lstsq : Lstsq Dbl} (hl : LeastSquares lstsq) (junk : ℕ → Dbl) :
    zernikeXYAberrations lstsq (fun _ _ _ _ _ => Dbl.fin 1) junk camera (Dbl.fin 0) (Dbl.fin 0) (Dbl.fin (1 / 2)) "orthographic" (2 : ℕ) (6 : ℕ) .chief 2
      (Dbl.fin 0) true = .error .runtimeError := by
  obtain ⟨rv, h1, h2, h3⟩ := camera_rays junk
  refine (C87_xy camera_legal newton_field (by norm_num) camera_inner (nrad := 2) (naz := 6) (by norm_num) junk (plane_onSurface _)
    (camera_finds _) h1 hl (camera_chief _) true (X := fun p => p.1) (Y := fun p => p.2) (by
      intro i q ray hq hr _
      obtain ⟨out, k1, -, k3⟩ := h3 i q hq
      rw [hr, Option.some.injEq] at k1
      rw [k1, k3]
      simp [V3.fin]) (Z := fun _ _ => 1) (jmax := 2) (by norm_num) (fun _ _ _ _ _ => rfl)).2 ?_
  intro hD
  have := hD (fun j => if j = 1 then 1 else -1) (by
    intro o ho
    obtain ⟨p, _, rfl⟩ := List.mem_map.1 ho
    simp [Finset.sum_Icc_succ_top]) 1 (by simp)
  simp at this

/-- The paraboloid has the coefficient zero: either the unvignetted points see the constant and it is zero, or there are none. -/
example {lstsq : Lstsq Dbl} (hl : LeastSquares lstsq) : ∃ wf, wavefront newton (Dbl.fin 0) (Dbl.fin 0) (Dbl.fin (1 / 2)) "orthographic" 6 (some (Dbl.fin 5)) .chief = .ok wf ∧
    (unmasked (pupilGrid 6 4) (wf.cells.map (·.2)) ≠ [] → ∃ c : List ℝ,
      zernike lstsq (fun _ _ _ _ _ => Dbl.fin 1) newton (Dbl.fin 0) (Dbl.fin 0) (Dbl.fin (1 / 2)) "orthographic" 6 (some (Dbl.fin 5)) .chief 1 (Dbl.fin 0) = .ok (c.map Dbl.fin) ∧ c = [0, 0]) := by
  obtain ⟨wf, h1, h2, h3⟩ := C75_newtonian newton_optic.turned (by norm_num) newton_legal newton_field one_pos newton_axis (nx := 6) (by norm_num) newton_aperture
    (by norm_num) (by norm_num) (ρ := 5) (ref := .chief) fun _ _ => trivial
  refine ⟨wf, h1, fun hne => ?_⟩
  obtain ⟨q, hq⟩ := List.exists_mem_of_ne_nil _ hne
  obtain ⟨c, c1, c2, c3, c4⟩ := C87_zernike_recovers newton_legal newton_field (nx := 6) (by norm_num) (plane_onSurface _)
    (fun c hc => plane_finds _ (by
      have : (⟨0, 0, -1⟩ : V3 ℝ).smulR c = ⟨0, 0, -c⟩ := by ext <;> simp
      rw [camera_dir]; simpa using hc.ne') _) hl h1 (zern := fun _ _ _ _ _ => Dbl.fin 1) (Z := fun _ _ => 1) (jmax := 1) one_pos (fun _ _ _ _ _ => rfl) (a := fun _ => 0) (by
      intro i p x _ hx
      rw [h3 x (List.mem_of_getElem? hx)]
      simp) (by
      intro c hc j hj
      have hj1 : j = 1 := by simpa using hj
      subst hj1
      have := hc (fun _ => 1, 0) (List.mem_map.2 ⟨q, hq, rfl⟩)
      simpa using this)
  refine ⟨c, c1, ?_⟩
  have h2 := c4 1 le_rfl le_rfl
  match c, c2 with
  | [x, y], _ => simp at c3 h2 ⊢; exact ⟨c3, h2⟩

end Batoid.Props
