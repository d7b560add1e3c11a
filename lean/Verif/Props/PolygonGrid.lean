import Verif.Props.Polygon
import Mathlib.Data.List.Sort

/-!
# `ObscPolygon.containsGrid` (C36)

The property as stated fails in three independent ways; each is shown with a witness.  What holds is proved under the
hypotheses those failures force.
-/

namespace Batoid.Props
open Batoid Batoid.Obsc

/-- Entry `[j, i]` of the array returned for a grid of `nx` columns. -/
def entry (out : ℕ → Option Bool) (nx j i : ℕ) : Option Bool := out (j * nx + i)

theorem mergeSort_fin_pair {a b : ℝ} (h : a ≤ b) : [Dbl.fin a, Dbl.fin b].mergeSort (fun a b => Arith.le a b) = [Dbl.fin a, Dbl.fin b] := by
  apply List.mergeSort_of_pairwise
  simp [h]

/-! ## Failures -/

/-- The edge from the last vertex back to the first is forgotten: the centre of the unit square is reported outside. -/
theorem C36_closing_edge_violated :
    entry (containsGrid (dbl unitSquare) [Dbl.fin (1 / 2)] [.fin (1 / 2)]) 1 0 0 = some false ∧
      contains (polygon (dbl unitSquare)) (Dbl.fin (1 / 2)) (.fin (1 / 2)) = true := by
  constructor
  · simp only [entry, containsGrid, dbl, unitSquare, List.map_cons, List.map_nil, gridRows, gridRow, gridIntercepts, gridEdges,
      polyYmin, polyYmax, List.foldl_cons, List.foldl_nil, Dbl.lt_fin, Dbl.gt_fin, Dbl.le_fin, Dbl.min_fin, Dbl.max_fin,
      Dbl.sub_fin, Dbl.mul_fin, List.length_cons, List.length_nil]
    norm_num
    norm_num [gridScan, store]
  · refine C35_convex_inside unitSquare_convex ?_
    intro e he
    simp [edges, unitSquare] at he
    rcases he with rfl | rfl | rfl | rfl <;> norm_num [side]

/-- The unit square with its first vertex repeated at the end. -/
def closedSquare : List Pt := [(0, 0), (1, 0), (1, 1), (0, 1), (0, 0)]

theorem closedSquare_intercepts {y : ℝ} (h0 : 0 < y) (h1 : y < 1) :
    gridIntercepts (dbl closedSquare) (.fin y) = [Dbl.fin 1, Dbl.fin 0] := by
  have n1 : ¬ (1 : ℝ) < y := by linarith
  have n2 : ¬ y ≤ 0 := by linarith
  simp only [dbl, closedSquare, List.map_cons, List.map_nil, gridIntercepts, gridEdges, Dbl.gt_fin, Dbl.le_fin, Dbl.min_fin, Dbl.max_fin,
    Dbl.sub_fin, Dbl.mul_fin, min_self, max_self, zero_le_one, min_eq_left, max_eq_right, min_eq_right, max_eq_left, h0, h1.le, n1, n2,
    decide_true, decide_false, Bool.true_and, Bool.and_false, Bool.false_and, if_true, Bool.false_eq_true, if_false]
  rw [Dbl.div_fin (by norm_num), Dbl.div_fin (by norm_num), Dbl.add_fin, Dbl.add_fin]
  norm_num

/-- Rows are written with the stride `ny` instead of `nx`: on a grid of one column and two rows the second entry is never
written, and a cell outside the buffer of two entries is. -/
theorem C36_stride_violated :
    entry (containsGrid (dbl closedSquare) [Dbl.fin (1 / 2)] [.fin (1 / 4), .fin (3 / 4)]) 1 1 0 = none ∧
      (containsGrid (dbl closedSquare) [Dbl.fin (1 / 2)] [.fin (1 / 4), .fin (3 / 4)] 2).isSome = true := by
  have i1 := closedSquare_intercepts (y := 1 / 4) (by norm_num) (by norm_num)
  have i2 := closedSquare_intercepts (y := 3 / 4) (by norm_num) (by norm_num)
  have srt : [Dbl.fin 1, Dbl.fin 0].mergeSort (fun a b => Arith.le a b) = [Dbl.fin 0, Dbl.fin 1] := by
    rw [show [Dbl.fin 1, Dbl.fin 0] = [Dbl.fin 1] ++ [Dbl.fin 0] from rfl]
    simp [List.mergeSort, List.MergeSort.Internal.splitInTwo]
  have hymin : polyYmin (Dbl.fin 0, Dbl.fin 0) (dbl [(1, 0), (1, 1), (0, 1), (0, 0)]) = Dbl.fin 0 := by
    norm_num [polyYmin, dbl]
  have hymax : polyYmax (Dbl.fin 0, Dbl.fin 0) (dbl [(1, 0), (1, 1), (0, 1), (0, 0)]) = Dbl.fin 1 := by
    simp [polyYmax, dbl]
  have hd : dbl closedSquare = (Dbl.fin 0, Dbl.fin 0) :: dbl [(1, 0), (1, 1), (0, 1), (0, 0)] := rfl
  rw [hd] at i1 i2 ⊢
  simp only [entry, containsGrid, gridRows, gridRow, hymin, hymax, i1, i2, srt, Dbl.lt_fin, Dbl.gt_fin, List.length_cons, List.length_nil]
  norm_num [gridScan, store]

/-- At most one intercept is passed per grid point: to the right of a polygon the grid starts out "inside". -/
theorem C36_coarse_grid_violated :
    entry (containsGrid (dbl closedSquare) [Dbl.fin 2] [.fin (1 / 2)]) 1 0 0 = some true ∧
      contains (polygon (dbl closedSquare)) (Dbl.fin 2) (.fin (1 / 2)) = false := by
  constructor
  · have i1 := closedSquare_intercepts (y := 1 / 2) (by norm_num) (by norm_num)
    have srt : [Dbl.fin 1, Dbl.fin 0].mergeSort (fun a b => Arith.le a b) = [Dbl.fin 0, Dbl.fin 1] := by
      rw [show [Dbl.fin 1, Dbl.fin 0] = [Dbl.fin 1] ++ [Dbl.fin 0] from rfl]
      simp [List.mergeSort, List.MergeSort.Internal.splitInTwo]
    have hymin : polyYmin (Dbl.fin 0, Dbl.fin 0) (dbl [(1, 0), (1, 1), (0, 1), (0, 0)]) = Dbl.fin 0 := by
      norm_num [polyYmin, dbl]
    have hymax : polyYmax (Dbl.fin 0, Dbl.fin 0) (dbl [(1, 0), (1, 1), (0, 1), (0, 0)]) = Dbl.fin 1 := by
      simp [polyYmax, dbl]
    have hd : dbl closedSquare = (Dbl.fin 0, Dbl.fin 0) :: dbl [(1, 0), (1, 1), (0, 1), (0, 0)] := rfl
    rw [hd] at i1 ⊢
    simp only [entry, containsGrid, gridRows, gridRow, hymin, hymax, i1, srt, Dbl.lt_fin, Dbl.gt_fin, List.length_cons, List.length_nil]
    norm_num [gridScan, store]
  · rw [← Bool.not_eq_true, C35_crossing_number]
    have : crossings 2 (1 / 2) (edges closedSquare) = 0 := by
      unfold crossings
      rw [List.countP_eq_zero]
      intro e he
      simp [edges, closedSquare] at he
      simp only [decide_eq_true_eq]
      rintro ⟨hs, hx⟩
      have := (abscissa_between hs).2.2
      rcases he with rfl | rfl | rfl | rfl | rfl <;> norm_num at this <;> linarith
    rw [this]; simp

/-! ## What holds -/

open Classical in
/-- Abscissas at which the outline of the polygon crosses the height `y`. -/
noncomputable def outlineAt (pts : List Pt) (y : ℝ) : List ℝ := ((edges pts).filter fun e => decide (Spans y e)).map (abscissa y)

/-- Number of entries below `x`. -/
noncomputable def below (cs : List ℝ) (x : ℝ) : ℕ := cs.countP fun c => decide (c < x)

/-- The grid steps over at most one crossing at a time (and at most one lies left of its first point). -/
def FineGrid (cs xs : List ℝ) : Prop :=
  (∀ h : 0 < xs.length, below cs xs[0] ≤ 1) ∧ ∀ i (h : i + 1 < xs.length), below cs xs[i + 1] ≤ below cs xs[i] + 1

theorem gridScan_length {F : Type} [Arith F] : ∀ (xs : List F) (cs : List F) (b : Bool), (gridScan cs b xs).length = xs.length
  | [], [], _ => rfl
  | [], _ :: _, _ => rfl
  | x :: xs, [], b => by simp [gridScan, gridScan_length xs]
  | x :: xs, c :: cs, b => by
    simp only [gridScan]; split <;> simp [gridScan_length xs]

theorem gridScan_spec : ∀ (xs cs : List ℝ) (b : Bool), xs.Pairwise (· ≤ ·) → cs.Pairwise (· ≤ ·) → FineGrid cs xs →
    ∀ i (hi : i < xs.length), (gridScan (cs.map Dbl.fin) b (xs.map Dbl.fin))[i]? = some (Bool.xor b (decide (below cs xs[i] % 2 = 1)))
  | [], _, _, _, _, _, i, hi => absurd hi (by simp)
  | x :: xs, [], b, hx, hc, hf, i, hi => by
    have ih := gridScan_spec xs [] b (List.pairwise_cons.mp hx).2 hc ⟨fun _ => by simp [below], fun i h => by simp [below]⟩
    cases i with
    | zero => simp [gridScan, below]
    | succ i =>
      have := ih i (by simpa using hi)
      simp only [List.map_nil] at this
      simp only [List.map_nil, List.map_cons, gridScan, List.getElem?_cons_succ, List.getElem_cons_succ, this]
  | x :: xs, c :: cs, b, hx, hc, hf, i, hi => by
    obtain ⟨hx1, hx2⟩ := List.pairwise_cons.mp hx
    obtain ⟨hc1, hc2⟩ := List.pairwise_cons.mp hc
    obtain ⟨hf0, hfs⟩ := hf
    have h0 : below (c :: cs) x ≤ 1 := hf0 (by simp)
    simp only [List.map_cons, gridScan, Dbl.gt_fin, decide_eq_true_eq]
    by_cases hcx : c < x
    · -- one crossing is passed
      have hbx : below cs x = 0 := by
        have : below (c :: cs) x = below cs x + 1 := by simp [below, hcx]
        omega
      have hle : ∀ w ∈ xs, below (c :: cs) w = below cs w + 1 := by
        intro w hw
        have : c < w := lt_of_lt_of_le hcx (hx1 w hw)
        simp [below, this]
      have hfine : FineGrid cs xs := by
        refine ⟨fun h => ?_, fun i h => ?_⟩
        · have := hfs 0 (by simpa using h)
          simp only [List.getElem_cons_succ, List.getElem_cons_zero] at this
          rw [hle _ (List.getElem_mem h)] at this
          have h1 : below (c :: cs) x = below cs x + 1 := by simp [below, hcx]
          omega
        · have := hfs (i + 1) (by simpa using h)
          simp only [List.getElem_cons_succ] at this
          rw [hle _ (List.getElem_mem h), hle _ (List.getElem_mem (by omega))] at this
          omega
      have ih := gridScan_spec xs cs (!b) hx2 hc2 hfine
      rw [if_pos hcx]
      cases i with
      | zero =>
        have h1 : below (c :: cs) x = 1 := by
          have : below (c :: cs) x = below cs x + 1 := by simp [below, hcx]
          omega
        simp [h1]
      | succ i =>
        have := ih i (by simpa using hi)
        simp only [List.getElem?_cons_succ, List.getElem_cons_succ, this]
        have hle' := hle _ (List.getElem_mem (n := i) (by simpa using hi))
        simp only [hle']
        congr 1
        cases b <;> simp only [Bool.not_true, Bool.not_false, Bool.true_xor, Bool.false_xor]
        · rw [← decide_not, decide_eq_decide]; omega
        · rw [← decide_not, decide_eq_decide]; omega
    · have hzero : below (c :: cs) x = 0 := by
        unfold below
        rw [List.countP_eq_zero]
        intro d hd
        simp only [decide_eq_true_eq, not_lt]
        rcases List.mem_cons.mp hd with rfl | hd
        · exact not_lt.mp hcx
        · exact le_trans (not_lt.mp hcx) (hc1 d hd)
      have hfine : FineGrid (c :: cs) xs := by
        refine ⟨fun h => ?_, fun i h => ?_⟩
        · have := hfs 0 (by simpa using h)
          simp only [List.getElem_cons_succ, List.getElem_cons_zero] at this
          omega
        · have := hfs (i + 1) (by simpa using h)
          simpa using this
      have ih := gridScan_spec xs (c :: cs) b hx2 hc hfine
      rw [if_neg hcx]
      cases i with
      | zero => simp [hzero]
      | succ i =>
        have := ih i (by simpa using hi)
        simp only [List.map_cons] at this
        simp only [List.getElem?_cons_succ, List.getElem_cons_succ, this]

open Classical in
theorem gridEdges_eq (y : ℝ) : ∀ (ps : List Pt) (p : Pt), gridEdges (Dbl.fin y) (.fin p.1, .fin p.2) (dbl ps) =
    ((((p :: ps).zip ps).filter fun e => decide (Spans y e)).map (abscissa y)).map Dbl.fin
  | [], p => rfl
  | q :: ps, p => by
    have ih := gridEdges_eq y ps q
    simp only [dbl] at ih
    simp only [dbl, List.map_cons, gridEdges, List.zip_cons_cons, Dbl.gt_fin, Dbl.le_fin, Dbl.min_fin, Dbl.max_fin, Dbl.sub_fin,
      Dbl.mul_fin, Bool.and_eq_true, decide_eq_true_eq, ih]
    by_cases hs : Spans y (p, q)
    · have hne := (abscissa_between hs).1
      simp only at hne
      have hd : q.2 - p.2 ≠ 0 := sub_ne_zero.mpr (Ne.symm hne)
      have hs' : min p.2 q.2 < y ∧ y ≤ max p.2 q.2 := hs
      rw [if_pos hs', List.filter_cons_of_pos (by simpa using hs), Dbl.div_fin hd, Dbl.add_fin]
      simp only [List.map_cons, List.cons.injEq, Dbl.fin_inj, and_true]
      simp only [abscissa]; ring
    · have hs' : ¬ (min p.2 q.2 < y ∧ y ≤ max p.2 q.2) := hs
      rw [if_neg hs', List.filter_cons_of_neg (by simpa using hs)]

/-- For a vertex list that repeats its first vertex at the end, `containsGrid` sees the whole outline. -/
theorem gridIntercepts_closed {p : Pt} {ps : List Pt} (hclosed : (p :: ps).getLast (by simp) = p) (y : ℝ) :
    gridIntercepts (dbl (p :: ps)) (Dbl.fin y) = (outlineAt (p :: ps) y).map Dbl.fin := by
  classical
  have h := gridEdges_eq y (p :: ps) p
  have e0 : gridIntercepts (dbl (p :: ps)) (Dbl.fin y) = gridEdges (Dbl.fin y) (.fin p.1, .fin p.2) (dbl (p :: ps)) := rfl
  have flat : ∀ q : Pt, ¬ Spans y (q, q) := by
    rintro q ⟨h1, h2⟩; simp at h1 h2; linarith
  have hz : edges (p :: ps) = ((p :: ps).zip ps) ++ [(p, p)] := by
    have hr : (p :: ps).rotate 1 = ps ++ [p] := by simp [List.rotate_cons_succ]
    have hsplit : (p :: ps) = (p :: ps).dropLast ++ [p] := by
      conv_lhs => rw [← List.dropLast_append_getLast (l := p :: ps) (by simp), hclosed]
    unfold edges
    rw [hr]
    have hl : (p :: ps).dropLast.length = ps.length := by simp
    have e1 : (p :: ps).zip (ps ++ [p]) = ((p :: ps).dropLast ++ [p]).zip (ps ++ [p]) := by rw [← hsplit]
    rw [e1, List.zip_append hl]
    congr 1
    have e2 : (p :: ps).zip ps = ((p :: ps).dropLast ++ [p]).zip (ps ++ []) := by rw [← hsplit, List.append_nil]
    rw [e2, List.zip_append hl]
    simp
  rw [e0, h, outlineAt, hz]
  congr 2
  rw [List.filter_append, List.filter_cons_of_neg (a := (p, p)) (by simpa using flat p)]
  rw [List.zip_cons_cons, List.filter_cons_of_neg (by simpa using flat p)]
  simp

open Classical in
/-- Along a walk the height is crossed an odd number of times iff the ends are on different sides. -/
theorem walk_parity (y : ℝ) : ∀ (ps : List Pt) (p : Pt),
    (Odd (((p :: ps).zip ps).countP fun e => decide (Spans y e)) ↔ ¬ (y ≤ p.2 ↔ y ≤ ((p :: ps).getLast (by simp)).2))
  | [], p => by simp
  | q :: ps, p => by
    have ih := walk_parity y ps q
    have hl : (p :: q :: ps).getLast (by simp) = (q :: ps).getLast (by simp) := by simp
    rw [List.zip_cons_cons, List.countP_cons, hl]
    have hs : Spans y (p, q) ↔ ¬ (y ≤ p.2 ↔ y ≤ q.2) := by
      rw [spans_iff]
      unfold Up Down
      simp only
      by_cases h1 : y ≤ p.2 <;> by_cases h2 : y ≤ q.2 <;> simp [h1, h2, not_lt] <;> linarith
    by_cases h : Spans y (p, q)
    · simp only [h, decide_true, if_true, Nat.odd_add_one]
      rw [ih]
      rw [hs] at h
      tauto
    · simp only [h, decide_false, Bool.false_eq_true, if_false, Nat.add_zero]
      rw [ih]
      rw [hs] at h
      tauto

/-- A closed outline crosses every height an even number of times. -/
theorem outline_even (pts : List Pt) (y : ℝ) : Even (outlineAt pts y).length := by
  classical
  cases pts with
  | nil => simp [outlineAt, edges]
  | cons p ps =>
    have hr : (p :: ps).rotate 1 = ps ++ [p] := by simp [List.rotate_cons_succ]
    have hz : edges (p :: ps) = (p :: (ps ++ [p])).zip (ps ++ [p]) := by
      rw [edges, hr]
      have := List.zip_append (l₁ := p :: ps) (l₂ := ps ++ [p]) (r₁ := [p]) (r₂ := ([] : List Pt)) (by simp)
      simpa using this.symm
    have := walk_parity y (ps ++ [p]) p
    rw [← Nat.not_odd_iff_even]
    unfold outlineAt
    rw [List.length_map, ← List.countP_eq_length_filter, hz, this]
    simp

/-- `contains` in terms of the outline. -/
theorem contains_outline (pts : List Pt) (x y : ℝ) :
    contains (polygon (dbl pts)) (Dbl.fin x) (.fin y) = decide (below (outlineAt pts y) x % 2 = 1) := by
  classical
  rw [Bool.eq_iff_iff, C35_crossing_number, decide_eq_true_eq]
  have h1 : crossings x y (edges pts) + below (outlineAt pts y) x = (outlineAt pts y).length := by
    unfold crossings below outlineAt
    rw [List.countP_map, List.length_map, List.countP_filter, ← List.countP_eq_length_filter]
    simp only [Function.comp_apply]
    induction edges pts with
    | nil => rfl
    | cons e es ih =>
      simp only [List.countP_cons]
      by_cases hs : Spans y e
      · by_cases hx : x ≤ abscissa y e
        · have hH : Hits x y e := ⟨hs, hx⟩
          simp [hs, hH, not_lt.mpr hx]; omega
        · have hH : ¬ Hits x y e := fun h => hx h.2
          simp [hs, hH, not_le.mp hx]; omega
      · have hH : ¬ Hits x y e := fun h => hs h.1
        simp [hs, hH]; omega
  have h2 := outline_even pts y
  rw [Nat.odd_iff]
  rw [Nat.even_iff] at h2
  omega

theorem polyYmin_le : ∀ (ps : List Pt) (m : ℝ), ∃ r, (dbl ps).foldl (fun m q => if Arith.lt q.2 m then q.2 else m) (Dbl.fin m) = .fin r ∧
    r ≤ m ∧ ∀ q ∈ ps, r ≤ q.2
  | [], m => ⟨m, rfl, le_rfl, by simp⟩
  | q :: ps, m => by
    by_cases h : q.2 < m
    · obtain ⟨r, h1, h2, h3⟩ := polyYmin_le ps q.2
      simp only [dbl] at h1
      refine ⟨r, by simpa [dbl, h] using h1, by linarith, ?_⟩
      intro w hw
      rcases List.mem_cons.mp hw with rfl | hw
      · exact h2
      · exact h3 w hw
    · obtain ⟨r, h1, h2, h3⟩ := polyYmin_le ps m
      simp only [dbl] at h1
      refine ⟨r, by simpa [dbl, h] using h1, h2, ?_⟩
      intro w hw
      rcases List.mem_cons.mp hw with rfl | hw
      · linarith
      · exact h3 w hw

theorem polyYmax_ge : ∀ (ps : List Pt) (m : ℝ), ∃ r, (dbl ps).foldl (fun m q => if Arith.gt q.2 m then q.2 else m) (Dbl.fin m) = .fin r ∧
    m ≤ r ∧ ∀ q ∈ ps, q.2 ≤ r
  | [], m => ⟨m, rfl, le_rfl, by simp⟩
  | q :: ps, m => by
    by_cases h : m < q.2
    · obtain ⟨r, h1, h2, h3⟩ := polyYmax_ge ps q.2
      simp only [dbl] at h1
      refine ⟨r, by simpa [dbl, h] using h1, by linarith, ?_⟩
      intro w hw
      rcases List.mem_cons.mp hw with rfl | hw
      · exact h2
      · exact h3 w hw
    · obtain ⟨r, h1, h2, h3⟩ := polyYmax_ge ps m
      simp only [dbl] at h1
      refine ⟨r, by simpa [dbl, h] using h1, h2, ?_⟩
      intro w hw
      rcases List.mem_cons.mp hw with rfl | hw
      · linarith
      · exact h3 w hw

/-- Outside the range of heights nothing is contained. -/
theorem outline_nil_outside {pts : List Pt} {y : ℝ} (h : (∀ q ∈ pts, y < q.2) ∨ (∀ q ∈ pts, q.2 < y)) : outlineAt pts y = [] := by
  classical
  unfold outlineAt
  rw [List.map_eq_nil_iff, List.filter_eq_nil_iff]
  intro e he
  simp only [decide_eq_true_eq]
  have hm : e.1 ∈ pts ∧ e.2 ∈ pts := by
    unfold edges at he
    have := List.of_mem_zip he
    exact ⟨this.1, List.mem_rotate.mp this.2⟩
  rintro ⟨h1, h2⟩
  rcases h with h | h
  · have a1 := h _ hm.1; have a2 := h _ hm.2
    rw [min_lt_iff] at h1
    rcases h1 with h1 | h1 <;> linarith
  · have a1 := h _ hm.1; have a2 := h _ hm.2
    rw [le_max_iff] at h2
    rcases h2 with h2 | h2 <;> linarith

/-- Rows written one below the other do not disturb each other when the strides agree. -/
theorem gridRows_frame {F : Type} [Arith F] (p : F × F) (ps : List (F × F)) (xg : List F) (n : ℕ) (hn : xg.length = n) :
    ∀ (ys : List F) (j : ℕ) (mem : ℕ → Option Bool) (a : ℕ), a < j * n → gridRows p ps xg n n j ys mem a = mem a
  | [], _, _, _, _ => rfl
  | y :: ys, j, mem, a, h => by
    rw [gridRows, gridRows_frame p ps xg n hn ys (j + 1) _ a (by rw [Nat.add_mul]; omega)]
    unfold store
    have : ¬ ((gridRow p ps xg n n j y).1 ≤ a ∧ a < (gridRow p ps xg n n j y).1 + (gridRow p ps xg n n j y).2.length) := by
      have : (gridRow p ps xg n n j y).1 = j * n := by unfold gridRow; split <;> rfl
      rw [this]; omega
    rw [if_neg this]

theorem gridRow_shape {F : Type} [Arith F] (p : F × F) (ps : List (F × F)) (xg : List F) (n : ℕ) (hn : xg.length = n) (j : ℕ) (y : F) :
    (gridRow p ps xg n n j y).1 = j * n ∧ (gridRow p ps xg n n j y).2.length = n := by
  unfold gridRow
  split
  · simp
  · simp [gridScan_length, hn]

theorem gridRows_get {F : Type} [Arith F] (p : F × F) (ps : List (F × F)) (xg : List F) (n : ℕ) (hn : xg.length = n) :
    ∀ (ys : List F) (j : ℕ) (mem : ℕ → Option Bool) (k : ℕ) (hk : k < ys.length) (i : ℕ), i < n →
      gridRows p ps xg n n j ys mem ((j + k) * n + i) = (gridRow p ps xg n n (j + k) ys[k]).2[i]?
  | [], _, _, k, hk, _, _ => absurd hk (by simp)
  | y :: ys, j, mem, 0, _, i, hi => by
    obtain ⟨h1, h2⟩ := gridRow_shape p ps xg n hn j y
    rw [gridRows, gridRows_frame p ps xg n hn ys (j + 1) _ _ (by rw [Nat.add_zero, Nat.add_mul j 1 n]; omega)]
    unfold store
    simp only [Nat.add_zero, h1, h2, List.getElem_cons_zero]
    rw [if_pos (by omega), Nat.add_sub_cancel_left]
  | y :: ys, j, mem, k + 1, hk, i, hi => by
    rw [gridRows]
    have := gridRows_get p ps xg n hn ys (j + 1) (store mem (gridRow p ps xg n n j y).1 (gridRow p ps xg n n j y).2) k
      (by simpa using hk) i hi
    rw [show j + (k + 1) = j + 1 + k by omega, this]
    simp

/-- `containsGrid` agrees with `contains` for vertex lists that repeat the first vertex at the end, on grids with as many
columns as rows, with increasing abscissas, fine enough not to step over two crossings at once. -/
theorem C36_grid_partial {p : Pt} {ps : List Pt} (hclosed : (p :: ps).getLast (by simp) = p) {xs ys : List ℝ}
    (hsq : xs.length = ys.length) (hx : xs.Pairwise (· ≤ ·)) (hfine : ∀ y ∈ ys, FineGrid (outlineAt (p :: ps) y) xs)
    {i j : ℕ} (hi : i < xs.length) (hj : j < ys.length) :
    entry (containsGrid (dbl (p :: ps)) (xs.map Dbl.fin) (ys.map Dbl.fin)) xs.length j i =
      some (contains (polygon (dbl (p :: ps))) (Dbl.fin xs[i]) (.fin ys[j])) := by
  have hd : dbl (p :: ps) = (Dbl.fin p.1, Dbl.fin p.2) :: dbl ps := rfl
  have hlen : (ys.map Dbl.fin).length = xs.length := by simp [hsq]
  have hlen' : (xs.map Dbl.fin).length = xs.length := by simp
  unfold entry
  conv_lhs => rw [hd]
  unfold containsGrid
  simp only
  rw [hlen, hlen']
  have := gridRows_get (Dbl.fin p.1, Dbl.fin p.2) (dbl ps) (xs.map Dbl.fin) xs.length hlen' (ys.map Dbl.fin) 0 (fun _ => none) j
    (by simpa using hj) i hi
  rw [Nat.zero_add] at this
  rw [this, contains_outline]
  obtain ⟨lo, hlo, hlo1, hlo2⟩ := polyYmin_le ps p.2
  obtain ⟨hi', hhi, hhi1, hhi2⟩ := polyYmax_ge ps p.2
  have e1 : polyYmin (Dbl.fin p.1, Dbl.fin p.2) (dbl ps) = .fin lo := hlo
  have e2 : polyYmax (Dbl.fin p.1, Dbl.fin p.2) (dbl ps) = .fin hi' := hhi
  unfold gridRow
  simp only [List.getElem_map, e1, e2, Dbl.lt_fin, Dbl.gt_fin, Bool.or_eq_true, decide_eq_true_eq]
  by_cases hout : ys[j] < lo ∨ hi' < ys[j]
  · rw [if_pos hout]
    have hnil : outlineAt (p :: ps) ys[j] = [] := by
      apply outline_nil_outside
      rcases hout with h | h
      · left
        intro q hq
        rcases List.mem_cons.mp hq with rfl | hq
        · linarith
        · have := hlo2 q hq; linarith
      · right
        intro q hq
        rcases List.mem_cons.mp hq with rfl | hq
        · linarith
        · have := hhi2 q hq; linarith
    rw [hnil]
    simp [below, hi]
  · rw [if_neg hout]
    have hic := gridIntercepts_closed hclosed ys[j]
    rw [hd] at hic
    rw [hic]
    -- sorting real intercepts
    obtain ⟨cs, hperm, hsorted, hsort⟩ : ∃ cs : List ℝ, cs.Perm (outlineAt (p :: ps) ys[j]) ∧ cs.Pairwise (· ≤ ·) ∧
        ((outlineAt (p :: ps) ys[j]).map Dbl.fin).mergeSort (fun a b => Arith.le a b) = cs.map Dbl.fin := by
      refine ⟨(outlineAt (p :: ps) ys[j]).mergeSort (fun a b => decide (a ≤ b)), List.mergeSort_perm _ _, ?_, ?_⟩
      · have := List.pairwise_mergeSort (le := fun a b : ℝ => decide (a ≤ b)) (by intro a b c; simp; exact le_trans)
          (by intro a b; simpa using le_total a b) (outlineAt (p :: ps) ys[j])
        simpa using this
      · exact (List.map_mergeSort (by intro a _ b _; simp)).symm
    have hbelow : ∀ x, below cs x = below (outlineAt (p :: ps) ys[j]) x := fun x => hperm.countP_eq _
    have hf := hfine ys[j] (List.getElem_mem hj)
    have hf' : FineGrid cs xs := ⟨fun h => by rw [hbelow]; exact hf.1 h, fun i h => by rw [hbelow, hbelow]; exact hf.2 i h⟩
    rw [hsort, gridScan_spec xs cs false hx hsorted hf' i hi, hbelow]
    simp

theorem closedSquare_outline : outlineAt closedSquare (1 / 2) = [1, 0] ∧ outlineAt closedSquare 5 = [] := by
  constructor
  · have h1 := closedSquare_intercepts (y := 1 / 2) (by norm_num) (by norm_num)
    have h2 := gridIntercepts_closed (p := (0, 0)) (ps := [(1, 0), (1, 1), (0, 1), (0, 0)]) (by simp) (1 / 2)
    rw [show (((0, 0) : Pt) :: [(1, 0), (1, 1), (0, 1), (0, 0)]) = closedSquare from rfl, h1] at h2
    have inj : Function.Injective Dbl.fin := fun a b h => by simpa using h
    exact (List.map_injective_iff.mpr inj (by simpa using h2)).symm
  · apply outline_nil_outside
    right
    intro q hq
    simp [closedSquare] at hq
    rcases hq with rfl | rfl | rfl | rfl | rfl <;> norm_num

/-- The hypotheses of `C36_grid_partial` hold for the closed unit square on a two by two grid. -/
example : entry (containsGrid (dbl closedSquare) ([1 / 2, 2].map Dbl.fin) ([1 / 2, 5].map Dbl.fin)) 2 0 1 = some false := by
  have h := C36_grid_partial (p := (0, 0)) (ps := [(1, 0), (1, 1), (0, 1), (0, 0)]) (xs := [1 / 2, 2]) (ys := [1 / 2, 5]) (by simp) (by simp)
    (by norm_num) (by
      intro y hy
      change FineGrid (outlineAt closedSquare y) _
      have : ∀ cs : List ℝ, cs = [1, 0] ∨ cs = [] → FineGrid cs [1 / 2, 2] := by
        rintro cs (rfl | rfl)
        · refine ⟨fun _ => by norm_num [below], fun i h => ?_⟩
          have : i = 0 := by simp at h; omega
          subst this
          norm_num [below]
        · exact ⟨fun _ => by simp [below], fun i h => by simp [below]⟩
      apply this
      simp only [List.mem_cons, List.not_mem_nil, or_false] at hy
      rcases hy with rfl | rfl
      · exact Or.inl closedSquare_outline.1
      · exact Or.inr closedSquare_outline.2) (i := 1) (j := 0) (by simp) (by simp)
  refine h.trans ?_
  rw [contains_outline]
  simp only [List.getElem_cons_succ, List.getElem_cons_zero]
  rw [show (((0, 0) : Pt) :: [(1, 0), (1, 1), (0, 1), (0, 0)]) = closedSquare from rfl]
  simp only [closedSquare_outline.1]
  norm_num [below]

end Batoid.Props
