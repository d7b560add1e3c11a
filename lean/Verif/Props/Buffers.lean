import Verif.Buffers
import Verif.Arith
import Mathlib.Tactic.IntervalCases

/-!
# C117: numbers reach the C++ code as given
-/

namespace Batoid.Props
open Batoid Batoid.Buffers Arith
variable {F : Type} [Arith F]

/-- The word is a double. -/
def Word.isFloat : Word F → Bool
  | .f64 _ => true
  | .i64 _ => false

/-- A well formed array: its elements are inside of its memory and of its element type. -/
def SoundView (a : View1 F) : Prop :=
  ∀ i < a.len, ∃ w, word a.buf (a.off + a.stride * (i : ℕ)) = some w ∧ Word.isFloat w = a.floats

/-- The same with two axes. -/
def SoundView2 (a : View2 F) : Prop :=
  ∀ i < a.rows, ∀ j < a.cols, ∃ w, word a.buf (a.off + a.stride0 * (i : ℕ) + a.stride1 * (j : ℕ)) = some w ∧ Word.isFloat w = a.floats

/-! ## Reading -/

omit [Arith F] in
theorem mapM_some (g : ℕ → Option F) (f : ℕ → F) : ∀ l : List ℕ, (∀ i ∈ l, g i = some (f i)) → l.mapM g = some (l.map f) := by
  intro l h
  induction l with
  | nil => rfl
  | cons a l ih =>
    rw [List.mapM_cons, h a (by simp), ih fun i hi => h i (by simp [hi])]
    rfl

omit [Arith F] in
theorem mapM_none (g : ℕ → Option F) : ∀ l : List ℕ, (∃ i ∈ l, g i = none) → l.mapM g = none := by
  intro l h
  induction l with
  | nil => simp at h
  | cons a l ih =>
    rw [List.mapM_cons]
    obtain ⟨i, hi, hg⟩ := h
    rcases List.mem_cons.mp hi with rfl | hi
    · rw [hg]; rfl
    · rw [ih ⟨i, hi, hg⟩]
      cases g a <;> rfl

theorem item_some {a : View1 F} (h : SoundView a) {i : ℕ} (hi : i < a.len) : ∃ x, a.item i = some x := by
  obtain ⟨w, hw, -⟩ := h i hi
  exact ⟨w.value, by simp [View1.item, hi, hw]⟩

omit [Arith F] in
theorem filterMap_range {A : Type} (g : ℕ → Option A) (f : ℕ → A) (n : ℕ) (h : ∀ i < n, g i = some (f i)) :
    (List.range n).filterMap g = (List.range n).map f := by
  rw [← List.filterMap_eq_map]
  refine List.filterMap_congr fun i hi => ?_
  rw [h i (List.mem_range.mp hi)]
  rfl

theorem toList_get {a : View1 F} (h : SoundView a) : a.toList.length = a.len ∧ ∀ i, a.toList[i]? = a.item i := by
  classical
  have hf : ∀ i < a.len, a.item i = some ((a.item i).getD 0) := fun i hi => by
    obtain ⟨x, hx⟩ := item_some h hi
    simp [hx]
  have he := filterMap_range a.item (fun i => (a.item i).getD 0) a.len hf
  refine ⟨by rw [View1.toList, he]; simp, fun i => ?_⟩
  rw [View1.toList, he]
  by_cases hi : i < a.len
  · simp [hi, (hf i hi).symm]
  · simp [hi, View1.item]

theorem peek_ofFloats (bits : ℤ → F) (l : List F) (i : ℕ) : (View1.ofFloats l).peek bits i = l[i]? := by
  simp only [View1.peek, View1.ofFloats, word, zero_add, Int.natCast_nonneg, if_true, Int.toNat_natCast, List.getElem?_map, Option.map_map]
  cases l[i]? <;> rfl

theorem fetch_ofFloats (bits : ℤ → F) (l : List F) {n : ℕ} (hn : n ≤ l.length) : (View1.ofFloats l).fetch bits n = some (l.take n) := by
  rw [View1.fetch, mapM_some _ (fun i => l.getD i 0)]
  · congr 1
    apply List.ext_getElem? 
    intro i
    by_cases hi : i < n
    · have : i < l.length := by omega
      simp [hi, this]
    · simp [hi]
  · intro i hi
    have : i < l.length := lt_of_lt_of_le (List.mem_range.mp hi) hn
    rw [peek_ofFloats]
    simp [this]

theorem fetch_ofFloats_short (bits : ℤ → F) (l : List F) {n : ℕ} (hn : l.length < n) : (View1.ofFloats l).fetch bits n = none := by
  refine mapM_none _ _ ⟨l.length, List.mem_range.mpr hn, ?_⟩
  rw [peek_ofFloats]
  simp

/-- What a dense array of doubles holds is what C++ reads. -/
theorem dense_peek (bits : ℤ → F) {a : View1 F} (h : SoundView a) (hf : a.floats = true) (hd : a.dense = true) {i : ℕ}
    (hi : i < a.len) : a.peek bits i = a.item i := by
  obtain ⟨w, hw, hk⟩ := h i hi
  have he : a.stride * (i : ℤ) = i := by
    simp only [View1.dense, decide_eq_true_eq] at hd
    rcases hd with hd | hd
    · rw [hd, one_mul]
    · have : i = 0 := by omega
      simp [this]
  have hw' : word a.buf (a.off + (i : ℤ)) = some w := by rw [← he]; exact hw
  simp only [View1.peek, View1.item, hi, if_true, hw, hw', Option.map_some]
  cases w with
  | f64 x => rfl
  | i64 k => simp [Word.isFloat, hf] at hk

theorem dense_fetch (bits : ℤ → F) {a : View1 F} (h : SoundView a) (hf : a.floats = true) (hd : a.dense = true) :
    a.fetch bits a.len = some a.toList := by
  have hg := toList_get h
  rw [View1.fetch, mapM_some _ (fun i => (a.item i).getD 0)]
  · congr 1
    apply List.ext_getElem?
    intro i
    rw [hg.2]
    by_cases hi : i < a.len
    · obtain ⟨x, hx⟩ := item_some h hi
      simp [hi, hx]
    · simp [hi, View1.item]
  · intro i hi
    have hi := List.mem_range.mp hi
    rw [dense_peek bits h hf hd hi]
    obtain ⟨x, hx⟩ := item_some h hi
    simp [hx]

/-! ## Copies -/

theorem soundView_ofFloats (l : List F) : SoundView (View1.ofFloats l) := by
  intro i hi
  refine ⟨.f64 (l[i]'hi), ?_, rfl⟩
  have : i < l.length := hi
  simp [View1.ofFloats, word, this]
  rfl

theorem toList_ofFloats (l : List F) : (View1.ofFloats l).toList = l := by
  apply List.ext_getElem?
  intro i
  rw [(toList_get (soundView_ofFloats l)).2]
  by_cases hi : i < l.length
  · simp [View1.item, View1.ofFloats, word, hi, Word.value]
  · simp [View1.item, View1.ofFloats, hi]

theorem copy_word {a : View1 F} (h : SoundView a) {i : ℕ} (hi : i < a.len) :
    word a.copy.buf (i : ℤ) = word a.buf (a.off + a.stride * (i : ℕ)) := by
  have hf : ∀ i < a.len, word a.buf (a.off + a.stride * (i : ℕ)) = some ((word a.buf (a.off + a.stride * (i : ℕ))).getD (.i64 0)) := fun i hi => by
    obtain ⟨w, hw, -⟩ := h i hi
    simp [hw]
  have he := filterMap_range (fun i : ℕ => word a.buf (a.off + a.stride * (i : ℕ))) (fun i => (word a.buf (a.off + a.stride * (i : ℕ))).getD (.i64 0)) a.len hf
  have : a.copy.buf = (List.range a.len).map fun i : ℕ => (word a.buf (a.off + a.stride * (i : ℕ))).getD (.i64 0) := he
  rw [this]
  conv_lhs => unfold word
  simp only [Int.natCast_nonneg, if_true, Int.toNat_natCast, List.getElem?_map, List.getElem?_range hi, Option.map_some]
  exact (hf i hi).symm

theorem copy_item {a : View1 F} (h : SoundView a) (i : ℕ) : a.copy.item i = a.item i := by
  have hl : a.copy.len = a.len := rfl
  unfold View1.item
  rw [hl]
  by_cases hi : i < a.len
  · have : a.copy.off + a.copy.stride * (i : ℕ) = (i : ℤ) := by simp [View1.copy]
    rw [if_pos hi, if_pos hi, this, copy_word h hi]
  · rw [if_neg hi, if_neg hi]

theorem soundView_copy {a : View1 F} (h : SoundView a) : SoundView a.copy := by
  intro i hi
  obtain ⟨w, hw, hk⟩ := h i hi
  refine ⟨w, ?_, hk⟩
  have : a.copy.off + a.copy.stride * (i : ℕ) = (i : ℤ) := by simp [View1.copy]
  rw [this, copy_word h hi, hw]

theorem toList_copy {a : View1 F} (h : SoundView a) : a.copy.toList = a.toList := by
  apply List.ext_getElem?
  intro i
  rw [(toList_get (soundView_copy h)).2, (toList_get h).2, copy_item h]

theorem copy_dense (a : View1 F) : a.copy.dense = true := by simp [View1.dense, View1.copy]

/-- Converting to dense doubles keeps the numbers, and C++ reads them. -/
theorem floatContiguous_spec {a : View1 F} (h : SoundView a) :
    SoundView a.floatContiguous ∧ a.floatContiguous.toList = a.toList ∧ a.floatContiguous.len = a.len
      ∧ a.floatContiguous.floats = true ∧ a.floatContiguous.dense = true := by
  unfold View1.floatContiguous
  by_cases hc : (a.floats && a.dense) = true
  · rw [if_pos hc]
    rw [Bool.and_eq_true] at hc
    exact ⟨h, rfl, rfl, hc.1, hc.2⟩
  · rw [if_neg hc]
    exact ⟨soundView_ofFloats _, toList_ofFloats _, (toList_get h).1, rfl, by simp [View1.dense, View1.floatCopy, View1.ofFloats]⟩

theorem floatContiguous_fetch (bits : ℤ → F) {a : View1 F} (h : SoundView a) :
    a.floatContiguous.fetch bits a.len = some a.toList := by
  obtain ⟨hw, hl, hn, hf, hd⟩ := floatContiguous_spec h
  rw [← hn, dense_fetch bits hw hf hd, hl]

/-! ## Aspheres -/

/-- **C117** (`Asphere`).  Coefficients of any element type and any stride reach the C++ surface as given, after the zeros that `imin`
asks for, if `imin` is at least 2 or the coefficients are doubles. -/
theorem C117_asphere (bits : ℤ → F) {imin : ℕ} {coefs : View1 F} (h : SoundView coefs) (h1 : 1 ≤ imin)
    (hk : 2 ≤ imin ∨ coefs.floats = true) :
    ∃ padded, Surface.asphereCtor (imin : ℤ) coefs.toList = .ok padded ∧ asphereCoefs bits imin coefs = some padded := by
  by_cases hi : imin = 1
  · subst hi
    have hf : coefs.floats = true := by rcases hk with h | h; · omega
                                        · exact h
    refine ⟨coefs.toList, by simp [Surface.asphereCtor], ?_⟩
    simp only [asphereCoefs, ne_eq, not_true_eq_false, if_false]
    unfold View1.contiguous
    by_cases hd : coefs.dense = true
    · rw [if_pos hd]; exact dense_fetch bits h hf hd
    · rw [if_neg hd, dense_fetch bits (soundView_copy h) hf (copy_dense _), toList_copy h]
  · refine ⟨List.replicate (imin - 1) 0 ++ coefs.toList, ?_, ?_⟩
    · have h0 : ¬ ((imin : ℤ) ≤ 0) := by omega
      have h2 : (imin : ℤ) ≠ 1 := by omega
      have h3 : ((imin : ℤ) - 1).toNat = imin - 1 := by omega
      simp only [Surface.asphereCtor, if_neg h0, if_pos h2, h3]
    · simp only [asphereCoefs, ne_eq, hi, not_false_eq_true, if_true]
      have hd : (View1.ofFloats (List.replicate (imin - 1) 0 ++ coefs.toList)).dense = true := by simp [View1.dense, View1.ofFloats]
      rw [View1.contiguous, if_pos hd, dense_fetch bits (soundView_ofFloats _) rfl hd, toList_ofFloats]

/-- Three coefficients taken from every other place of a memory block, backwards. -/
def demoStrided : View1 Dbl := ⟨[.f64 (.fin 1), .f64 (.fin 2), .f64 (.fin 3), .f64 (.fin 4), .f64 (.fin 5)], 4, -2, 3, true⟩

theorem demoStrided_ok : SoundView demoStrided := by
  intro i hi
  have : i < 3 := hi
  interval_cases i <;> exact ⟨_, rfl, rfl⟩

example : SoundView demoStrided ∧ (1 ≤ 1) ∧ (2 ≤ 1 ∨ demoStrided.floats = true)
    ∧ demoStrided.toList = [.fin 5, .fin 3, .fin 1] := ⟨demoStrided_ok, le_refl _, Or.inr rfl, rfl⟩

/-- Integers are read by C++ as bit patterns. -/
theorem fetch_ofInts (bits : ℤ → F) (l : List ℤ) : (View1.ofInts (F := F) l).fetch bits l.length = some (l.map bits) := by
  rw [View1.fetch, mapM_some _ (fun i => bits (l.getD i 0))]
  · congr 1
    apply List.ext_getElem?
    intro i
    by_cases hi : i < l.length <;> simp [hi]
  · intro i hi
    have : i < l.length := List.mem_range.mp hi
    simp [View1.peek, View1.ofInts, word, this, Word.asDouble]

theorem soundView_ofInts (l : List ℤ) : SoundView (View1.ofInts (F := F) l) := by
  intro i hi
  refine ⟨.i64 (l[i]'hi), ?_, rfl⟩
  have : i < l.length := hi
  simp [View1.ofInts, word, this]
  rfl

theorem toList_ofInts (l : List ℤ) : (View1.ofInts (F := F) l).toList = l.map fun k : ℤ => const (k : ℚ) := by
  apply List.ext_getElem?
  intro i
  rw [(toList_get (soundView_ofInts l)).2]
  by_cases hi : i < l.length
  · simp [View1.item, View1.ofInts, word, hi, Word.value]
  · simp [View1.item, View1.ofInts, hi]

/-- With `imin=1` and a list of integers, the surface has the doubles with the bit patterns of the integers as coefficients. -/
theorem C117_asphere_integers (bits : ℤ → F) (l : List ℤ) : asphereCoefs bits 1 (View1.ofInts l) = some (l.map bits) := by
  simp only [asphereCoefs, ne_eq, not_true_eq_false, if_false]
  have hd : (View1.ofInts (F := F) l).dense = true := by simp [View1.dense, View1.ofInts]
  rw [View1.contiguous, if_pos hd]
  exact fetch_ofInts bits l

theorem bitsDbl_one : bitsDbl 1 = .fin (1 / 2 ^ 1074) := by
  unfold bitsDbl
  rw [if_pos ⟨by norm_num, by norm_num⟩]
  simp

theorem bitsDbl_one_ne : bitsDbl 1 ≠ const ((1 : ℤ) : ℚ) := by
  rw [bitsDbl_one]
  intro h
  have h2 : (1 : ℝ) / 2 ^ 1074 = ((1 : ℤ) : ℚ) := Dbl.fin.inj h
  have h3 : (1 : ℝ) < 2 ^ 1074 := one_lt_pow₀ (by norm_num) (by norm_num)
  rw [div_eq_iff (by positivity)] at h2
  push_cast at h2
  rw [one_mul] at h2
  exact absurd h2 h3.ne

/-- **C117 violated** by `Asphere(R, conic, [1], imin=1)`: the coefficient of `r^2` is not 1. -/
theorem C117_asphere_violated : ∃ coefs : View1 Dbl, SoundView coefs
    ∧ Surface.asphereCtor 1 coefs.toList = .ok [const ((1 : ℤ) : ℚ)]
    ∧ ∃ c, asphereCoefs bitsDbl 1 coefs = some [c] ∧ c = .fin (1 / 2 ^ 1074) ∧ c ≠ const ((1 : ℤ) : ℚ) := by
  refine ⟨View1.ofInts [1], soundView_ofInts _, ?_, bitsDbl 1, C117_asphere_integers _ _, bitsDbl_one, bitsDbl_one_ne⟩
  rw [toList_ofInts]
  rfl

/-! ## Table media -/

/-- **C117** (`TableMedium`).  Columns of doubles of any stride reach the C++ medium as given, if there are as many indices as
wavelengths. -/
theorem C117_medium (bits : ℤ → F) {w n : View1 F} (hw : SoundView w) (hn : SoundView n) (fw : w.floats = true)
    (fn : n.floats = true) (hl : n.len = w.len) : tableColumns bits w n = some (w.toList, n.toList) := by
  have h1 : w.copy.fetch bits w.copy.len = some w.toList := by
    rw [dense_fetch bits (soundView_copy hw) fw (copy_dense _), toList_copy hw]
  have h2 : n.copy.fetch bits w.copy.len = some n.toList := by
    have : w.copy.len = n.copy.len := hl.symm
    rw [this, dense_fetch bits (soundView_copy hn) fn (copy_dense _), toList_copy hn]
  simp [tableColumns, h1, h2]

example : SoundView demoStrided ∧ demoStrided.floats = true ∧ demoStrided.len = demoStrided.len := ⟨demoStrided_ok, rfl, rfl⟩

/-- Fewer indices than wavelengths: the C++ medium reads beyond the end of the array; no error is raised. -/
theorem C117_medium_lengths (bits : ℤ → F) {w n : View1 F} (hn : SoundView n) (hl : n.len < w.len) : tableColumns bits w n = none := by
  have h2 : n.copy.fetch bits w.copy.len = none := by
    refine mapM_none _ _ ⟨n.len, List.mem_range.mpr hl, ?_⟩
    have hb : n.copy.buf.length ≤ n.len := by
      refine le_trans (List.length_filterMap_le _ _) ?_
      simp
    have : n.copy.buf[n.len]? = none := List.getElem?_eq_none hb
    have ho : n.copy.off + (n.len : ℤ) = (n.len : ℤ) := by simp [View1.copy]
    simp [View1.peek, word, ho, this]
  unfold tableColumns
  rw [h2]
  cases w.copy.fetch bits w.copy.len <;> rfl

theorem copy_ofInts_fetch (bits : ℤ → F) (l : List ℤ) : (View1.ofInts (F := F) l).copy.fetch bits l.length = some (l.map bits) := by
  have : (View1.ofInts (F := F) l).copy = View1.ofInts l := by
    have h1 : (List.range (View1.ofInts (F := F) l).len).filterMap (fun i : ℕ => word (View1.ofInts (F := F) l).buf ((View1.ofInts (F := F) l).off + (View1.ofInts (F := F) l).stride * (i : ℕ))) = (View1.ofInts (F := F) l).buf := by
      rw [filterMap_range _ (fun i => Word.i64 (l.getD i 0))]
      · apply List.ext_getElem?
        intro i
        by_cases hi : i < l.length <;> simp [hi, View1.ofInts]
      · intro i hi
        have : i < l.length := hi
        simp [View1.ofInts, word, this]
    unfold View1.copy
    rw [h1]
    rfl
  rw [this, fetch_ofInts]

/-- Columns of integers are read as bit patterns. -/
theorem C117_medium_integers (bits : ℤ → F) (w n : List ℤ) (h : n.length = w.length) :
    tableColumns bits (View1.ofInts w) (View1.ofInts n) = some (w.map bits, n.map bits) := by
  have h1 : (View1.ofInts (F := F) w).copy.len = w.length := rfl
  unfold tableColumns
  rw [h1, copy_ofInts_fetch, ← h, copy_ofInts_fetch]
  rfl

/-- **C117 violated** by `TableMedium([0.0, 1.0], [1, 1])`: the refractive index is not 1 at any wavelength of the table. -/
theorem C117_medium_violated : ∃ w n : View1 Dbl, SoundView w ∧ SoundView n ∧ n.len = w.len
    ∧ w.toList = [.fin 0, .fin 1] ∧ n.toList = [const ((1 : ℤ) : ℚ), const ((1 : ℤ) : ℚ)]
    ∧ ∃ c, tableColumns bitsDbl w n = some ([.fin 0, .fin 1], [c, c]) ∧ c = .fin (1 / 2 ^ 1074)
    ∧ ∀ x : ℝ, 0 ≤ x → x < 1 → (Medium.table [.fin 0, .fin 1] [c, c] .nan).getN (.fin x) = .fin (1 / 2 ^ 1074) := by
  refine ⟨View1.ofFloats [.fin 0, .fin 1], View1.ofInts [1, 1], soundView_ofFloats _, soundView_ofInts _, rfl, rfl, rfl,
    bitsDbl 1, rfl, bitsDbl_one, fun x h0 h1 => ?_⟩
  rw [bitsDbl_one]
  have hu : Medium.upperIdx (Dbl.fin x) 1 [Dbl.fin 1] = 1 := by
    simp [Medium.upperIdx, h1]
  simp [Medium.table, Medium.tableGetN, hu, not_lt.mpr h0, not_lt.mpr h1.le]

/-! ## Polygons -/

/-- **C117** (`ObscPolygon`).  Vertices of any element type and stride reach the C++ object as given. -/
theorem C117_polygon (bits : ℤ → F) {xs ys : View1 F} (hx : SoundView xs) (hy : SoundView ys) (hl : ys.len = xs.len) :
    polygonVertices bits xs ys = some (xs.toList.zip ys.toList) := by
  have h1 := floatContiguous_fetch bits hx
  have h2 := floatContiguous_fetch bits hy
  have h3 := (floatContiguous_spec hx).2.2.1
  unfold polygonVertices
  rw [h3, h1, ← hl, h2]
  rfl

example : SoundView demoStrided ∧ SoundView (View1.ofInts (F := Dbl) [1, 2, 3]) ∧ (View1.ofInts (F := Dbl) [1, 2, 3]).len = demoStrided.len :=
  ⟨demoStrided_ok, soundView_ofInts _, rfl⟩

/-- **C117 violated** by `ObscPolygon([0, 1, 1], [0, 0])`: the C++ object reads beyond the end of `ys`; no error is raised. -/
theorem C117_polygon_violated : ∃ xs ys : View1 Dbl, SoundView xs ∧ SoundView ys ∧ polygonVertices bitsDbl xs ys = none :=
  ⟨View1.ofFloats [0, 1, 1], View1.ofFloats [0, 0], soundView_ofFloats _, soundView_ofFloats _, rfl⟩

/-- **C117** (`ObscPolygon.containsGrid`), dense arrays of doubles. -/
theorem C117_grid (bits : ℤ → F) {xs ys : View1 F} (hx : SoundView xs) (hy : SoundView ys) (fx : xs.floats = true)
    (fy : ys.floats = true) (dx : xs.dense = true) (dy : ys.dense = true) :
    gridCoordinates bits xs ys = some (xs.toList, ys.toList) := by
  simp [gridCoordinates, dense_fetch bits hx fx dx, dense_fetch bits hy fy dy]

example : SoundView (View1.ofFloats (F := Dbl) [.fin 1, .fin 2]) ∧ (View1.ofFloats (F := Dbl) [.fin 1, .fin 2]).floats = true
    ∧ (View1.ofFloats (F := Dbl) [.fin 1, .fin 2]).dense = true := ⟨soundView_ofFloats _, rfl, by simp [View1.dense, View1.ofFloats]⟩

/-- **C117 violated** by `containsGrid(x[::2], y)`: the C++ code looks at the neighbours instead. -/
theorem C117_grid_violated : ∃ xs ys : View1 Dbl, SoundView xs ∧ SoundView ys ∧ xs.toList = [.fin 0, .fin 2]
    ∧ gridCoordinates bitsDbl xs ys = some ([.fin 0, .fin 1], ys.toList) := by
  refine ⟨(View1.ofFloats [.fin 0, .fin 1, .fin 2]).slice 0 2 2, View1.ofFloats [.fin 0], ?_, soundView_ofFloats _, rfl, rfl⟩
  intro i hi
  have : i < 2 := hi
  interval_cases i <;> exact ⟨_, rfl, rfl⟩

/-! ## Tables -/

theorem item2_some {a : View2 F} (h : SoundView2 a) {i j : ℕ} (hi : i < a.rows) (hj : j < a.cols) :
    ∃ x, a.item i j = some x := by
  obtain ⟨w, hw, -⟩ := h i hi j hj
  exact ⟨w.value, by simp [View2.item, hi, hj, hw]⟩

omit [Arith F] in
theorem flatMap_rows_get {A : Type} (f : ℕ → ℕ → A) (c : ℕ) : ∀ (r i j : ℕ), i < r → j < c →
    ((List.range r).flatMap fun i => (List.range c).map (f i))[c * i + j]? = some (f i j) := by
  intro r
  induction r with
  | zero => intro i j hi; omega
  | succ r ih =>
    intro i j hi hj
    have hlen : ((List.range r).flatMap fun i => (List.range c).map (f i)).length = c * r := by
      simp [List.length_flatMap, mul_comm]
    rw [List.range_succ, List.flatMap_append]
    by_cases hir : i < r
    · have : c * i + j < c * r := by
        have : c * (i + 1) ≤ c * r := Nat.mul_le_mul_left c hir
        rw [Nat.mul_add, Nat.mul_one] at this
        omega
      rw [List.getElem?_append_left (by rw [hlen]; exact this)]
      exact ih i j hir hj
    · have hir : i = r := by omega
      subst hir
      rw [List.getElem?_append_right (by rw [hlen]; omega), hlen]
      simp [hj]

theorem toList2_get {a : View2 F} (h : SoundView2 a) {i j : ℕ} (hi : i < a.rows) (hj : j < a.cols) :
    a.toList[a.cols * i + j]? = a.item i j := by
  have he : a.toList = (List.range a.rows).flatMap fun i => (List.range a.cols).map fun j => (a.item i j).getD 0 := by
    unfold View2.toList
    refine List.flatMap_congr fun i hi => ?_
    refine filterMap_range _ _ _ fun j hj => ?_
    obtain ⟨x, hx⟩ := item2_some h (List.mem_range.mp hi) hj
    simp [hx]
  rw [he, flatMap_rows_get (fun i j => (a.item i j).getD 0) a.cols a.rows i j hi hj]
  obtain ⟨x, hx⟩ := item2_some h hi hj
  simp [hx]

theorem peek2_floatCopy (bits : ℤ → F) (a : View2 F) (k : ℕ) : a.floatCopy.peek bits k = a.toList[k]? := by
  simp only [View2.peek, View2.floatCopy, word, zero_add, Int.natCast_nonneg, if_true, Int.toNat_natCast, List.getElem?_map, Option.map_map]
  cases a.toList[k]? <;> rfl

theorem floatCopy2_get (bits : ℤ → F) {a : View2 F} (h : SoundView2 a) {i j : ℕ} (hi : i < a.rows) (hj : j < a.cols) :
    a.floatCopy.peek bits (a.cols * i + j) = a.item i j := by rw [peek2_floatCopy, toList2_get h hi hj]

/-- **C117** (`Bicubic`).  Heights and slopes of any element type and memory order (rows or columns first, transposed, strided) reach
the C++ table as given: the node `(ix, iy)` has the numbers `zs[iy, ix]`, ..., if all arrays have `ny` rows and `nx` columns. -/
theorem C117_table (bits : ℤ → F) (junk x0 y0 dx dy : F) (useNan : Bool) {nx ny : ℕ} {z zx zy zxy : View2 F}
    (hz : SoundView2 z) (hzx : SoundView2 zx) (hzy : SoundView2 zy) (hzxy : SoundView2 zxy)
    (sz : z.rows = ny ∧ z.cols = nx) (szx : zx.rows = ny ∧ zx.cols = nx) (szy : zy.rows = ny ∧ zy.cols = nx)
    (szxy : zxy.rows = ny ∧ zxy.cols = nx) {ix iy : ℕ} (hx : ix < nx) (hy : iy < ny) :
    some ((bicubicTable bits junk x0 y0 dx dy nx ny z zx zy zxy useNan).z (nx * iy + ix)) = z.item iy ix
    ∧ some ((bicubicTable bits junk x0 y0 dx dy nx ny z zx zy zxy useNan).dzdx (nx * iy + ix)) = zx.item iy ix
    ∧ some ((bicubicTable bits junk x0 y0 dx dy nx ny z zx zy zxy useNan).dzdy (nx * iy + ix)) = zy.item iy ix
    ∧ some ((bicubicTable bits junk x0 y0 dx dy nx ny z zx zy zxy useNan).d2zdxdy (nx * iy + ix)) = zxy.item iy ix := by
  have key : ∀ a : View2 F, SoundView2 a → a.rows = ny ∧ a.cols = nx →
      some ((a.floatCopy.peek bits (nx * iy + ix)).getD junk) = a.item iy ix := by
    intro a ha hs
    have h1 := floatCopy2_get bits ha (i := iy) (j := ix) (by rw [hs.1]; exact hy) (by rw [hs.2]; exact hx)
    rw [hs.2] at h1
    obtain ⟨x, hx'⟩ := item2_some ha (i := iy) (j := ix) (by rw [hs.1]; exact hy) (by rw [hs.2]; exact hx)
    rw [h1, hx']
    rfl
  exact ⟨key z hz sz, key zx hzx szx, key zy hzy szy, key zxy hzxy szxy⟩

/-- Two rows of three integers, stored columns first. -/
def demoGrid2 : View2 Dbl := ⟨[.i64 11, .i64 21, .i64 12, .i64 22, .i64 13, .i64 23], 0, 1, 2, 2, 3, false⟩

theorem demoGrid2_ok : SoundView2 demoGrid2 := by
  intro i hi j hj
  have h1 : i < 2 := hi
  have h2 : j < 3 := hj
  interval_cases i <;> interval_cases j <;> exact ⟨_, rfl, rfl⟩

example : SoundView2 demoGrid2 ∧ (demoGrid2.rows = 2 ∧ demoGrid2.cols = 3) ∧ (2 < 3) ∧ (1 < 2)
    ∧ demoGrid2.item 1 2 = some (const ((23 : ℤ) : ℚ)) := ⟨demoGrid2_ok, ⟨rfl, rfl⟩, by norm_num, by norm_num, rfl⟩

/-- **C117 violated** by heights of the wrong shape, such as `zs` transposed (2 rows of 3 for 3 rows of 2): no error is raised, and
the node `ix = 0`, `iy = 1` gets `zs[0, 2]`, which is neither `zs[0, 1]` nor `zs[1, 0]`. -/
theorem C117_table_violated : ∃ z : View2 Dbl, SoundView2 z ∧ z.rows = 2 ∧ z.cols = 3
    ∧ ∀ junk x0 y0 dx dy useNan,
      (bicubicTable bitsDbl junk x0 y0 dx dy 2 3 z z z z useNan).z (2 * 1 + 0) = const ((13 : ℤ) : ℚ)
      ∧ z.item 0 1 = some (const ((12 : ℤ) : ℚ)) ∧ z.item 1 0 = some (const ((21 : ℤ) : ℚ)) :=
  ⟨demoGrid2, demoGrid2_ok, rfl, rfl, fun _ _ _ _ _ _ => ⟨rfl, rfl, rfl⟩⟩

/-! ## Polynomials -/

/-- **C117** (`Zernike`).  A square array of coefficients without gaps, row by row, is evaluated as given: row `i` is the polynomial in
`y` that multiplies the power `i` of `x`. -/
theorem C117_polynomial (bits : ℤ → F) (junk : F) {c : View2 F} (h : SoundView2 c) (hf : c.floats = true) (h1 : c.stride1 = 1)
    (h0 : c.stride0 = c.cols) (hsq : c.rows = c.cols) (f : ℕ → ℕ → F) (hc : ∀ i < c.rows, ∀ j < c.cols, c.item i j = some (f i j)) (x y : F) :
    polynomialSag bits junk c x y = (List.range c.rows).foldr (fun i res => res * x + Surface.horner y (f i) c.cols) 0 := by
  have hp : ∀ i < c.rows, ∀ j < c.cols, (c.peek bits (i * c.rows + j)).getD junk = f i j := by
    intro i hi j hj
    obtain ⟨w, hw, hk⟩ := h i hi j hj
    have he : c.off + c.stride0 * (i : ℕ) + c.stride1 * (j : ℕ) = c.off + ((i * c.rows + j : ℕ) : ℤ) := by
      rw [h0, h1, hsq]; push_cast; ring
    rw [he] at hw
    have h2 := hc i hi j hj
    simp only [View2.item, hi, hj, and_self, if_true, he, hw, Option.map_some, Option.some.injEq] at h2
    simp only [View2.peek, hw, Option.map_some, Option.getD_some]
    cases w with
    | f64 v => exact h2
    | i64 k => simp [Word.isFloat, hf] at hk
  have hrow : ∀ i < c.rows, Surface.horner y (fun j => (c.peek bits (i * c.rows + j)).getD junk) c.rows = Surface.horner y (f i) c.cols := by
    intro i hi
    unfold Surface.horner
    rw [← hsq]
    refine List.foldr_ext _ _ _ fun j hj res => ?_
    have h2 := hp i hi j (by rw [← hsq]; exact List.mem_range.mp hj)
    exact congrArg (fun v => res * y + v) h2
  unfold polynomialSag Surface.horner2d
  rw [← hsq]
  refine List.foldr_ext _ _ _ fun i hi res => ?_
  rw [hrow i (List.mem_range.mp hi), hsq]

/-- The array of `x + 2 y`. -/
def demoSquare : View2 Dbl := ⟨[.f64 (.fin 0), .f64 (.fin 2), .f64 (.fin 1), .f64 (.fin 0)], 0, 2, 1, 2, 2, true⟩

example : SoundView2 demoSquare ∧ demoSquare.floats = true ∧ demoSquare.stride1 = 1 ∧ demoSquare.stride0 = demoSquare.cols
    ∧ demoSquare.rows = demoSquare.cols ∧ ∀ i < demoSquare.rows, ∀ j < demoSquare.cols,
      demoSquare.item i j = some (if i = 0 ∧ j = 1 then .fin 2 else if i = 1 ∧ j = 0 then .fin 1 else .fin 0) := by
  refine ⟨?_, rfl, rfl, rfl, rfl, ?_⟩ <;>
  · intro i hi j hj
    have h1 : i < 2 := hi
    have h2 : j < 2 := hj
    interval_cases i <;> interval_cases j <;> first | rfl | exact ⟨_, rfl, rfl⟩

/-- **C117 violated** by an array of coefficients that is not square: the array `[[0], [1]]` of the polynomial `x` gives the surface
`z = y`.  (galsim's arrays are square, so `Zernike` is not affected; `CPPPolynomialSurface` and `horner2d` are.) -/
theorem C117_polynomial_violated : ∃ c : View2 Dbl, SoundView2 c ∧ c.floats = true ∧ c.stride1 = 1 ∧ c.stride0 = c.cols
    ∧ c.item 0 0 = some (.fin 0) ∧ c.item 1 0 = some (.fin 1) ∧ c.rows = 2 ∧ c.cols = 1
    ∧ ∀ x y : ℝ, polynomialSag bitsDbl .nan c (.fin x) (.fin y) = .fin y := by
  refine ⟨⟨[.f64 (.fin 0), .f64 (.fin 1)], 0, 1, 1, 2, 1, true⟩, ?_, rfl, rfl, rfl, rfl, rfl, rfl, rfl, fun x y => ?_⟩
  · intro i hi j hj
    have h1 : i < 2 := hi
    have h2 : j < 1 := hj
    interval_cases i <;> interval_cases j <;> exact ⟨_, rfl, rfl⟩
  · have h0 : (View2.peek bitsDbl (⟨[.f64 (.fin 0), .f64 (.fin 1)], 0, 1, 1, 2, 1, true⟩ : View2 Dbl) 0) = some (.fin 0) := rfl
    have h1 : (View2.peek bitsDbl (⟨[.f64 (.fin 0), .f64 (.fin 1)], 0, 1, 1, 2, 1, true⟩ : View2 Dbl) 1) = some (.fin 1) := rfl
    simp [polynomialSag, Surface.horner2d, Surface.horner, List.range_succ, h0, h1]

/-! ## Normals -/

/-- **C117** (`Surface.normal`).  Coordinates of any element type and stride: the normals are those at the given points. -/
theorem C117_normal (bits : ℤ → F) (s : Surface F) {x y : View1 F} (hx : SoundView x) (hy : SoundView y) (hl : y.len = x.len) :
    normals bits s x y = some (List.zipWith s.normal x.toList y.toList) := by
  have h1 := floatContiguous_fetch bits hx
  have h2 := floatContiguous_fetch bits hy
  have h3 := (floatContiguous_spec hx).2.2.1
  unfold normals
  rw [h3, h1, ← hl, h2]
  rfl

example : SoundView demoStrided ∧ SoundView (View1.ofInts (F := Dbl) [1, 2, 3]) ∧ (View1.ofInts (F := Dbl) [1, 2, 3]).len = demoStrided.len :=
  ⟨demoStrided_ok, soundView_ofInts _, rfl⟩

/-! ## Rays -/

theorem soundView_broadcast {a : View1 F} (h : SoundView a) (h1 : a.len = 1) (n : ℕ) : SoundView (a.broadcast n) := by
  intro i hi
  obtain ⟨w, hw, hk⟩ := h 0 (by omega)
  refine ⟨w, ?_, hk⟩
  have : (a.broadcast n).off + (a.broadcast n).stride * (i : ℕ) = a.off + a.stride * ((0 : ℕ) : ℤ) := by simp [View1.broadcast]
  rw [this]
  exact hw

theorem broadcast_item (a : View1 F) (h1 : a.len = 1) {n i : ℕ} (hi : i < n) :
    (a.broadcast n).item i = a.item 0 := by
  have h2 : i < (a.broadcast n).len := hi
  simp [View1.item, hi, h1, View1.broadcast]

theorem rayArray_spec {n : ℕ} {a : View1 F} (h : SoundView a) (hl : a.len = n ∨ a.len = 1) :
    SoundView (rayArray n a) ∧ (rayArray n a).len = n ∧ (rayArray n a).floats = true ∧ (rayArray n a).dense = true
      ∧ ∀ i < n, (rayArray n a).item i = a.item (if a.len = n then i else 0) := by
  have hd : ∀ l : List F, (View1.ofFloats l).dense = true := fun l => by simp [View1.dense, View1.ofFloats]
  have hi : ∀ (l : List F) i, (View1.ofFloats l).item i = l[i]? := fun l i => by
    rw [← (toList_get (soundView_ofFloats l)).2, toList_ofFloats]
  unfold rayArray
  by_cases hn : a.len = n
  · rw [if_pos hn]
    refine ⟨soundView_ofFloats _, ?_, rfl, hd _, fun i _ => ?_⟩
    · exact (toList_get h).1.trans hn
    · rw [if_pos hn, View1.floatCopy, hi, (toList_get h).2]
  · rw [if_neg hn]
    have h1 : a.len = 1 := by rcases hl with h | h; · exact absurd h hn
                              · exact h
    have hb := soundView_broadcast h h1 n
    refine ⟨soundView_ofFloats _, ?_, rfl, hd _, fun i hi' => ?_⟩
    · exact (toList_get (soundView_copy hb)).1
    · rw [if_neg hn, View1.floatCopy, hi, (toList_get (soundView_copy hb)).2, copy_item hb, broadcast_item a h1 hi']

/-- A slice with `n` elements starting at `start` in steps of `step` inside of an array with `len` elements. -/
def SliceOf (len : ℕ) (s : ℤ × ℤ × ℕ) : Prop := ∀ i < s.2.2, 0 ≤ s.1 + s.2.1 * (i : ℕ) ∧ s.1 + s.2.1 * (i : ℕ) < len

theorem slice_word {a : View1 F} {start step : ℤ} {n : ℕ} {i : ℕ} (h : 0 ≤ start + step * (i : ℕ)) :
    (a.slice start step n).off + (a.slice start step n).stride * (i : ℕ) = a.off + a.stride * ((start + step * (i : ℕ)).toNat : ℕ) := by
  simp only [View1.slice, Int.toNat_of_nonneg h]
  ring

theorem rayItem_spec {a : View1 F} (h : SoundView a) (hf : a.floats = true) {start step : ℤ} {n : ℕ} (hs : SliceOf a.len (start, step, n)) :
    SoundView (rayItem a start step n) ∧ (rayItem a start step n).len = n ∧ (rayItem a start step n).floats = true
      ∧ (rayItem a start step n).dense = true
      ∧ ∀ i < n, (rayItem a start step n).item i = a.item (start + step * (i : ℕ)).toNat := by
  have hw : SoundView (a.slice start step n) := by
    intro i hi
    obtain ⟨h0, h1⟩ : 0 ≤ start + step * (i : ℕ) ∧ start + step * (i : ℕ) < a.len := hs i hi
    obtain ⟨w, hw, hk⟩ := h (start + step * (i : ℕ)).toNat (by omega)
    exact ⟨w, by rw [slice_word h0]; exact hw, hk⟩
  refine ⟨soundView_copy hw, rfl, hf, copy_dense _, fun i hi => ?_⟩
  obtain ⟨h0, h1⟩ : 0 ≤ start + step * (i : ℕ) ∧ start + step * (i : ℕ) < a.len := hs i hi
  rw [rayItem, copy_item hw]
  have hi' : i < (a.slice start step n).len := hi
  have h2 : (start + step * (i : ℕ)).toNat < a.len := by omega
  unfold View1.item
  rw [if_pos hi', if_pos h2, slice_word h0]
  rfl

/-- An array of a `RayVector` and of what indexing makes of it. -/
inductive RayHistory (F : Type) [Arith F] : View1 F → List F → Prop where
  | init {n : ℕ} {a : View1 F} (h : SoundView a) (hl : a.len = n) : RayHistory F (rayArray n a) a.toList
  | scalar {n : ℕ} {a : View1 F} {x : F} (h : SoundView a) (hl : a.toList = [x]) : RayHistory F (rayArray n a) (List.replicate n x)
  | copy {a : View1 F} {l : List F} (h : RayHistory F a l) : RayHistory F a.copy l
  | getitem {a : View1 F} {l : List F} (start step : ℤ) (n : ℕ) (h : RayHistory F a l) (hs : SliceOf l.length (start, step, n)) :
      RayHistory F (rayItem a start step n) ((List.range n).filterMap fun i : ℕ => l[(start + step * (i : ℕ)).toNat]?)

/-- **C117** (`RayVector`).  Arrays of any element type and stride, and numbers, reach the C++ kernels as given, also after any number
of copies and slices of the rays. -/
theorem C117_rays (bits : ℤ → F) {a : View1 F} {l : List F} (h : RayHistory F a l) : kernelSees bits a = some l ∧ a.toList = l := by
  have main : SoundView a ∧ a.floats = true ∧ a.dense = true ∧ a.toList = l := by
    induction h with
    | @init n a h hl =>
      obtain ⟨h1, h2, h3, h4, h5⟩ := rayArray_spec h (Or.inl hl)
      refine ⟨h1, h3, h4, ?_⟩
      apply List.ext_getElem?
      intro i
      rw [(toList_get h1).2, (toList_get h).2]
      by_cases hi : i < n
      · rw [h5 i hi, if_pos hl]
      · simp [View1.item, h2, hl, hi]
    | @scalar n a x h hl =>
      have hlen : a.len = 1 := by rw [← (toList_get h).1, hl]; rfl
      have hx : a.item 0 = some x := by rw [← (toList_get h).2, hl]; rfl
      obtain ⟨h1, h2, h3, h4, h5⟩ := rayArray_spec (n := n) h (Or.inr hlen)
      refine ⟨h1, h3, h4, ?_⟩
      apply List.ext_getElem?
      intro i
      rw [(toList_get h1).2]
      by_cases hi : i < n
      · rw [h5 i hi]
        have : (if a.len = n then i else 0) = 0 := by
          by_cases hn : a.len = n
          · rw [if_pos hn]; omega
          · rw [if_neg hn]
        rw [this, hx]
        simp [hi]
      · simp [View1.item, h2, hi]
    | copy _ ih => exact ⟨soundView_copy ih.1, ih.2.1, copy_dense _, (toList_copy ih.1).trans ih.2.2.2⟩
    | @getitem a l start step n _ hs ih =>
      obtain ⟨i1, i2, i3, i4⟩ := ih
      have hlen : l.length = a.len := by rw [← i4]; exact (toList_get i1).1
      rw [hlen] at hs
      obtain ⟨h1, h2, h3, h4, h5⟩ := rayItem_spec i1 i2 hs
      refine ⟨h1, h3, h4, ?_⟩
      unfold View1.toList
      rw [h2]
      refine List.filterMap_congr fun i hi => ?_
      rw [h5 i (List.mem_range.mp hi), ← i4, (toList_get i1).2]
  obtain ⟨h1, h2, h3, h4⟩ := main
  exact ⟨by rw [kernelSees, dense_fetch bits h1 h2 h3, h4], h4⟩

example : RayHistory Dbl (rayItem (rayArray 3 demoStrided) 2 (-1) 2) [.fin 1, .fin 3] :=
  RayHistory.getitem 2 (-1) 2 (RayHistory.init demoStrided_ok rfl) (by
    intro i hi
    have : i < 2 := hi
    interval_cases i <;> exact ⟨by decide, by decide⟩)

/-- The kernels work on as many rays as the arrays have rows. -/
theorem C117_rays_rows (bits : ℤ → F) {a : View2 F} (h : SoundView2 a) (hc : 1 ≤ a.cols) :
    kernelSees2 bits (rayArray2 a) = some (a.toList.take a.rows) := by
  have hlen : a.rows ≤ a.toList.length := by
    by_contra hc'
    have hr : 0 < a.rows := by omega
    obtain ⟨x, hx⟩ := item2_some h (i := a.rows - 1) (j := 0) (by omega) (by omega)
    rw [← toList2_get h (by omega) (by omega)] at hx
    have h1 := (List.getElem?_eq_some_iff.mp hx).1
    have h2 : a.rows - 1 ≤ a.cols * (a.rows - 1) := Nat.le_mul_of_pos_left _ hc
    omega
  have h1 := fetch_ofFloats bits a.toList hlen
  rw [← h1]
  refine congrArg (fun g => (List.range a.rows).mapM g) (funext fun k => ?_)
  rw [peek_ofFloats]
  exact peek2_floatCopy bits a k

/-- **C117 violated** by rays in an array with two axes: `len(rv)` is 6, but the kernels trace 2 rays only. -/
theorem C117_rays_violated : ∃ a : View2 Dbl, SoundView2 a ∧ a.toList.length = 6
    ∧ ∃ l, kernelSees2 bitsDbl (rayArray2 a) = some l ∧ l.length = 2 ∧ l = a.toList.take 2 :=
  ⟨demoGrid2, demoGrid2_ok, rfl, _, rfl, rfl, rfl⟩

/-! ## Points on the stop -/

theorem astype_spec {a : View1 F} (h : SoundView a) :
    SoundView a.astypeNoCopy ∧ a.astypeNoCopy.toList = a.toList ∧ a.astypeNoCopy.len = a.len ∧ a.astypeNoCopy.floats = true
      ∧ ((a.dense = true ∨ a.floats = false) → a.astypeNoCopy.dense = true) := by
  unfold View1.astypeNoCopy
  by_cases hf : a.floats = true
  · rw [if_pos hf]
    exact ⟨h, rfl, rfl, hf, fun hd => by rcases hd with hd | hd; · exact hd
                                         · rw [hf] at hd; simp at hd⟩
  · rw [if_neg hf]
    exact ⟨soundView_ofFloats _, toList_ofFloats _, (toList_get h).1, rfl, fun _ => by simp [View1.dense, View1.floatCopy, View1.ofFloats]⟩

/-- **C117** (`fromStop`).  The rays start from the given points of the stop if the coordinates have no gaps, or are not doubles. -/
theorem C117_stop (bits : ℤ → F) (stop : Surface F) {x y : View1 F} (hx : SoundView x) (hy : SoundView y) (hl : y.len = x.len)
    (dx : x.dense = true ∨ x.floats = false) (dy : y.dense = true ∨ y.floats = false) :
    stopPoints bits stop x y = some ((x.toList.zip y.toList).map fun p => ⟨p.1, p.2, stop.sag p.1 p.2⟩) := by
  obtain ⟨x1, x2, x3, x4, x5⟩ := astype_spec hx
  obtain ⟨y1, y2, y3, y4, y5⟩ := astype_spec hy
  have e1 := dense_fetch bits x1 x4 (x5 dx)
  have e2 := dense_fetch bits y1 y4 (y5 dy)
  have e3 : y.astypeNoCopy.len = x.astypeNoCopy.len := by rw [y3, x3, hl]
  simp only [stopPoints]
  rw [e1, ← e3, e2, x2, y2]
  simp only [Option.bind_eq_bind, Option.bind_some, Option.some.injEq]
  generalize x.toList = l
  generalize y.toList = m
  induction l generalizing m with
  | nil => simp
  | cons a l ih =>
    cases m with
    | nil => simp
    | cons b m => simp [ih m]

example : SoundView (View1.ofFloats (F := Dbl) [.fin 1, .fin 2]) ∧ SoundView (View1.ofInts (F := Dbl) [1, 2])
    ∧ ((View1.ofFloats (F := Dbl) [.fin 1, .fin 2]).dense = true ∨ (View1.ofFloats (F := Dbl) [.fin 1, .fin 2]).floats = false)
    ∧ ((View1.ofInts (F := Dbl) [1, 2]).dense = true ∨ (View1.ofInts (F := Dbl) [1, 2]).floats = false) :=
  ⟨soundView_ofFloats _, soundView_ofInts _, Or.inl (by simp [View1.dense, View1.ofFloats]), Or.inr rfl⟩

/-- **C117 violated** by `fromStop(pts[:, 0], pts[:, 1], ...)`: the rays start from other points, which mix coordinates, with the
height of the surface at the given points. -/
theorem C117_stop_violated : ∃ x y : View1 Dbl, SoundView x ∧ SoundView y ∧ y.len = x.len
    ∧ x.toList = [.fin 1, .fin 3] ∧ y.toList = [.fin 2, .fin 4]
    ∧ ∀ stop : Surface Dbl, ∃ z1 z2, stopPoints bitsDbl stop x y = some [⟨.fin 1, .fin 2, z1⟩, ⟨.fin 2, .fin 3, z2⟩]
      ∧ z2 = stop.sag (.fin 3) (.fin 4) := by
  have hw : ∀ o : ℤ, o = 0 ∨ o = 1 →
      SoundView (⟨[.f64 (.fin 1), .f64 (.fin 2), .f64 (.fin 3), .f64 (.fin 4)], o, 2, 2, true⟩ : View1 Dbl) := by
    intro o ho i hi
    have : i < 2 := hi
    rcases ho with rfl | rfl <;> interval_cases i <;> exact ⟨_, rfl, rfl⟩
  exact ⟨⟨[.f64 (.fin 1), .f64 (.fin 2), .f64 (.fin 3), .f64 (.fin 4)], 0, 2, 2, true⟩,
    ⟨[.f64 (.fin 1), .f64 (.fin 2), .f64 (.fin 3), .f64 (.fin 4)], 1, 2, 2, true⟩, hw 0 (Or.inl rfl), hw 1 (Or.inr rfl), rfl, rfl, rfl,
    fun stop => ⟨_, _, rfl, rfl⟩⟩

end Batoid.Props
