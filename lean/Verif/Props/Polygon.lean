import Verif.Obscuration
import Mathlib.Data.List.Rotate
import Mathlib.Data.List.Perm.Basic
import Mathlib.Data.Finset.Card
import Mathlib.Algebra.Group.Nat.Even
import Mathlib.Tactic.LinearCombination
import Mathlib.Tactic.FieldSimp
import Mathlib.Tactic.Positivity

/-!
# Polygons (C35, C36)

Specification: a polygon is a list of real points; its edges join consecutive points and the last with the first.
-/

namespace Batoid.Props
open Batoid Batoid.Obsc

abbrev Pt := ℝ × ℝ

/-- Edges of a polygon. -/
def edges (pts : List Pt) : List (Pt × Pt) := pts.zip (pts.rotate 1)

/-- The height `y` lies above the lower end of the edge and not above the upper end. -/
def Spans (y : ℝ) (e : Pt × Pt) : Prop := min e.1.2 e.2.2 < y ∧ y ≤ max e.1.2 e.2.2

/-- Where the line through an edge meets the height `y`. -/
noncomputable def abscissa (y : ℝ) (e : Pt × Pt) : ℝ := e.1.1 + (y - e.1.2) * (e.2.1 - e.1.1) / (e.2.2 - e.1.2)

/-- The half line from `(x, y)` in the direction of `+x` meets the edge. -/
def Hits (x y : ℝ) (e : Pt × Pt) : Prop := Spans y e ∧ x ≤ abscissa y e

/-- The vertex list as the C++ object holds it. -/
def dbl (pts : List Pt) : List (Dbl × Dbl) := pts.map fun p => (Dbl.fin p.1, Dbl.fin p.2)

open Classical in
/-- Crossing number of a point. -/
noncomputable def crossings (x y : ℝ) (es : List (Pt × Pt)) : ℕ := es.countP (fun e => decide (Hits x y e))

theorem abscissa_between {y : ℝ} {e : Pt × Pt} (h : Spans y e) :
    e.1.2 ≠ e.2.2 ∧ min e.1.1 e.2.1 ≤ abscissa y e ∧ abscissa y e ≤ max e.1.1 e.2.1 := by
  obtain ⟨⟨x1, y1⟩, x2, y2⟩ := e
  simp only [Spans] at h
  have hne : y1 ≠ y2 := by
    rintro rfl; simp at h; linarith
  refine ⟨hne, ?_⟩
  simp only [abscissa]
  have hd : y2 - y1 ≠ 0 := sub_ne_zero.mpr (Ne.symm hne)
  have e : x1 + (y - y1) * (x2 - x1) / (y2 - y1) = x1 + (y - y1) / (y2 - y1) * (x2 - x1) := by field_simp
  rw [e]
  have ht : 0 ≤ (y - y1) / (y2 - y1) ∧ (y - y1) / (y2 - y1) ≤ 1 := by
    rcases lt_or_gt_of_ne hne with hl | hl
    · rw [min_eq_left hl.le, max_eq_right hl.le] at h
      exact ⟨div_nonneg (by linarith) (by linarith), (div_le_one (by linarith)).mpr (by linarith)⟩
    · rw [min_eq_right hl.le, max_eq_left hl.le] at h
      refine ⟨div_nonneg_of_nonpos (by linarith) (by linarith), (div_le_one_of_neg (by linarith)).mpr (by linarith)⟩
  generalize (y - y1) / (y2 - y1) = t at ht
  obtain ⟨h0, h1⟩ := ht
  rcases le_total x1 x2 with hx | hx
  · rw [min_eq_left hx, max_eq_right hx]; constructor <;> nlinarith
  · rw [min_eq_right hx, max_eq_left hx]; constructor <;> nlinarith

open Classical in
theorem polyEdge_snd (x y : ℝ) (p1 p2 : Pt) (st : Dbl × Bool) :
    (polyEdge (Dbl.fin x) (.fin y) (.fin p1.1, .fin p1.2) (.fin p2.1, .fin p2.2) st).2 = Bool.xor st.2 (decide (Hits x y (p1, p2))) := by
  unfold polyEdge
  simp only [Dbl.gt_fin, Dbl.min_fin, Dbl.max_fin, Dbl.le_fin, Dbl.eq_fin, Dbl.sub_fin, Dbl.mul_fin, decide_eq_true_eq]
  by_cases hs : Spans y (p1, p2)
  · obtain ⟨hne, h1, h2⟩ := abscissa_between hs
    simp only at hne h1 h2
    rw [if_pos hs.1, if_pos hs.2]
    have hd : p2.2 - p1.2 ≠ 0 := sub_ne_zero.mpr (Ne.symm hne)
    simp only [if_neg hne, Dbl.div_fin hd, Dbl.add_fin, Dbl.le_fin]
    have e : (y - p1.2) * (p2.1 - p1.1) / (p2.2 - p1.2) + p1.1 = abscissa y (p1, p2) := by
      simp only [abscissa]; ring
    rw [e]
    by_cases hx : x ≤ max p1.1 p2.1
    · rw [if_pos hx]
      by_cases hh : x ≤ abscissa y (p1, p2)
      · have hH : Hits x y (p1, p2) := ⟨hs, hh⟩
        simp [hh, hH]
      · have hH : ¬ Hits x y (p1, p2) := fun h => hh h.2
        have hxe : p1.1 ≠ p2.1 := by
          intro he
          rw [he] at h1 h2 hx
          simp only [min_self, max_self] at h1 h2 hx
          linarith
        simp [hh, hH, hxe]
    · rw [if_neg hx]
      have hH : ¬ Hits x y (p1, p2) := fun h => hx (le_trans h.2 h2)
      simp [hH]
  · have hH : ¬ Hits x y (p1, p2) := fun h => hs h.1
    have : (if min p1.2 p2.2 < y then
        if y ≤ max p1.2 p2.2 then
          if x ≤ max p1.1 p2.1 then
            (if p1.2 = p2.2 then st.1 else Dbl.fin ((y - p1.2) * (p2.1 - p1.1)) / Dbl.fin (p2.2 - p1.2) + Dbl.fin p1.1,
              if (decide (p1.1 = p2.1) || Arith.le (Dbl.fin x)
                (if p1.2 = p2.2 then st.1 else Dbl.fin ((y - p1.2) * (p2.1 - p1.1)) / Dbl.fin (p2.2 - p1.2) + Dbl.fin p1.1)) = true
              then !st.2 else st.2)
          else st
        else st
      else st) = st := by
      by_cases ha : min p1.2 p2.2 < y
      · rw [if_pos ha, if_neg (fun hb => hs ⟨ha, hb⟩)]
      · rw [if_neg ha]
    rw [this]
    simp [hH]

open Classical in
theorem polyLoop_snd (x y : ℝ) : ∀ (ps : List Pt) (p : Pt) (st : Dbl × Bool),
    (polyLoop (Dbl.fin x) (.fin y) (.fin p.1, .fin p.2) (dbl ps) st).2 =
      Bool.xor st.2 (decide (Odd (crossings x y ((p :: ps).zip ps))))
  | [], p, st => by simp [polyLoop, dbl, crossings]
  | q :: ps, p, st => by
    have ih := polyLoop_snd x y ps q (polyEdge (Dbl.fin x) (.fin y) (.fin p.1, .fin p.2) (.fin q.1, .fin q.2) st)
    simp only [dbl, List.map_cons, polyLoop] at ih ⊢
    rw [ih, polyEdge_snd]
    simp only [crossings, List.zip_cons_cons, List.countP_cons]
    by_cases h : Hits x y (p, q)
    · simp only [h, decide_true, if_true, Nat.odd_add_one, Bool.xor_assoc]
      congr 1
      by_cases ho : Odd (List.countP (fun e => decide (Hits x y e)) ((q :: ps).zip ps)) <;> simp [ho]
    · simp only [h, decide_false, Bool.false_eq_true, if_false, Nat.add_zero, Bool.xor_false]
      congr 1

/-- `contains` decides whether the crossing number is odd. -/
theorem C35_crossing_number (pts : List Pt) (x y : ℝ) :
    contains (polygon (dbl pts)) (Dbl.fin x) (.fin y) = true ↔ Odd (crossings x y (edges pts)) := by
  simp only [contains]
  cases pts with
  | nil => simp [polygonContains, dbl, edges, crossings]
  | cons p ps =>
    have hl : dbl (p :: ps) = (Dbl.fin p.1, Dbl.fin p.2) :: dbl ps := rfl
    have hr : dbl ps ++ [(Dbl.fin p.1, Dbl.fin p.2)] = dbl (ps ++ [p]) := by simp [dbl]
    have hz : ((p :: (ps ++ [p])).zip (ps ++ [p])) = edges (p :: ps) := by
      have : (p :: ps).rotate 1 = ps ++ [p] := by simp [List.rotate_cons_succ]
      rw [edges, this]
      have e : p :: (ps ++ [p]) = (p :: ps) ++ [p] := rfl
      rw [e]
      have := List.zip_append (l₁ := p :: ps) (l₂ := ps ++ [p]) (r₁ := [p]) (r₂ := ([] : List Pt)) (by simp)
      simpa using this
    rw [hl, polygonContains, hr, polyLoop_snd, hz]
    simp

/-! ## Invariances -/

theorem crossings_perm {es es' : List (Pt × Pt)} (h : es.Perm es') (x y : ℝ) : crossings x y es = crossings x y es' :=
  h.countP_eq _

theorem edges_rotate (pts : List Pt) (k : ℕ) : edges (pts.rotate k) = (edges pts).rotate k := by
  unfold edges
  have h : (pts.rotate k).rotate 1 = (pts.rotate 1).rotate k := by rw [List.rotate_rotate, List.rotate_rotate, Nat.add_comm]
  rw [h]
  exact (List.zipWith_rotate_distrib Prod.mk pts (pts.rotate 1) k (by simp)).symm

/-- The starting vertex does not matter. -/
theorem C35_start_vertex (pts : List Pt) (k : ℕ) (x y : ℝ) :
    contains (polygon (dbl (pts.rotate k))) (Dbl.fin x) (.fin y) = contains (polygon (dbl pts)) (Dbl.fin x) (.fin y) := by
  rw [Bool.eq_iff_iff, C35_crossing_number, C35_crossing_number, edges_rotate,
    crossings_perm (List.rotate_perm (edges pts) k)]

theorem spans_swap (y : ℝ) (e : Pt × Pt) : Spans y e.swap ↔ Spans y e := by
  simp [Spans, min_comm, max_comm]

theorem hits_swap (x y : ℝ) (e : Pt × Pt) : Hits x y e.swap ↔ Hits x y e := by
  unfold Hits
  rw [spans_swap]
  refine and_congr_right fun hs => ?_
  have hne := (abscissa_between hs).1
  have : abscissa y e.swap = abscissa y e := by
    obtain ⟨⟨x1, y1⟩, x2, y2⟩ := e
    simp only [abscissa, Prod.swap] at hne ⊢
    have h1 : y1 - y2 ≠ 0 := sub_ne_zero.mpr hne
    have h2 : y2 - y1 ≠ 0 := sub_ne_zero.mpr (Ne.symm hne)
    field_simp
    ring
  rw [this]

theorem crossings_swap (x y : ℝ) (es : List (Pt × Pt)) : crossings x y (es.map Prod.swap) = crossings x y es := by
  unfold crossings
  rw [List.countP_map]
  congr 1
  funext e
  simp only [Function.comp]
  exact decide_eq_decide.mpr (hits_swap x y e)

theorem edges_reverse (pts : List Pt) : (edges pts.reverse).Perm ((edges pts).map Prod.swap) := by
  have h1 : pts.reverse.rotate 1 = (pts.rotate (pts.length - 1 % pts.length)).reverse := by
    rw [List.rotate_reverse]
  unfold edges
  rcases Nat.eq_zero_or_pos pts.length with h0 | h0
  · rw [List.length_eq_zero_iff] at h0; subst h0; simp
  · rw [h1]
    have e1 : pts.reverse.zip (pts.rotate (pts.length - 1 % pts.length)).reverse =
        (pts.zip (pts.rotate (pts.length - 1 % pts.length))).reverse := by
      simp only [List.zip]
      rw [List.reverse_zipWith (by simp)]
    rw [e1]
    refine (List.reverse_perm _).trans ?_
    have e2 : (pts.zip (pts.rotate 1)).map Prod.swap = (pts.rotate 1).zip pts := by
      rw [List.zip_swap]
    rw [e2]
    have e3 : (pts.zip (pts.rotate (pts.length - 1 % pts.length))).rotate 1 = (pts.rotate 1).zip pts := by
      rw [List.zip, List.zipWith_rotate_distrib _ _ _ _ (by simp), List.rotate_rotate]
      rcases Nat.lt_or_ge 1 pts.length with h | h
      · rw [Nat.mod_eq_of_lt h, Nat.sub_add_cancel h0, List.rotate_length]
      · have : pts.length = 1 := by omega
        rw [this]
        obtain ⟨a, rfl⟩ := List.length_eq_one_iff.mp this
        simp
    rw [← e3]
    exact (List.rotate_perm _ 1).symm

/-- The orientation does not matter. -/
theorem C35_orientation (pts : List Pt) (x y : ℝ) :
    contains (polygon (dbl pts.reverse)) (Dbl.fin x) (.fin y) = contains (polygon (dbl pts)) (Dbl.fin x) (.fin y) := by
  rw [Bool.eq_iff_iff, C35_crossing_number, C35_crossing_number, crossings_perm (edges_reverse pts), crossings_swap]

/-- Moving polygon and point together changes nothing. -/
theorem C35_translation (pts : List Pt) (u w x y : ℝ) :
    contains (polygon (dbl (pts.map fun p => (p.1 + u, p.2 + w)))) (Dbl.fin (x + u)) (.fin (y + w)) =
      contains (polygon (dbl pts)) (Dbl.fin x) (.fin y) := by
  rw [Bool.eq_iff_iff, C35_crossing_number, C35_crossing_number]
  have he : edges (pts.map fun p => (p.1 + u, p.2 + w)) = (edges pts).map (Prod.map (fun p => (p.1 + u, p.2 + w)) (fun p => (p.1 + u, p.2 + w))) := by
    unfold edges
    rw [← List.map_rotate, List.zip_map]
  rw [he]
  have : crossings (x + u) (y + w) ((edges pts).map (Prod.map (fun p => (p.1 + u, p.2 + w)) (fun p => (p.1 + u, p.2 + w)))) =
      crossings x y (edges pts) := by
    unfold crossings
    rw [List.countP_map]
    congr 1
    funext e
    simp only [Function.comp]
    congr 1
    simp only [Hits, Spans, abscissa, Prod.map, min_add_add_right, max_add_add_right, add_lt_add_iff_right, add_le_add_iff_right,
      add_sub_add_right_eq_sub, eq_iff_iff]
    refine and_congr_right fun _ => ?_
    constructor <;> intro h <;> linarith
  rw [this]

/-! ## Convex polygons -/

/-- Twice the signed area of `a b c`: positive iff `c` is to the left of the directed line `a b`. -/
def side (a b c : Pt) : ℝ := (b.1 - a.1) * (c.2 - a.2) - (b.2 - a.2) * (c.1 - a.1)

/-- Counterclockwise, strictly convex: every other vertex is strictly to the left of every edge. -/
structure StrictlyConvex (pts : List Pt) : Prop where
  three : 3 ≤ pts.length
  left : ∀ i k (hi : i < pts.length) (hk : k < pts.length), k ≠ i → k ≠ (i + 1) % pts.length →
    0 < side pts[i] (pts[(i + 1) % pts.length]'(Nat.mod_lt _ (by omega))) pts[k]

/-- Vertex number `i`, counted cyclically. -/
def vert (pts : List Pt) (i : ℕ) : Pt := pts.getD (i % pts.length) (0, 0)

theorem edges_eq_range (pts : List Pt) : edges pts = (List.range pts.length).map fun i => (vert pts i, vert pts (i + 1)) := by
  unfold edges
  apply List.ext_getElem
  · simp
  · intro i h1 h2
    have hi : i < pts.length := by simpa using h2
    have hp : 0 < pts.length := by omega
    simp only [List.getElem_zip, List.getElem_map, List.getElem_range, vert, Nat.mod_eq_of_lt hi]
    rw [List.getElem_rotate]
    simp [List.getD, hi, List.getElem?_eq_getElem (Nat.mod_lt (i + 1) hp)]

theorem vert_mem {pts : List Pt} (h : 0 < pts.length) (i : ℕ) : vert pts i ∈ pts := by
  have := Nat.mod_lt i h
  simp only [vert, List.getD, List.getElem?_eq_getElem this, Option.getD_some]
  exact List.getElem_mem _

open Classical in
theorem crossings_eq_card (pts : List Pt) (x y : ℝ) :
    crossings x y (edges pts) = ((Finset.range pts.length).filter fun i => Hits x y (vert pts i, vert pts (i + 1))).card := by
  rw [edges_eq_range, crossings, List.countP_map, List.countP_eq_length_filter]
  rfl

namespace StrictlyConvex
variable {pts : List Pt} (h : StrictlyConvex pts)
include h

theorem pos : 0 < pts.length := by have := h.three; omega

theorem left' {i k : ℕ} (hi : i < pts.length) (hk : k < pts.length) (h1 : k ≠ i) (h2 : k ≠ (i + 1) % pts.length) :
    0 < side (vert pts i) (vert pts (i + 1)) (vert pts k) := by
  have := h.left i k hi hk h1 h2
  have hm := Nat.mod_lt (i + 1) h.pos
  simpa [vert, Nat.mod_eq_of_lt hi, Nat.mod_eq_of_lt hk, List.getD, hi, hk, List.getElem?_eq_getElem hm] using this

theorem vert_mod (i : ℕ) : vert pts (i % pts.length) = vert pts i := by simp [vert]

theorem left_nonneg {i : ℕ} (hi : i < pts.length) (k : ℕ) : 0 ≤ side (vert pts i) (vert pts (i + 1)) (vert pts k) := by
  rw [← h.vert_mod k]
  by_cases h1 : k % pts.length = i
  · rw [h1]; simp [side]
  · by_cases h2 : k % pts.length = (i + 1) % pts.length
    · rw [h2, h.vert_mod]; unfold side; linarith [mul_comm ((vert pts (i + 1)).1 - (vert pts i).1) ((vert pts (i + 1)).2 - (vert pts i).2)]
    · exact (h.left' hi (Nat.mod_lt _ h.pos) h1 h2).le

end StrictlyConvex

/-- The edge climbs through the height `y` (descends, for `Down`). -/
def Up (y : ℝ) (e : Pt × Pt) : Prop := e.1.2 < y ∧ y ≤ e.2.2
def Down (y : ℝ) (e : Pt × Pt) : Prop := e.2.2 < y ∧ y ≤ e.1.2

theorem spans_iff (y : ℝ) (e : Pt × Pt) : Spans y e ↔ Up y e ∨ Down y e := by
  unfold Spans Up Down
  rw [min_lt_iff, le_max_iff]
  constructor
  · rintro ⟨h1 | h1, h2 | h2⟩
    · linarith
    · exact Or.inl ⟨h1, h2⟩
    · exact Or.inr ⟨h1, h2⟩
    · linarith
  · rintro (h | h)
    · exact ⟨Or.inl h.1, Or.inr h.2⟩
    · exact ⟨Or.inr h.1, Or.inl h.2⟩

/-- On a climbing edge, being left of the intercept is being on the left side. -/
theorem up_hit {x y : ℝ} {e : Pt × Pt} (h : Up y e) : x ≤ abscissa y e ↔ 0 ≤ side e.1 e.2 (x, y) := by
  have hd : 0 < e.2.2 - e.1.2 := by have := h.1; have := h.2; linarith
  unfold abscissa side
  rw [← sub_le_iff_le_add', le_div_iff₀ hd]
  constructor <;> intro h <;> linarith

theorem down_hit {x y : ℝ} {e : Pt × Pt} (h : Down y e) : x ≤ abscissa y e ↔ side e.1 e.2 (x, y) ≤ 0 := by
  have hd : 0 < e.1.2 - e.2.2 := by have := h.1; have := h.2; linarith
  have e1 : abscissa y e = e.1.1 + (e.1.2 - y) * (e.2.1 - e.1.1) / (e.1.2 - e.2.2) := by
    unfold abscissa
    have h1 : e.2.2 - e.1.2 ≠ 0 := by linarith
    have h2 : e.1.2 - e.2.2 ≠ 0 := by linarith
    field_simp; ring
  rw [e1]
  unfold side
  rw [← sub_le_iff_le_add', le_div_iff₀ hd]
  constructor <;> intro h <;> linarith

theorem side_abscissa {y : ℝ} {e : Pt × Pt} (h : e.1.2 ≠ e.2.2) : side e.1 e.2 (abscissa y e, y) = 0 := by
  unfold side abscissa
  have : e.2.2 - e.1.2 ≠ 0 := sub_ne_zero.mpr (Ne.symm h)
  field_simp; ring

/-- The point of an edge at height `y` is a convex combination of its ends. -/
theorem abscissa_combination {y : ℝ} {e : Pt × Pt} (h : e.1.2 ≠ e.2.2) (a b : Pt) :
    side a b (abscissa y e, y) = (1 - (y - e.1.2) / (e.2.2 - e.1.2)) * side a b e.1 + (y - e.1.2) / (e.2.2 - e.1.2) * side a b e.2 := by
  unfold side abscissa
  have : e.2.2 - e.1.2 ≠ 0 := sub_ne_zero.mpr (Ne.symm h)
  field_simp; ring

theorem spans_weight {y : ℝ} {e : Pt × Pt} (h : Spans y e) :
    0 ≤ (y - e.1.2) / (e.2.2 - e.1.2) ∧ (y - e.1.2) / (e.2.2 - e.1.2) ≤ 1 := by
  rcases (spans_iff y e).mp h with h | h
  · have h1 := h.1; have h2 := h.2
    exact ⟨div_nonneg (by linarith) (by linarith), (div_le_one (by linarith)).mpr (by linarith)⟩
  · have h1 := h.1; have h2 := h.2
    exact ⟨div_nonneg_of_nonpos (by linarith) (by linarith), (div_le_one_of_neg (by linarith)).mpr (by linarith)⟩

namespace StrictlyConvex
variable {pts : List Pt} (h : StrictlyConvex pts)
include h

/-- Points of spanning edges are in the closed polygon. -/
theorem abscissa_inside {y : ℝ} {i k : ℕ} (hi : i < pts.length) (hs : Spans y (vert pts k, vert pts (k + 1))) :
    0 ≤ side (vert pts i) (vert pts (i + 1)) (abscissa y (vert pts k, vert pts (k + 1)), y) := by
  rw [abscissa_combination (abscissa_between hs).1]
  obtain ⟨w0, w1⟩ := spans_weight hs
  have h1 := h.left_nonneg hi k
  have h2 := h.left_nonneg hi (k + 1)
  exact add_nonneg (mul_nonneg (by linarith) h1) (mul_nonneg w0 h2)

theorem succ_ne {i k : ℕ} (hi : i < pts.length) (hk : k < pts.length) (h1 : (i + 1) % pts.length = k)
    (h2 : (k + 1) % pts.length = i) : False := by
  have h3 := h.three
  have e1 : (i + 1) % pts.length = if i + 1 = pts.length then 0 else i + 1 := by
    split_ifs with hh
    · rw [hh, Nat.mod_self]
    · exact Nat.mod_eq_of_lt (by omega)
  have e2 : (k + 1) % pts.length = if k + 1 = pts.length then 0 else k + 1 := by
    split_ifs with hh
    · rw [hh, Nat.mod_self]
    · exact Nat.mod_eq_of_lt (by omega)
  rw [e1] at h1; rw [e2] at h2
  split_ifs at h1 h2 <;> omega

/-- Two climbing edges at the same height coincide. -/
theorem up_unique {y : ℝ} {i k : ℕ} (hi : i < pts.length) (hk : k < pts.length)
    (ui : Up y (vert pts i, vert pts (i + 1))) (uk : Up y (vert pts k, vert pts (k + 1))) : i = k := by
  have si := (spans_iff _ _).mpr (Or.inl ui)
  have sk := (spans_iff _ _).mpr (Or.inl uk)
  -- the intercepts coincide
  have h1 := (up_hit (x := abscissa y (vert pts k, vert pts (k + 1))) ui).mpr (h.abscissa_inside hi sk)
  have h2 := (up_hit (x := abscissa y (vert pts i, vert pts (i + 1))) uk).mpr (h.abscissa_inside hk si)
  have heq := le_antisymm h1 h2
  -- so the upper end of each lies on the line of the other
  have key : ∀ {i k : ℕ}, i < pts.length → k < pts.length → Up y (vert pts i, vert pts (i + 1)) → Up y (vert pts k, vert pts (k + 1)) →
      abscissa y (vert pts k, vert pts (k + 1)) = abscissa y (vert pts i, vert pts (i + 1)) → i ≠ k → (k + 1) % pts.length = i := by
    intro i k hi hk ui uk heq hne
    have si := (spans_iff _ _).mpr (Or.inl ui)
    have sk := (spans_iff _ _).mpr (Or.inl uk)
    have hz := abscissa_combination (y := y) (abscissa_between sk).1 (vert pts i) (vert pts (i + 1))
    have h0 : side (vert pts i) (vert pts (i + 1)) (abscissa y (vert pts k, vert pts (k + 1)), y) = 0 := by
      rw [heq]; exact side_abscissa (e := (vert pts i, vert pts (i + 1))) (abscissa_between si).1
    rw [h0] at hz
    have wpos : 0 < (y - (vert pts k).2) / ((vert pts (k + 1)).2 - (vert pts k).2) := by
      have := uk.1; have := uk.2; simp only at *
      exact div_pos (by linarith) (by linarith)
    obtain ⟨_, w1⟩ := spans_weight sk
    simp only at hz w1
    have p1 := h.left_nonneg hi k
    have p2 := h.left_nonneg hi (k + 1)
    have hprod : 0 ≤ (1 - (y - (vert pts k).2) / ((vert pts (k + 1)).2 - (vert pts k).2)) * side (vert pts i) (vert pts (i + 1)) (vert pts k) :=
      mul_nonneg (by linarith) p1
    have hzero : side (vert pts i) (vert pts (i + 1)) (vert pts (k + 1)) = 0 := by
      by_contra hc
      have : 0 < side (vert pts i) (vert pts (i + 1)) (vert pts (k + 1)) := lt_of_le_of_ne p2 (Ne.symm hc)
      have := mul_pos wpos this
      linarith
    by_contra hcon
    have hlt := Nat.mod_lt (k + 1) h.pos
    by_cases hsucc : (k + 1) % pts.length = (i + 1) % pts.length
    · -- equal successors force equal indices
      apply hne
      have e1 : (i + 1) % pts.length = if i + 1 = pts.length then 0 else i + 1 := by
        split_ifs with hh
        · rw [hh, Nat.mod_self]
        · exact Nat.mod_eq_of_lt (by omega)
      have e2 : (k + 1) % pts.length = if k + 1 = pts.length then 0 else k + 1 := by
        split_ifs with hh
        · rw [hh, Nat.mod_self]
        · exact Nat.mod_eq_of_lt (by omega)
      rw [e1, e2] at hsucc
      split_ifs at hsucc <;> omega
    · have := h.left' hi hlt hcon hsucc
      rw [h.vert_mod] at this
      linarith
  by_contra hne
  exact h.succ_ne hk hi (key hi hk ui uk heq hne) (key hk hi uk ui heq.symm (Ne.symm hne))

/-- Two descending edges at the same height coincide. -/
theorem down_unique {y : ℝ} {i k : ℕ} (hi : i < pts.length) (hk : k < pts.length)
    (di : Down y (vert pts i, vert pts (i + 1))) (dk : Down y (vert pts k, vert pts (k + 1))) : i = k := by
  have si := (spans_iff _ _).mpr (Or.inr di)
  have sk := (spans_iff _ _).mpr (Or.inr dk)
  have le_of : ∀ {i k : ℕ}, i < pts.length → Down y (vert pts i, vert pts (i + 1)) → Down y (vert pts k, vert pts (k + 1)) →
      abscissa y (vert pts i, vert pts (i + 1)) ≤ abscissa y (vert pts k, vert pts (k + 1)) := by
    intro i k hi di dk
    have sk := (spans_iff _ _).mpr (Or.inr dk)
    have h1 := h.abscissa_inside hi sk
    by_contra hc
    push Not at hc
    have h2 := (down_hit (x := abscissa y (vert pts k, vert pts (k + 1))) di).mp hc.le
    have h3 : side (vert pts i) (vert pts (i + 1)) (abscissa y (vert pts k, vert pts (k + 1)), y) = 0 := le_antisymm h2 h1
    have h4 := side_abscissa (y := y) (e := (vert pts i, vert pts (i + 1))) (abscissa_between ((spans_iff _ _).mpr (Or.inr di))).1
    have d1 := di.1; have d2 := di.2
    simp only [side] at h3 h4 d1 d2
    nlinarith
  have heq := le_antisymm (le_of hi di dk) (le_of hk dk di)
  have key : ∀ {i k : ℕ}, i < pts.length → k < pts.length → Down y (vert pts i, vert pts (i + 1)) → Down y (vert pts k, vert pts (k + 1)) →
      abscissa y (vert pts k, vert pts (k + 1)) = abscissa y (vert pts i, vert pts (i + 1)) → i ≠ k → k = (i + 1) % pts.length := by
    intro i k hi hk di dk heq hne
    have si := (spans_iff _ _).mpr (Or.inr di)
    have sk := (spans_iff _ _).mpr (Or.inr dk)
    have hz := abscissa_combination (y := y) (abscissa_between sk).1 (vert pts i) (vert pts (i + 1))
    have h0 : side (vert pts i) (vert pts (i + 1)) (abscissa y (vert pts k, vert pts (k + 1)), y) = 0 := by
      rw [heq]; exact side_abscissa (e := (vert pts i, vert pts (i + 1))) (abscissa_between si).1
    rw [h0] at hz
    have wpos : 0 < 1 - (y - (vert pts k).2) / ((vert pts (k + 1)).2 - (vert pts k).2) := by
      have d1 := dk.1; have d2 := dk.2; simp only at d1 d2
      have : (y - (vert pts k).2) / ((vert pts (k + 1)).2 - (vert pts k).2) < 1 := (div_lt_one_of_neg (by linarith)).mpr (by linarith)
      linarith
    obtain ⟨w0, _⟩ := spans_weight sk
    simp only at hz w0
    have p1 := h.left_nonneg hi k
    have p2 := h.left_nonneg hi (k + 1)
    have hprod := mul_nonneg w0 p2
    have hzero : side (vert pts i) (vert pts (i + 1)) (vert pts k) = 0 := by
      by_contra hc
      have : 0 < side (vert pts i) (vert pts (i + 1)) (vert pts k) := lt_of_le_of_ne p1 (Ne.symm hc)
      have := mul_pos wpos this
      linarith
    by_contra hcon
    have := h.left' hi hk (Ne.symm hne) hcon
    linarith
  by_contra hne
  exact h.succ_ne hi hk (key hi hk di dk heq.symm hne).symm (key hk hi dk di heq (Ne.symm hne)).symm

omit h in
/-- Going round, a predicate that holds somewhere and fails somewhere is switched on somewhere. -/
theorem switch_on {n : ℕ} {P : ℕ → Prop} (hper : ∀ i, P (i % n) ↔ P i) {a b : ℕ} (ha : ¬ P a) (hb : P b) (hn : 0 < n) :
    ∃ i < n, ¬ P i ∧ P (i + 1) := by
  have hstep : ∃ i, ¬ P i ∧ P (i + 1) := by
    by_contra hc
    push Not at hc
    have hall : ∀ m, ¬ P (a + m) := by
      intro m
      induction m with
      | zero => simpa using ha
      | succ m ih => exact hc (a + m) ih
    have hbig : ∃ m, (a + m) % n = b % n := by
      refine ⟨b + a * (n - 1), ?_⟩
      have : a + (b + a * (n - 1)) = b + n * a := by
        obtain ⟨k, rfl⟩ : ∃ k, n = k + 1 := ⟨n - 1, by omega⟩
        simp only [Nat.add_sub_cancel]; ring
      rw [this, Nat.add_mul_mod_self_left]
    obtain ⟨m, hm⟩ := hbig
    apply hall m
    rw [← hper, hm, hper]; exact hb
  obtain ⟨i, h1, h2⟩ := hstep
  refine ⟨i % n, Nat.mod_lt _ hn, by rwa [hper], ?_⟩
  have : (i % n + 1) % n = (i + 1) % n := by rw [Nat.mod_add_mod]
  rw [← hper, this, hper]; exact h2

/-- If some vertex is below `y` and some is not, exactly one edge climbs and one descends. -/
theorem up_down_exist {y : ℝ} {a b : ℕ} (ha : (vert pts a).2 < y) (hb : y ≤ (vert pts b).2) :
    (∃ i < pts.length, Up y (vert pts i, vert pts (i + 1))) ∧ ∃ i < pts.length, Down y (vert pts i, vert pts (i + 1)) := by
  constructor
  · obtain ⟨i, hi, h1, h2⟩ := switch_on (n := pts.length) (P := fun i => y ≤ (vert pts i).2) (fun i => by rw [h.vert_mod])
      (a := a) (b := b) (not_le.mpr ha) hb h.pos
    exact ⟨i, hi, not_le.mp h1, h2⟩
  · obtain ⟨i, hi, h1, h2⟩ := switch_on (n := pts.length) (P := fun i => (vert pts i).2 < y) (fun i => by rw [h.vert_mod])
      (a := b) (b := a) (not_lt.mpr hb) ha h.pos
    exact ⟨i, hi, h2, not_lt.mp h1⟩

/-- At a corner `m` with predecessor `j`: a point left of both edges is in the open cone spanned by them. -/
theorem cone {q : Pt} (hq : ∀ i < pts.length, 0 < side (vert pts i) (vert pts (i + 1)) q) {m : ℕ} (hm : m < pts.length) :
    ∃ j, ∃ D s t : ℝ, 0 < D ∧ 0 < s ∧ 0 < t ∧
      D * (q.2 - (vert pts m).2) = s * ((vert pts (m + 1)).2 - (vert pts m).2) + t * ((vert pts j).2 - (vert pts m).2) ∧
      ((vert pts (m + 1)).2 = (vert pts m).2 → (vert pts j).2 = (vert pts m).2 → D ≤ 0) := by
  have h3 := h.three
  obtain ⟨j, hj, hjm⟩ : ∃ j < pts.length, (j + 1) % pts.length = m := by
    refine ⟨(m + (pts.length - 1)) % pts.length, Nat.mod_lt _ h.pos, ?_⟩
    rw [Nat.mod_add_mod, show m + (pts.length - 1) + 1 = m + pts.length by omega, Nat.add_mod_right, Nat.mod_eq_of_lt hm]
  have hv : vert pts (j + 1) = vert pts m := by rw [← h.vert_mod, hjm]
  have hne : j ≠ m := by
    rintro rfl
    rcases Nat.lt_or_ge (j + 1) pts.length with hl | hl
    · rw [Nat.mod_eq_of_lt hl] at hjm; omega
    · have : j + 1 = pts.length := by omega
      rw [this, Nat.mod_self] at hjm; omega
  have hne2 : j ≠ (m + 1) % pts.length := fun hc => h.succ_ne hj hm hjm hc.symm
  have D := h.left' hm hj hne hne2
  have s1 := hq m hm
  have s2 := hq j hj
  rw [hv] at s2
  refine ⟨j, _, _, _, D, s2, s1, ?_, ?_⟩
  · simp only [side]; ring
  · intro e1 e2
    simp only [side, e1, e2]; linarith

/-- A point strictly left of all edges is above the lowest and not above the highest vertex. -/
theorem height_inside {q : Pt} (hq : ∀ i < pts.length, 0 < side (vert pts i) (vert pts (i + 1)) q) :
    (∃ a, (vert pts a).2 < q.2) ∧ ∃ b, q.2 ≤ (vert pts b).2 := by
  have hne : (Finset.range pts.length).Nonempty := ⟨0, by simpa using h.pos⟩
  constructor
  · by_contra hc
    push Not at hc
    obtain ⟨m, hm, hmin⟩ := Finset.exists_min_image (Finset.range pts.length) (fun i => (vert pts i).2) hne
    have hmin' : ∀ k, (vert pts m).2 ≤ (vert pts k).2 := fun k => by
      rw [← h.vert_mod k]; exact hmin _ (Finset.mem_range.mpr (Nat.mod_lt _ h.pos))
    obtain ⟨j, D, s, t, hD, hs, ht, he, hflat⟩ := h.cone hq (Finset.mem_range.mp hm)
    have h1 := hmin' (m + 1)
    have h2 := hmin' j
    have h3 := hc m
    have a1 := mul_nonneg hs.le (sub_nonneg.mpr h1)
    have a2 := mul_nonneg ht.le (sub_nonneg.mpr h2)
    have a3 : D * (q.2 - (vert pts m).2) ≤ 0 := mul_nonpos_of_nonneg_of_nonpos hD.le (by linarith)
    have z1 : s * ((vert pts (m + 1)).2 - (vert pts m).2) = 0 := by linarith
    have z2 : t * ((vert pts j).2 - (vert pts m).2) = 0 := by linarith
    have y1 := (mul_eq_zero.mp z1).resolve_left hs.ne'
    have y2 := (mul_eq_zero.mp z2).resolve_left ht.ne'
    have := hflat (by linarith) (by linarith)
    linarith
  · by_contra hc
    push Not at hc
    obtain ⟨m, hm, hmax⟩ := Finset.exists_max_image (Finset.range pts.length) (fun i => (vert pts i).2) hne
    have hmax' : ∀ k, (vert pts k).2 ≤ (vert pts m).2 := fun k => by
      rw [← h.vert_mod k]; exact hmax _ (Finset.mem_range.mpr (Nat.mod_lt _ h.pos))
    obtain ⟨j, D, s, t, hD, hs, ht, he, _⟩ := h.cone hq (Finset.mem_range.mp hm)
    have h1 := hmax' (m + 1)
    have h2 := hmax' j
    have h3 := hc m
    have a1 := mul_nonpos_of_nonneg_of_nonpos hs.le (sub_nonpos.mpr h1)
    have a2 := mul_nonpos_of_nonneg_of_nonpos ht.le (sub_nonpos.mpr h2)
    have a3 : 0 < D * (q.2 - (vert pts m).2) := mul_pos hD (by linarith)
    linarith

end StrictlyConvex

open Classical in
/-- A convex polygon contains every point strictly inside all its half planes. -/
theorem C35_convex_inside {pts : List Pt} (h : StrictlyConvex pts) {x y : ℝ} (hq : ∀ e ∈ edges pts, 0 < side e.1 e.2 (x, y)) :
    contains (polygon (dbl pts)) (Dbl.fin x) (.fin y) = true := by
  rw [C35_crossing_number, crossings_eq_card]
  have hq' : ∀ i < pts.length, 0 < side (vert pts i) (vert pts (i + 1)) (x, y) := by
    intro i hi
    refine hq (vert pts i, vert pts (i + 1)) ?_
    rw [edges_eq_range]
    exact List.mem_map.mpr ⟨i, List.mem_range.mpr hi, rfl⟩
  obtain ⟨⟨a, ha⟩, b, hb⟩ := h.height_inside hq'
  obtain ⟨⟨i, hi, hup⟩, _⟩ := h.up_down_exist ha hb
  have : (Finset.range pts.length).filter (fun i => Hits x y (vert pts i, vert pts (i + 1))) = {i} := by
    ext k
    simp only [Finset.mem_filter, Finset.mem_range, Finset.mem_singleton]
    constructor
    · rintro ⟨hk, hs, hx⟩
      rcases (spans_iff _ _).mp hs with hu | hd
      · exact h.up_unique hk hi hu hup
      · have := (down_hit hd).mp hx
        have := hq' k hk
        linarith
    · rintro rfl
      exact ⟨hi, (spans_iff _ _).mpr (Or.inl hup), (up_hit hup).mpr (hq' k hi).le⟩
  rw [this, Finset.card_singleton]
  exact odd_one

open Classical in
/-- And no point strictly outside one of them. -/
theorem C35_convex_outside {pts : List Pt} (h : StrictlyConvex pts) {x y : ℝ} (hq : ∃ e ∈ edges pts, side e.1 e.2 (x, y) < 0) :
    contains (polygon (dbl pts)) (Dbl.fin x) (.fin y) = false := by
  rw [← Bool.not_eq_true, C35_crossing_number, crossings_eq_card, Nat.not_odd_iff_even]
  obtain ⟨m, hm, hneg⟩ : ∃ m < pts.length, side (vert pts m) (vert pts (m + 1)) (x, y) < 0 := by
    obtain ⟨e, he, hn⟩ := hq
    rw [edges_eq_range] at he
    obtain ⟨m, hm, rfl⟩ := List.mem_map.mp he
    exact ⟨m, List.mem_range.mp hm, hn⟩
  by_cases hex : ∃ k < pts.length, Spans y (vert pts k, vert pts (k + 1))
  · -- one climbing and one descending edge
    obtain ⟨k, hk, hs⟩ := hex
    have hlow : ∃ a, (vert pts a).2 < y := by
      rcases (spans_iff _ _).mp hs with hu | hd
      · exact ⟨k, hu.1⟩
      · exact ⟨k + 1, hd.1⟩
    have hhigh : ∃ b, y ≤ (vert pts b).2 := by
      rcases (spans_iff _ _).mp hs with hu | hd
      · exact ⟨k + 1, hu.2⟩
      · exact ⟨k, hd.2⟩
    obtain ⟨a, ha⟩ := hlow
    obtain ⟨b, hb⟩ := hhigh
    obtain ⟨⟨i, hi, hup⟩, l, hl, hdn⟩ := h.up_down_exist ha hb
    have si := (spans_iff _ _).mpr (Or.inl hup)
    have sl := (spans_iff _ _).mpr (Or.inr hdn)
    have hil : i ≠ l := by
      rintro rfl
      have := hup.1; have := hdn.2; linarith
    -- the descending intercept is left of the climbing one
    have hord : abscissa y (vert pts l, vert pts (l + 1)) ≤ abscissa y (vert pts i, vert pts (i + 1)) :=
      (up_hit hup).mpr (h.abscissa_inside hi sl)
    -- and the point is not between them
    have hside : x ≤ abscissa y (vert pts i, vert pts (i + 1)) ↔ x ≤ abscissa y (vert pts l, vert pts (l + 1)) := by
      refine ⟨fun hx => ?_, fun hx => le_trans hx hord⟩
      by_contra hc
      push Not at hc
      have h1 := h.abscissa_inside hm si
      have h2 := h.abscissa_inside hm sl
      generalize abscissa y (vert pts i, vert pts (i + 1)) = u at *
      generalize abscissa y (vert pts l, vert pts (l + 1)) = d at *
      have hlin : (u - d) * side (vert pts m) (vert pts (m + 1)) (x, y) =
          (x - d) * side (vert pts m) (vert pts (m + 1)) (u, y) + (u - x) * side (vert pts m) (vert pts (m + 1)) (d, y) := by
        simp only [side]; ring
      have p1 := mul_nonneg (sub_nonneg.mpr hc.le) h1
      have p2 := mul_nonneg (sub_nonneg.mpr hx) h2
      have p3 := mul_neg_of_pos_of_neg (show (0:ℝ) < u - d by linarith) hneg
      linarith
    by_cases hx : x ≤ abscissa y (vert pts i, vert pts (i + 1))
    · have : (Finset.range pts.length).filter (fun i => Hits x y (vert pts i, vert pts (i + 1))) = {i, l} := by
        ext k
        simp only [Finset.mem_filter, Finset.mem_range, Finset.mem_insert, Finset.mem_singleton]
        constructor
        · rintro ⟨hk, hs, _⟩
          rcases (spans_iff _ _).mp hs with hu | hd
          · exact Or.inl (h.up_unique hk hi hu hup)
          · exact Or.inr (h.down_unique hk hl hd hdn)
        · rintro (rfl | rfl)
          · exact ⟨hi, si, hx⟩
          · exact ⟨hl, sl, hside.mp hx⟩
      rw [this, Finset.card_pair hil]
      exact even_two
    · have : (Finset.range pts.length).filter (fun i => Hits x y (vert pts i, vert pts (i + 1))) = ∅ := by
        ext k
        simp only [Finset.mem_filter, Finset.mem_range, Finset.notMem_empty, iff_false]
        rintro ⟨hk, hs, hx'⟩
        rcases (spans_iff _ _).mp hs with hu | hd
        · rw [h.up_unique hk hi hu hup] at hx'; exact hx hx'
        · rw [h.down_unique hk hl hd hdn] at hx'; exact hx (hside.mpr hx')
      rw [this]; simp
  · push Not at hex
    have : (Finset.range pts.length).filter (fun i => Hits x y (vert pts i, vert pts (i + 1))) = ∅ := by
      ext k
      simp only [Finset.mem_filter, Finset.mem_range, Finset.notMem_empty, iff_false]
      rintro ⟨hk, hs, _⟩
      exact hex k hk hs
    rw [this]; simp

/-- Clockwise convex polygons. -/
theorem C35_convex_clockwise {pts : List Pt} (h : StrictlyConvex pts.reverse) {x y : ℝ} :
    ((∀ e ∈ edges pts, side e.1 e.2 (x, y) < 0) → contains (polygon (dbl pts)) (Dbl.fin x) (.fin y) = true) ∧
    ((∃ e ∈ edges pts, 0 < side e.1 e.2 (x, y)) → contains (polygon (dbl pts)) (Dbl.fin x) (.fin y) = false) := by
  have hsw : ∀ (e : Pt × Pt) (q : Pt), side e.2 e.1 q = - side e.1 e.2 q := by
    intro e q; simp only [side]; ring
  have hmem : ∀ e, e ∈ edges pts.reverse ↔ e.swap ∈ edges pts := by
    intro e
    rw [(edges_reverse pts).mem_iff, List.mem_map]
    constructor
    · rintro ⟨a, ha, rfl⟩; simpa using ha
    · intro he; exact ⟨e.swap, he, by simp⟩
  constructor
  · intro hq
    rw [← C35_orientation]
    refine C35_convex_inside h ?_
    intro e he
    have := hq _ ((hmem e).mp he)
    simp only [Prod.fst_swap, Prod.snd_swap] at this
    rw [hsw] at this
    linarith
  · rintro ⟨e, he, hq⟩
    rw [← C35_orientation]
    refine C35_convex_outside h ⟨e.swap, (hmem _).mpr (by simpa using he), ?_⟩
    simp only [Prod.fst_swap, Prod.snd_swap]
    rw [hsw]
    linarith

/-- The unit square is strictly convex. -/
def unitSquare : List Pt := [(0, 0), (1, 0), (1, 1), (0, 1)]

theorem unitSquare_convex : StrictlyConvex unitSquare := by
  refine ⟨by simp [unitSquare], ?_⟩
  intro i k hi hk h1 h2
  simp only [unitSquare, List.length_cons, List.length_nil] at hi hk h2
  have hi' : i = 0 ∨ i = 1 ∨ i = 2 ∨ i = 3 := by omega
  have hk' : k = 0 ∨ k = 1 ∨ k = 2 ∨ k = 3 := by omega
  rcases hi' with rfl | rfl | rfl | rfl <;> rcases hk' with rfl | rfl | rfl | rfl <;>
    first | (exfalso; revert h1 h2; decide) | (simp [unitSquare, side])

example : contains (polygon (dbl unitSquare)) (Dbl.fin (1 / 3)) (.fin (1 / 2)) = true := by
  refine C35_convex_inside unitSquare_convex ?_
  intro e he
  simp [edges, unitSquare] at he
  rcases he with rfl | rfl | rfl | rfl <;> norm_num [side]

end Batoid.Props
