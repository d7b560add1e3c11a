import Verif.Kernels
import Mathlib.Data.List.Perm.Basic
import Mathlib.Tactic.LinearCombination

/-!
# Obscurations (C33, C34, C37)

Specification: the set of points an obscuration blocks.
-/

namespace Batoid.Props
open Batoid Batoid.Obsc

section boolean
variable {F : Type} [Arith F]

/-- The blocked region. -/
def region (o : Obsc F) : Set (F × F) := {p | o.contains p.1 p.2 = true}

theorem unionContains_iff (os : List (Obsc F)) (x y : F) (b : Bool) :
    unionContains os x y b = true ↔ b = true ∨ ∃ o ∈ os, o.contains x y = true := by
  induction os generalizing b with
  | nil => simp [unionContains]
  | cons o os ih => simp only [unionContains, ih, Bool.or_eq_true, List.mem_cons, exists_eq_or_imp, or_assoc]

theorem interContains_iff (os : List (Obsc F)) (x y : F) (b : Bool) :
    interContains os x y b = true ↔ b = true ∧ ∀ o ∈ os, o.contains x y = true := by
  induction os generalizing b with
  | nil => simp [interContains]
  | cons o os ih => simp only [interContains, ih, Bool.and_eq_true, List.mem_cons, forall_eq_or_imp, and_assoc]

/-! ## C33 -/

theorem C33_union (os : List (Obsc F)) : region (union os) = ⋃ o ∈ os, region o := by
  ext p; simp [region, contains, unionContains_iff]

theorem C33_intersection (os : List (Obsc F)) : region (intersection os) = ⋂ o ∈ os, region o := by
  ext p; simp [region, contains, interContains_iff]

theorem C33_negation (o : Obsc F) : region (negation o) = (region o)ᶜ := by
  ext p; simp [region, contains]

/-- De Morgan. -/
theorem C33_not_union (os : List (Obsc F)) : region (negation (union os)) = region (intersection (os.map negation)) := by
  rw [C33_negation, C33_union, C33_intersection]
  ext p; simp [region, contains]

theorem C33_not_intersection (os : List (Obsc F)) :
    region (negation (intersection os)) = region (union (os.map negation)) := by
  rw [C33_negation, C33_union, C33_intersection]
  ext p; simp [region, contains]

theorem C33_double_negation (o : Obsc F) : region (negation (negation o)) = region o := by
  rw [C33_negation, C33_negation, compl_compl]

/-- The order of the items, and repetition of items, do not matter. -/
theorem C33_order {os os' : List (Obsc F)} (h : ∀ o, o ∈ os ↔ o ∈ os') :
    region (union os) = region (union os') ∧ region (intersection os) = region (intersection os') := by
  rw [C33_union, C33_union, C33_intersection, C33_intersection]
  simp only [h, and_self]

/-- Flattening nested unions and intersections. -/
theorem C33_nested (os os' : List (Obsc F)) :
    region (union (union os' :: os)) = region (union (os' ++ os)) ∧
      region (intersection (intersection os' :: os)) = region (intersection (os' ++ os)) := by
  simp only [C33_union, C33_intersection]
  constructor
  · ext p; simp [region, contains, unionContains_iff, or_and_right, exists_or]
  · ext p; simp [region, contains, interContains_iff, or_imp, forall_and]

/-- Boolean expressions over a family of obscurations. -/
inductive BExpr (ι : Type) where
  | atom (i : ι)
  | not (e : BExpr ι)
  | any (es : List (BExpr ι))
  | all (es : List (BExpr ι))

/-- Truth value of an expression. -/
def BExpr.eval {ι : Type} (v : ι → Prop) : BExpr ι → Prop
  | .atom i => v i
  | .not e => ¬ e.eval v
  | .any es => ∃ e : {x // x ∈ es}, e.1.eval v
  | .all es => ∀ e : {x // x ∈ es}, e.1.eval v
termination_by e => sizeOf e
decreasing_by
  · simp
  · have := List.sizeOf_lt_of_mem e.2; simp only [BExpr.any.sizeOf_spec]; omega
  · have := List.sizeOf_lt_of_mem e.2; simp only [BExpr.all.sizeOf_spec]; omega

/-- The obscuration written by nesting the batoid classes. -/
def BExpr.obsc {ι : Type} (a : ι → Obsc F) : BExpr ι → Obsc F
  | .atom i => a i
  | .not e => negation (e.obsc a)
  | .any es => union (es.attach.map fun e => e.1.obsc a)
  | .all es => intersection (es.attach.map fun e => e.1.obsc a)
termination_by e => sizeOf e
decreasing_by
  · simp
  · have := List.sizeOf_lt_of_mem e.2; simp only [BExpr.any.sizeOf_spec]; omega
  · have := List.sizeOf_lt_of_mem e.2; simp only [BExpr.all.sizeOf_spec]; omega

/-- Arbitrarily deep nesting: a point is blocked iff the Boolean expression holds of the blocked parts. -/
theorem C33_deep {ι : Type} (a : ι → Obsc F) (x y : F) : ∀ e : BExpr ι,
    ((e.obsc a).contains x y = true ↔ e.eval fun i => (a i).contains x y = true)
  | .atom i => by simp [BExpr.obsc, BExpr.eval]
  | .not e => by
    have := C33_deep a x y e
    simp only [BExpr.obsc, BExpr.eval, contains, ← this, Bool.not_eq_true', Bool.not_eq_true]
  | .any es => by
    have ih : ∀ e : {x // x ∈ es}, ((e.1.obsc a).contains x y = true ↔ e.1.eval fun i => (a i).contains x y = true) :=
      fun e => C33_deep a x y e.1
    simp only [BExpr.obsc, BExpr.eval, contains, unionContains_iff, List.mem_map, List.mem_attach, true_and, Bool.false_eq_true,
      false_or]
    constructor
    · rintro ⟨o, ⟨e, rfl⟩, h⟩; exact ⟨e, (ih e).mp h⟩
    · rintro ⟨e, h⟩; exact ⟨_, ⟨e, rfl⟩, (ih e).mpr h⟩
  | .all es => by
    have ih : ∀ e : {x // x ∈ es}, ((e.1.obsc a).contains x y = true ↔ e.1.eval fun i => (a i).contains x y = true) :=
      fun e => C33_deep a x y e.1
    simp only [BExpr.obsc, BExpr.eval, contains, interContains_iff, List.mem_map, List.mem_attach, true_and]
    constructor
    · intro h e; exact (ih e).mp (h _ ⟨e, rfl⟩)
    · rintro h o ⟨e, rfl⟩; exact (ih e).mpr (h e)
termination_by e => sizeOf e
decreasing_by
  · simp
  · have := List.sizeOf_lt_of_mem e.2; simp only [BExpr.any.sizeOf_spec]; omega
  · have := List.sizeOf_lt_of_mem e.2; simp only [BExpr.all.sizeOf_spec]; omega

/-- The Python constructors: items may be given one by one or as one list; the region is the union (intersection). -/
theorem C33_constructors (os : List (Obsc F)) (hne : os ≠ []) :
    mkUnion (os.map Arg.obsc) = .ok (union os) ∧ mkUnion [Arg.items (os.map some)] = .ok (union os) ∧
    mkIntersection (os.map Arg.obsc) = .ok (intersection os) ∧
    mkIntersection [Arg.items (os.map some)] = .ok (intersection os) := by
  have hm : ∀ l : List (Obsc F), (l.map some).mapM id = some l := by
    intro l; induction l with
    | nil => rfl
    | cons o l ih => simp [List.mapM_cons, ih]
  have ha : ∀ l : List (Obsc F), (l.map Arg.obsc).mapM Arg.obsc? = some l := by
    intro l; induction l with
    | nil => rfl
    | cons o l ih => simp [List.mapM_cons, ih, Arg.obsc?]
  have h1 : ctorItems (os.map Arg.obsc) = .ok os := by
    match os, hne with
    | [o], _ => rfl
    | o :: o' :: l, _ =>
      have := ha (o :: o' :: l)
      simp only [List.map_cons] at this ⊢
      simp only [ctorItems, this]
  have h2 : ctorItems [Arg.items (os.map some)] = .ok os := by simp only [ctorItems, hm]
  refine ⟨?_, ?_, ?_, ?_⟩ <;> simp only [mkUnion, mkIntersection, h1, h2] <;> rfl

/-- Vignetting by a union is vignetting by its items one after the other. -/
theorem C33_obscure_union (os : List (Obsc F)) (ray : Ray F) :
    Ray.obscure (union os) ray = os.foldl (fun r o => Ray.obscure o r) ray := by
  have h : ∀ (os : List (Obsc F)) (ray : Ray F), (os.foldl (fun r o => Ray.obscure o r) ray) =
      { ray with vignetted := ray.vignetted || unionContains os ray.r.x ray.r.y false } := by
    intro os
    induction os with
    | nil => intro ray; simp [unionContains]
    | cons o os ih =>
      intro ray
      rw [List.foldl_cons, ih]
      have e : unionContains (o :: os) ray.r.x ray.r.y false =
          (o.contains ray.r.x ray.r.y || unionContains os ray.r.x ray.r.y false) := by
        rw [Bool.eq_iff_iff]
        simp [unionContains, unionContains_iff]
      rw [e]
      simp only [Ray.obscure, Bool.or_assoc]
  rw [h]
  rfl

end boolean

/-! ## C34 -/

/-- Squared distance of two points of the plane. -/
def planeDist2 (x0 y0 x y : ℝ) : ℝ := (x - x0) ^ 2 + (y - y0) ^ 2

theorem sqrt_lt_iff {a r : ℝ} (ha : 0 ≤ a) : Real.sqrt a < r ↔ 0 < r ∧ a < r ^ 2 := by
  constructor
  · intro h
    have := Real.sqrt_nonneg a
    exact ⟨by linarith, (Real.sqrt_lt' (by linarith)).mp h⟩
  · rintro ⟨h1, h2⟩; exact (Real.sqrt_lt' h1).mpr h2

/-- A circle contains exactly the points closer to the centre than its radius. -/
theorem C34_circle (R x0 y0 x y : ℝ) : contains (circle (.fin R) (.fin x0) (.fin y0)) (Dbl.fin x) (.fin y) = true ↔
    0 < R ∧ planeDist2 x0 y0 x y < R ^ 2 := by
  simp only [contains, circleContains, Dbl.sub_fin, Dbl.hypot_fin, Dbl.lt_fin, decide_eq_true_eq]
  rw [← sqrt_lt_iff (by unfold planeDist2; positivity)]
  unfold planeDist2
  rw [sq, sq]

/-- An annulus is the outer circle without the inner one. -/
theorem C34_annulus (a b x0 y0 x y : ℝ) :
    contains (annulus (.fin a) (.fin b) (.fin x0) (.fin y0)) (Dbl.fin x) (.fin y) = true ↔
    contains (circle (.fin b) (.fin x0) (.fin y0)) (Dbl.fin x) (.fin y) = true ∧
      ¬ contains (circle (.fin a) (.fin x0) (.fin y0)) (Dbl.fin x) (.fin y) = true := by
  simp only [contains, circleContains, annulusContains, Dbl.sub_fin, Dbl.hypot_fin, Dbl.lt_fin, Dbl.le_fin, Bool.and_eq_true,
    decide_eq_true_eq, not_lt]
  exact and_comm

/-- Inner circle, annulus and exterior of the outer circle partition the plane (`a ≤ b`): every point is in exactly one. -/
theorem C34_partition {a b : ℝ} (hab : a ≤ b) (x0 y0 x y : ℝ) :
    let c := contains (circle (.fin a) (.fin x0) (.fin y0)) (Dbl.fin x) (.fin y)
    let n := contains (annulus (.fin a) (.fin b) (.fin x0) (.fin y0)) (Dbl.fin x) (.fin y)
    let e := contains (negation (circle (.fin b) (.fin x0) (.fin y0))) (Dbl.fin x) (.fin y)
    (c = true ∧ n = false ∧ e = false) ∨ (c = false ∧ n = true ∧ e = false) ∨ (c = false ∧ n = false ∧ e = true) := by
  simp only [contains, circleContains, annulusContains, Dbl.sub_fin, Dbl.hypot_fin, Dbl.lt_fin, Dbl.le_fin, Bool.and_eq_true,
    decide_eq_true_eq, Bool.and_eq_false_iff, decide_eq_false_iff_not, Bool.not_eq_true', Bool.not_eq_false', not_lt, not_le]
  generalize Real.sqrt _ = d
  rcases lt_or_ge d a with h | h
  · exact Or.inl ⟨h, Or.inl h, lt_of_lt_of_le h hab⟩
  · rcases lt_or_ge d b with h' | h'
    · exact Or.inr (Or.inl ⟨h, ⟨h, h'⟩, h'⟩)
    · exact Or.inr (Or.inr ⟨h, Or.inr h', h'⟩)

/-- Turning by the angle `p` about `(cx, cy)`. -/
noncomputable def turnX (cx cy p x y : ℝ) : ℝ := cx + (x - cx) * Real.cos p - (y - cy) * Real.sin p
noncomputable def turnY (cx cy p x y : ℝ) : ℝ := cy + (x - cx) * Real.sin p + (y - cy) * Real.cos p

theorem turn_dist (cx cy p x0 y0 x y : ℝ) :
    planeDist2 (turnX cx cy p x0 y0) (turnY cx cy p x0 y0) (turnX cx cy p x y) (turnY cx cy p x y) = planeDist2 x0 y0 x y := by
  unfold planeDist2 turnX turnY
  linear_combination ((x - x0) ^ 2 + (y - y0) ^ 2) * Real.sin_sq_add_cos_sq p

/-- Circles and annuli only look at the distance from the centre.  Hence rotating about the centre, translating shape and
point together, or rotating both about any point changes nothing. -/
theorem C34_distance_only (R a b : ℝ) {x0 y0 x y x0' y0' x' y' : ℝ} (h : planeDist2 x0 y0 x y = planeDist2 x0' y0' x' y') :
    contains (circle (.fin R) (.fin x0) (.fin y0)) (Dbl.fin x) (.fin y) =
      contains (circle (.fin R) (.fin x0') (.fin y0')) (Dbl.fin x') (.fin y') ∧
    contains (annulus (.fin a) (.fin b) (.fin x0) (.fin y0)) (Dbl.fin x) (.fin y) =
      contains (annulus (.fin a) (.fin b) (.fin x0') (.fin y0')) (Dbl.fin x') (.fin y') := by
  unfold planeDist2 at h
  simp only [sq] at h
  simp only [contains, circleContains, annulusContains, Dbl.sub_fin, Dbl.hypot_fin, h, and_self]

theorem C34_rotation (R a b x0 y0 p x y : ℝ) :
    contains (circle (.fin R) (.fin x0) (.fin y0)) (Dbl.fin (turnX x0 y0 p x y)) (.fin (turnY x0 y0 p x y)) =
      contains (circle (.fin R) (.fin x0) (.fin y0)) (Dbl.fin x) (.fin y) ∧
    contains (annulus (.fin a) (.fin b) (.fin x0) (.fin y0)) (Dbl.fin (turnX x0 y0 p x y)) (.fin (turnY x0 y0 p x y)) =
      contains (annulus (.fin a) (.fin b) (.fin x0) (.fin y0)) (Dbl.fin x) (.fin y) := by
  refine C34_distance_only R a b ?_
  have := turn_dist x0 y0 p x0 y0 x y
  have ex : turnX x0 y0 p x0 y0 = x0 := by simp [turnX]
  have ey : turnY x0 y0 p x0 y0 = y0 := by simp [turnY]
  rwa [ex, ey] at this

theorem C34_translation (R a b x0 y0 u w x y : ℝ) :
    contains (circle (.fin R) (.fin (x0 + u)) (.fin (y0 + w))) (Dbl.fin (x + u)) (.fin (y + w)) =
      contains (circle (.fin R) (.fin x0) (.fin y0)) (Dbl.fin x) (.fin y) ∧
    contains (annulus (.fin a) (.fin b) (.fin (x0 + u)) (.fin (y0 + w))) (Dbl.fin (x + u)) (.fin (y + w)) =
      contains (annulus (.fin a) (.fin b) (.fin x0) (.fin y0)) (Dbl.fin x) (.fin y) :=
  C34_distance_only R a b (by unfold planeDist2; ring)

/-- The documentation example of `ObscUnion`: a circle and an annulus around it make the larger circle. -/
theorem C34_doc_example {a b : ℝ} (hab : a ≤ b) (x0 y0 x y : ℝ) :
    contains (union [circle (.fin a) (.fin x0) (.fin y0), annulus (.fin a) (.fin b) (.fin x0) (.fin y0)]) (Dbl.fin x) (.fin y) =
      contains (circle (.fin b) (.fin x0) (.fin y0)) (Dbl.fin x) (.fin y) := by
  rw [Bool.eq_iff_iff]
  simp only [contains, unionContains, circleContains, annulusContains, Dbl.sub_fin, Dbl.hypot_fin, Dbl.lt_fin, Dbl.le_fin,
    Bool.or_eq_true, Bool.and_eq_true, decide_eq_true_eq, Bool.false_eq_true, false_or]
  generalize Real.sqrt _ = d
  constructor
  · rintro (h | h)
    · linarith
    · exact h.2
  · intro h
    rcases lt_or_ge d a with h' | h'
    · exact Or.inl h'
    · exact Or.inr ⟨h', h⟩

/-! ## C37 -/

/-- Exact description: a point is in the rectangle iff it is `centre + x' (cos θ, sin θ) + y' (-sin θ, cos θ)` with
`|x'| < width/2` and `|y'| < height/2`. -/
theorem C37_rectangle (w h x0 y0 th x y : ℝ) :
    contains (rectangle (.fin w) (.fin h) (.fin x0) (.fin y0) (.fin th)) (Dbl.fin x) (.fin y) = true ↔
    ∃ x' y' : ℝ, x = x0 + x' * Real.cos th - y' * Real.sin th ∧ y = y0 + x' * Real.sin th + y' * Real.cos th ∧
      |x'| < w / 2 ∧ |y'| < h / 2 := by
  have h2 : (2:ℝ) ≠ 0 := two_ne_zero
  simp only [contains, rectangleContains, Dbl.sub_fin, Dbl.cos_fin, Dbl.sin_fin, Dbl.mul_fin, Dbl.add_fin, Dbl.neg_fin,
    Dbl.ofNat_dbl', Dbl.div_fin h2, Dbl.gt_fin, Dbl.lt_fin, Bool.and_eq_true, decide_eq_true_eq, neg_div]
  have hcs := Real.sin_sq_add_cos_sq th
  constructor
  · rintro ⟨⟨⟨h1, h2⟩, h3⟩, h4⟩
    refine ⟨_, _, ?_, ?_, abs_lt.mpr ⟨h1, h2⟩, abs_lt.mpr ⟨h3, h4⟩⟩
    · linear_combination (x0 - x) * hcs
    · linear_combination (y0 - y) * hcs
  · rintro ⟨x', y', rfl, rfl, h1, h2⟩
    have ex : (x0 + x' * Real.cos th - y' * Real.sin th - x0) * Real.cos th + (y0 + x' * Real.sin th + y' * Real.cos th - y0) * Real.sin th = x' := by
      linear_combination x' * hcs
    have ey : -(x0 + x' * Real.cos th - y' * Real.sin th - x0) * Real.sin th + (y0 + x' * Real.sin th + y' * Real.cos th - y0) * Real.cos th = y' := by
      linear_combination y' * hcs
    rw [ex, ey]
    exact ⟨⟨abs_lt.mp h1, (abs_lt.mp h2).1⟩, (abs_lt.mp h2).2⟩

theorem C37_ray (w x0 y0 th x y : ℝ) :
    contains (ray (.fin w) (.fin th) (.fin x0) (.fin y0)) (Dbl.fin x) (.fin y) = true ↔
    ∃ x' y' : ℝ, x = x0 + x' * Real.cos th - y' * Real.sin th ∧ y = y0 + x' * Real.sin th + y' * Real.cos th ∧
      0 < x' ∧ |y'| < w / 2 := by
  have h2 : (2:ℝ) ≠ 0 := two_ne_zero
  simp only [contains, rayContains, Dbl.sub_fin, Dbl.cos_fin, Dbl.sin_fin, Dbl.mul_fin, Dbl.add_fin, Dbl.neg_fin,
    Dbl.ofNat_dbl', Dbl.zero_dbl, Dbl.div_fin h2, Dbl.gt_fin, Dbl.lt_fin, Bool.and_eq_true, decide_eq_true_eq, neg_div]
  have hcs := Real.sin_sq_add_cos_sq th
  constructor
  · rintro ⟨⟨h1, h3⟩, h4⟩
    refine ⟨_, _, ?_, ?_, h1, abs_lt.mpr ⟨h3, h4⟩⟩
    · linear_combination (x0 - x) * hcs
    · linear_combination (y0 - y) * hcs
  · rintro ⟨x', y', rfl, rfl, h1, h2⟩
    have ex : (x0 + x' * Real.cos th - y' * Real.sin th - x0) * Real.cos th + (y0 + x' * Real.sin th + y' * Real.cos th - y0) * Real.sin th = x' := by
      linear_combination x' * hcs
    have ey : -(x0 + x' * Real.cos th - y' * Real.sin th - x0) * Real.sin th + (y0 + x' * Real.sin th + y' * Real.cos th - y0) * Real.cos th = y' := by
      linear_combination y' * hcs
    rw [ex, ey]
    exact ⟨⟨h1, (abs_lt.mp h2).1⟩, (abs_lt.mp h2).2⟩

/-- Turning shape and point together by `p` about any point `(cx, cy)`: theta grows by `p` and the answer stays. -/
theorem C37_turn (w h x0 y0 th p cx cy x y : ℝ) :
    contains (rectangle (.fin w) (.fin h) (.fin (turnX cx cy p x0 y0)) (.fin (turnY cx cy p x0 y0)) (.fin (th + p)))
      (Dbl.fin (turnX cx cy p x y)) (.fin (turnY cx cy p x y)) =
      contains (rectangle (.fin w) (.fin h) (.fin x0) (.fin y0) (.fin th)) (Dbl.fin x) (.fin y) ∧
    contains (ray (.fin w) (.fin (th + p)) (.fin (turnX cx cy p x0 y0)) (.fin (turnY cx cy p x0 y0)))
      (Dbl.fin (turnX cx cy p x y)) (.fin (turnY cx cy p x y)) =
      contains (ray (.fin w) (.fin th) (.fin x0) (.fin y0)) (Dbl.fin x) (.fin y) := by
  have hcs := Real.sin_sq_add_cos_sq p
  have ex : (turnX cx cy p x y - turnX cx cy p x0 y0) * Real.cos (th + p) + (turnY cx cy p x y - turnY cx cy p x0 y0) * Real.sin (th + p) =
      (x - x0) * Real.cos th + (y - y0) * Real.sin th := by
    rw [Real.cos_add, Real.sin_add]; unfold turnX turnY
    linear_combination ((x - x0) * Real.cos th + (y - y0) * Real.sin th) * hcs
  have ey : -(turnX cx cy p x y - turnX cx cy p x0 y0) * Real.sin (th + p) + (turnY cx cy p x y - turnY cx cy p x0 y0) * Real.cos (th + p) =
      -(x - x0) * Real.sin th + (y - y0) * Real.cos th := by
    rw [Real.cos_add, Real.sin_add]; unfold turnX turnY
    linear_combination (-(x - x0) * Real.sin th + (y - y0) * Real.cos th) * hcs
  constructor
  · simp only [contains, rectangleContains, Dbl.sub_fin, Dbl.cos_fin, Dbl.sin_fin, Dbl.mul_fin, Dbl.add_fin, Dbl.neg_fin, ex, ey]
  · simp only [contains, rayContains, Dbl.sub_fin, Dbl.cos_fin, Dbl.sin_fin, Dbl.mul_fin, Dbl.add_fin, Dbl.neg_fin, ex, ey]

/-- Translating both changes nothing. -/
theorem C37_translation (w h x0 y0 th u v x y : ℝ) :
    contains (rectangle (.fin w) (.fin h) (.fin (x0 + u)) (.fin (y0 + v)) (.fin th)) (Dbl.fin (x + u)) (.fin (y + v)) =
      contains (rectangle (.fin w) (.fin h) (.fin x0) (.fin y0) (.fin th)) (Dbl.fin x) (.fin y) ∧
    contains (ray (.fin w) (.fin th) (.fin (x0 + u)) (.fin (y0 + v))) (Dbl.fin (x + u)) (.fin (y + v)) =
      contains (ray (.fin w) (.fin th) (.fin x0) (.fin y0)) (Dbl.fin x) (.fin y) := by
  have ex : x + u - (x0 + u) = x - x0 := by ring
  have ey : y + v - (y0 + v) = y - y0 := by ring
  constructor
  · simp only [contains, rectangleContains, Dbl.sub_fin, ex, ey]
  · simp only [contains, rayContains, Dbl.sub_fin, ex, ey]

/-- A rectangle is unchanged by a half turn; a quarter turn exchanges width and height. -/
theorem C37_quarter_turn (w h x0 y0 th x y : ℝ) :
    contains (rectangle (.fin w) (.fin h) (.fin x0) (.fin y0) (.fin (th + Real.pi / 2))) (Dbl.fin x) (.fin y) =
      contains (rectangle (.fin h) (.fin w) (.fin x0) (.fin y0) (.fin th)) (Dbl.fin x) (.fin y) := by
  rw [Bool.eq_iff_iff, C37_rectangle, C37_rectangle]
  rw [Real.cos_add_pi_div_two, Real.sin_add_pi_div_two]
  constructor
  · rintro ⟨x', y', h1, h2, h3, h4⟩
    exact ⟨-y', x', by rw [h1]; ring, by rw [h2]; ring, by rwa [abs_neg], h3⟩
  · rintro ⟨x', y', h1, h2, h3, h4⟩
    exact ⟨y', -x', by rw [h1]; ring, by rw [h2]; ring, h4, by rwa [abs_neg]⟩

/-! ## Non-vacuity -/

example : contains (annulus (.fin 1) (.fin 2) (.fin 0) (.fin 0)) (Dbl.fin 1) (.fin 1) = true := by
  rw [C34_annulus, C34_circle, C34_circle]; unfold planeDist2; norm_num

example : contains (rectangle (.fin 4) (.fin 2) (.fin 1) (.fin 1) (.fin 0)) (Dbl.fin (5 / 2)) (.fin (1 / 2)) = true := by
  rw [C37_rectangle]
  exact ⟨3 / 2, -1 / 2, by norm_num, by norm_num, by rw [abs_lt]; norm_num, by rw [abs_lt]; norm_num⟩

example : ¬ contains (ray (.fin 1) (.fin 0) (.fin 0) (.fin 0)) (Dbl.fin (-1)) (.fin 0) = true := by
  rw [C37_ray]; rintro ⟨x', y', h1, h2, h3, _⟩
  simp at h1; linarith

end Batoid.Props
