import Verif.Props.Normals
import Mathlib.Algebra.BigOperators.Intervals
import Mathlib.Algebra.BigOperators.Ring.Finset

/-!
# Polynomial surfaces (C25)

Specification: the double sum `polyValue` and its derivatives in the sense of analysis (through `TrueNormals`).
-/

namespace Batoid.Props
open Batoid Batoid.Surface Finset

/-- `sum_{i < rows} sum_{j < cols} a i j x^i y^j`. -/
def polyValue (a : ℕ → ℕ → ℝ) (rows cols : ℕ) (x y : ℝ) : ℝ :=
  ∑ i ∈ range rows, ∑ j ∈ range cols, a i j * x ^ i * y ^ j

/-- The flat array of the surface holds `a`, row `i` at offset `i * xsize`, with `ysize` rows. -/
def HoldsCoefs (p : PolyData Dbl) (a : ℕ → ℕ → ℝ) : Prop :=
  ∀ i < p.ysize, ∀ j < p.xsize, p.coefs (i * p.xsize + j) = .fin (a i j)

/-- The flat gradient arrays, one row and one column smaller, hold what fits of the derivative's coefficients. -/
structure HoldsGradients (p : PolyData Dbl) (a : ℕ → ℕ → ℝ) : Prop where
  x : ∀ i < p.ysize - 1, ∀ j < p.xsize - 1, p.gradx (i * (p.xsize - 1) + j) = .fin ((i + 1) * a (i + 1) j)
  y : ∀ i < p.ysize - 1, ∀ j < p.xsize - 1, p.grady (i * (p.xsize - 1) + j) = .fin ((j + 1) * a i (j + 1))

/-- Total degree below `n`, as for Zernike coefficient arrays of shape `n x n`. -/
def Triangular (a : ℕ → ℕ → ℝ) (n : ℕ) : Prop := ∀ i j, n ≤ i + j → a i j = 0

theorem horner_range' (x : ℝ) (c : ℕ → ℝ) (n : ℕ) : ∀ s,
    (List.range' s n).foldr (fun i (res : Dbl) => res * Dbl.fin x + Dbl.fin (c i)) (Dbl.fin 0) =
      .fin (∑ k ∈ range n, c (s + k) * x ^ k) := by
  induction n with
  | zero => intro s; simp
  | succ n ih =>
    intro s
    rw [List.range'_succ, List.foldr_cons, ih, sum_range_succ']
    simp only [Dbl.mul_fin, Dbl.add_fin, Dbl.fin_inj, sum_mul, add_zero, pow_zero, mul_one]
    congr 1
    apply sum_congr rfl
    intro k _
    rw [show s + (k + 1) = s + 1 + k by ring]; ring

theorem foldr_congr_mem {α β : Type} {f g : α → β → β} {b : β} {l : List α} (h : ∀ a ∈ l, ∀ b, f a b = g a b) :
    l.foldr f b = l.foldr g b := by
  induction l with
  | nil => rfl
  | cons a l ih =>
    rw [List.foldr_cons, List.foldr_cons, ih fun c hc => h c (by simp [hc]), h a (by simp)]

theorem horner_fin {x : ℝ} {coefs : ℕ → Dbl} {c : ℕ → ℝ} {n : ℕ} (h : ∀ k < n, coefs k = .fin (c k)) :
    horner (Dbl.fin x) coefs n = .fin (∑ k ∈ range n, c k * x ^ k) := by
  unfold horner
  have := horner_range' x c n 0
  simp only [zero_add] at this
  rw [← this, List.range_eq_range', Dbl.zero_dbl]
  apply foldr_congr_mem
  intro k hk b
  rw [List.mem_range'_1] at hk
  rw [h k (by omega)]

theorem horner2d_fin {x y : ℝ} {coefs : ℕ → Dbl} {a : ℕ → ℕ → ℝ} {nx ny : ℕ}
    (h : ∀ i < ny, ∀ j < nx, coefs (i * nx + j) = .fin (a i j)) :
    horner2d (Dbl.fin x) (Dbl.fin y) coefs nx ny = .fin (polyValue a ny nx x y) := by
  unfold horner2d polyValue
  have := horner_range' x (fun i => ∑ j ∈ range nx, a i j * y ^ j) ny 0
  simp only [zero_add] at this
  have e : (∑ i ∈ range ny, ∑ j ∈ range nx, a i j * x ^ i * y ^ j) = ∑ k ∈ range ny, (∑ j ∈ range nx, a k j * y ^ j) * x ^ k := by
    apply sum_congr rfl; intro i _; rw [sum_mul]; apply sum_congr rfl; intro j _; ring
  rw [e, ← this, List.range_eq_range', Dbl.zero_dbl]
  apply foldr_congr_mem
  intro k hk b
  rw [List.mem_range'_1] at hk
  rw [horner_fin (c := fun j => a k j) (fun j hj => h k (by omega) j hj)]

/-- C25: the sag is the polynomial, centred at the origin of the surface. -/
theorem C25_sag {p : PolyData Dbl} {a : ℕ → ℕ → ℝ} {x0 y0 : ℝ} (ha : HoldsCoefs p a) (hx : p.xorigin = .fin x0)
    (hy : p.yorigin = .fin y0) (x y : ℝ) :
    (polynomial p).sag (.fin x) (.fin y) = .fin (polyValue a p.ysize p.xsize (x - x0) (y - y0)) := by
  show polySag _ _ _ = _
  unfold polySag
  rw [hx, hy, Dbl.sub_fin, Dbl.sub_fin, horner2d_fin ha]

theorem deriv_x (a : ℕ → ℕ → ℝ) (rows cols : ℕ) (x y : ℝ) :
    HasDerivAt (fun u => polyValue a rows cols u y) (polyValue (fun i j => (i + 1) * a (i + 1) j) (rows - 1) cols x y) x := by
  have h : HasDerivAt (fun u => polyValue a rows cols u y)
      (∑ i ∈ range rows, ∑ j ∈ range cols, a i j * (i * x ^ (i - 1)) * y ^ j) x := by
    unfold polyValue
    refine HasDerivAt.fun_sum fun i _ => HasDerivAt.fun_sum fun j _ => ?_
    exact ((hasDerivAt_pow i x).const_mul (a i j)).mul_const (y ^ j)
  refine h.congr_deriv ?_
  unfold polyValue
  cases rows with
  | zero => simp
  | succ n =>
    rw [sum_range_succ']
    simp only [Nat.cast_zero, zero_mul, mul_zero, sum_const_zero, add_zero, Nat.add_sub_cancel]
    apply sum_congr rfl; intro i _; apply sum_congr rfl; intro j _
    push_cast; ring

theorem deriv_y (a : ℕ → ℕ → ℝ) (rows cols : ℕ) (x y : ℝ) :
    HasDerivAt (fun w => polyValue a rows cols x w) (polyValue (fun i j => (j + 1) * a i (j + 1)) rows (cols - 1) x y) y := by
  have h : HasDerivAt (fun w => polyValue a rows cols x w)
      (∑ i ∈ range rows, ∑ j ∈ range cols, a i j * x ^ i * (j * y ^ (j - 1))) y := by
    unfold polyValue
    refine HasDerivAt.fun_sum fun i _ => HasDerivAt.fun_sum fun j _ => ?_
    exact (hasDerivAt_pow j y).const_mul (a i j * x ^ i)
  refine h.congr_deriv ?_
  unfold polyValue
  apply sum_congr rfl; intro i _
  cases cols with
  | zero => simp
  | succ n =>
    rw [sum_range_succ']
    simp only [Nat.cast_zero, zero_mul, mul_zero, add_zero, Nat.add_sub_cancel]
    apply sum_congr rfl; intro j _
    push_cast; ring

/-- Dropping the last column of zeros. -/
theorem polyValue_drop_col (a : ℕ → ℕ → ℝ) (rows cols : ℕ) (x y : ℝ) (h : ∀ i < rows, a i (cols - 1) = 0) :
    polyValue a rows (cols - 1) x y = polyValue a rows cols x y := by
  unfold polyValue
  apply sum_congr rfl; intro i hi
  cases cols with
  | zero => rfl
  | succ n =>
    rw [sum_range_succ, Nat.add_sub_cancel]
    have := h i (mem_range.mp hi)
    rw [Nat.add_sub_cancel] at this
    simp [this]

theorem polyValue_drop_row (a : ℕ → ℕ → ℝ) (rows cols : ℕ) (x y : ℝ) (h : ∀ j < cols, a (rows - 1) j = 0) :
    polyValue a (rows - 1) cols x y = polyValue a rows cols x y := by
  unfold polyValue
  cases rows with
  | zero => rfl
  | succ n =>
    rw [sum_range_succ, Nat.add_sub_cancel]
    rw [Nat.add_sub_cancel] at h
    have : ∑ j ∈ range cols, a n j * x ^ n * y ^ j = 0 := by
      apply sum_eq_zero; intro j hj; rw [h j (mem_range.mp hj)]; ring
    rw [this, add_zero]

/-- The real gradient arrays have a row and a column too few exactly by the terms named here. -/
structure NoLostTerms (a : ℕ → ℕ → ℝ) (rows cols : ℕ) : Prop where
  x : ∀ i, i + 1 < rows → a (i + 1) (cols - 1) = 0
  y : ∀ j, j + 1 < cols → a (rows - 1) (j + 1) = 0

/-- C25: the truncated derivative arrays of a triangular coefficient array lose no term. -/
theorem C25_no_term_lost {a : ℕ → ℕ → ℝ} {n : ℕ} (h : Triangular a n) : NoLostTerms a n n :=
  ⟨fun i hi => h _ _ (by omega), fun j hj => h _ _ (by omega)⟩

theorem polyNormal_fin {p : PolyData Dbl} {x y : Dbl} {gx gy : ℝ}
    (hx : horner2d (x - p.xorigin) (y - p.yorigin) p.gradx (p.xsize - 1) (p.ysize - 1) = .fin gx)
    (hy : horner2d (x - p.xorigin) (y - p.yorigin) p.grady (p.xsize - 1) (p.ysize - 1) = .fin gy) :
    polyNormal p x y = (unitNormal gx gy).fin := by
  unfold polyNormal
  rw [hx, hy]
  have hp := slope_pos gx gy
  have hs := (Real.sqrt_pos.mpr hp).ne'
  have e : -gx * -gx + -gy * -gy + 1 = 1 + gx * gx + gy * gy := by ring
  simp only [Dbl.one_dbl, Dbl.neg_fin, Dbl.mul_fin, Dbl.add_fin, e, Dbl.sqrt_fin hp.le, Dbl.div_fin hs]
  rfl

/-- C25: if no term is lost, the normal is the normal of the polynomial, at every point of the plane. -/
theorem C25_normal {p : PolyData Dbl} {a : ℕ → ℕ → ℝ} {x0 y0 : ℝ} (ha : HoldsCoefs p a) (hg : HoldsGradients p a)
    (hl : NoLostTerms a p.ysize p.xsize) (hx : p.xorigin = .fin x0) (hy : p.yorigin = .fin y0) :
    TrueNormals (polynomial p) Set.univ := by
  refine trueNormals_of isOpen_univ (fun x y => polyValue a p.ysize p.xsize (x - x0) (y - y0))
    (fun x y => polyValue (fun i j => (i + 1) * a (i + 1) j) (p.ysize - 1) (p.xsize - 1) (x - x0) (y - y0))
    (fun x y => polyValue (fun i j => (j + 1) * a i (j + 1)) (p.ysize - 1) (p.xsize - 1) (x - x0) (y - y0)) ?_ ?_ ?_ ?_
  · intro x y _; exact C25_sag ha hx hy x y
  · intro x y _
    rw [polyValue_drop_col (fun i j => (i + 1) * a (i + 1) j) _ _ _ _ (by
      intro i hi; rw [hl.x i (by omega), mul_zero])]
    have := deriv_x a p.ysize p.xsize (x - x0) (y - y0)
    have hs : HasDerivAt (fun u : ℝ => u - x0) 1 x := HasDerivAt.sub_const x0 (hasDerivAt_id' x)
    exact (HasDerivAt.comp x (h₂ := fun u => polyValue a p.ysize p.xsize u (y - y0)) (h := fun u => u - x0) this hs).congr_deriv
      (by ring)
  · intro x y _
    rw [polyValue_drop_row (fun i j => (j + 1) * a i (j + 1)) _ _ _ _ (by
      intro j hj; rw [hl.y j (by omega), mul_zero])]
    have := deriv_y a p.ysize p.xsize (x - x0) (y - y0)
    have hs : HasDerivAt (fun u : ℝ => u - y0) 1 y := HasDerivAt.sub_const y0 (hasDerivAt_id' y)
    exact (HasDerivAt.comp y (h₂ := fun u => polyValue a p.ysize p.xsize (x - x0) u) (h := fun u => u - y0) this hs).congr_deriv
      (by ring)
  · intro x y _
    refine polyNormal_fin ?_ ?_
    · rw [hx, hy, Dbl.sub_fin, Dbl.sub_fin, horner2d_fin hg.x]
    · rw [hx, hy, Dbl.sub_fin, Dbl.sub_fin, horner2d_fin hg.y]

/-- C25 for Zernike surfaces: square arrays of total degree below `n`. -/
theorem C25_zernike {p : PolyData Dbl} {a : ℕ → ℕ → ℝ} {x0 y0 : ℝ} (hsq : p.xsize = p.ysize) (ht : Triangular a p.xsize)
    (ha : HoldsCoefs p a) (hg : HoldsGradients p a) (hx : p.xorigin = .fin x0) (hy : p.yorigin = .fin y0) :
    TrueNormals (polynomial p) Set.univ :=
  C25_normal ha hg (hsq ▸ C25_no_term_lost ht) hx hy

/-- The array `[[0, 1], [1, 1]]`, i.e. `y + x + x y`, is not triangular; its truncated gradient arrays lose the cross
term and the normal is wrong. -/
theorem C25_lost_term_matters :
    ∃ p : PolyData Dbl, HoldsCoefs p (fun _ _ => 1) ∧ HoldsGradients p (fun _ _ => 1) ∧ p.xorigin = .fin 0 ∧
      p.yorigin = .fin 0 ∧ ¬ TrueNormals (polynomial p) Set.univ := by
  refine ⟨⟨fun _ => .fin 1, fun _ => .fin 1, fun _ => .fin 1, .fin 0, .fin 0, 2, 2⟩, fun i _ j _ => rfl, ⟨?_, ?_⟩, rfl, rfl, ?_⟩
  · intro i hi j hj
    simp only at hi hj ⊢
    have : i = 0 := by omega
    subst this; norm_num
  · intro i hi j hj
    simp only at hi hj ⊢
    have : j = 0 := by omega
    subst this; norm_num
  · intro h
    obtain ⟨n, hn, hN⟩ := h.normal (0, 1) trivial
    have hs := hN.slopes.1
    have hsag : ∀ x y : ℝ, (polynomial (⟨fun _ => .fin 1, fun _ => .fin 1, fun _ => .fin 1, .fin 0, .fin 0, 2, 2⟩ : PolyData Dbl)).sag
        (.fin x) (.fin y) = .fin (1 + y + (x + x * y)) := by
      intro x y
      rw [C25_sag (a := fun _ _ => 1) (x0 := 0) (y0 := 0) (fun i _ j _ => rfl) rfl rfl]
      simp [polyValue, sum_range_succ]
    simp only [hsag, realOf_fin] at hs
    have hd : HasDerivAt (fun u : ℝ => 1 + (1:ℝ) + (u + u * 1)) 2 0 :=
      (HasDerivAt.const_add (1 + 1 : ℝ) ((hasDerivAt_id' (0:ℝ)).fun_add ((hasDerivAt_id' (0:ℝ)).mul_const 1))).congr_deriv (by norm_num)
    have e := hs.unique hd
    have hc : n = unitNormal 1 1 := by
      rw [← V3.fin_inj, ← hn]
      refine polyNormal_fin ?_ ?_ <;>
      · rw [Dbl.sub_fin, Dbl.sub_fin, horner2d_fin (a := fun _ _ => 1) (fun _ _ _ _ => rfl)]
        simp [polyValue]
    rw [hc] at e
    have : (0:ℝ) < Real.sqrt (1 + 1 * 1 + 1 * 1) := by positivity
    simp only [unitNormal] at e
    field_simp at e
    norm_num at e

/-- A Zernike-like array: `a = x^2 + y^2` as a 3 x 3 array. -/
example : Triangular (fun i j => if (i, j) = (2, 0) ∨ (i, j) = (0, 2) then 1 else 0) 3 := by
  intro i j h
  show (if _ then (1:ℝ) else 0) = 0
  rw [if_neg]
  rintro (h | h) <;> simp only [Prod.mk.injEq] at h <;> omega

end Batoid.Props
