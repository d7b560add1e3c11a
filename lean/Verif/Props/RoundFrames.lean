import Mathlib.Data.Int.Log
import Mathlib.Algebra.Order.Round
import Verif.Rounding
import Mathlib.Data.Real.Sqrt
import Mathlib.Analysis.InnerProductSpace.PiL2
import Mathlib.Tactic.NormNum
import Mathlib.Tactic.Positivity

/-!
# Properties C111 and C112: changes of frame in arithmetic with rounding

Specification vocabulary: `Rounds u rd`, a rounding with relative error at most `u` (for double precision `2^-53`); the length
`nrm` of a vector; `Nearly δ m`, a matrix orthonormal up to `δ`.
-/

namespace Batoid.Props
open Batoid

section spec

/-- Rounding with relative error at most `u`. -/
structure Rounds (u : ℝ) (rd : ℝ → ℝ) : Prop where
  err : ∀ x, |rd x - x| ≤ u * |x|

/-- Length of a vector. -/
noncomputable def nrm (v : V3 ℝ) : ℝ := Real.sqrt (V3.normSq v)

/-- Difference and sum of matrices, and the Frobenius norm (root of the sum of the squares of all entries). -/
def M3.diff (a b : M3 ℝ) : M3 ℝ :=
  ⟨a.m11 - b.m11, a.m12 - b.m12, a.m13 - b.m13, a.m21 - b.m21, a.m22 - b.m22, a.m23 - b.m23, a.m31 - b.m31, a.m32 - b.m32,
    a.m33 - b.m33⟩
def M3.plus (a b : M3 ℝ) : M3 ℝ :=
  ⟨a.m11 + b.m11, a.m12 + b.m12, a.m13 + b.m13, a.m21 + b.m21, a.m22 + b.m22, a.m23 + b.m23, a.m31 + b.m31, a.m32 + b.m32,
    a.m33 + b.m33⟩
def frobSq (a : M3 ℝ) : ℝ :=
  a.m11 ^ 2 + a.m12 ^ 2 + a.m13 ^ 2 + a.m21 ^ 2 + a.m22 ^ 2 + a.m23 ^ 2 + a.m31 ^ 2 + a.m32 ^ 2 + a.m33 ^ 2
noncomputable def frob (a : M3 ℝ) : ℝ := Real.sqrt (frobSq a)

/-- The rows and columns are orthonormal up to `δ`: the Frobenius norm of `mᵀm - 1` is at most `δ`. -/
def Nearly (δ : ℝ) (m : M3 ℝ) : Prop := frob (M3.diff (m.tr.mul m) M3.one) ≤ δ

end spec

/-! ## Norms -/

section norms

theorem nrm_nonneg (v : V3 ℝ) : 0 ≤ nrm v := Real.sqrt_nonneg _
theorem frob_nonneg (a : M3 ℝ) : 0 ≤ frob a := Real.sqrt_nonneg _
theorem frobSq_nonneg (a : M3 ℝ) : 0 ≤ frobSq a := by unfold frobSq; positivity

theorem nrm_sq (v : V3 ℝ) : nrm v ^ 2 = v.x ^ 2 + v.y ^ 2 + v.z ^ 2 := by
  rw [nrm, Real.sq_sqrt (V3.normSq_nonneg v), V3.normSq, V3.dot]; ring
theorem frob_sq (a : M3 ℝ) : frob a ^ 2 = frobSq a := Real.sq_sqrt (frobSq_nonneg a)

theorem nrm_le {v : V3 ℝ} {c : ℝ} (hc : 0 ≤ c) (h : v.x ^ 2 + v.y ^ 2 + v.z ^ 2 ≤ c ^ 2) : nrm v ≤ c := by
  rw [← nrm_sq] at h
  exact le_of_sq_le_sq h hc
theorem frob_le {a : M3 ℝ} {c : ℝ} (hc : 0 ≤ c) (h : frobSq a ≤ c ^ 2) : frob a ≤ c := by
  rw [← frob_sq] at h
  exact le_of_sq_le_sq h hc

theorem dot_le (a b : V3 ℝ) : |V3.dot a b| ≤ nrm a * nrm b := by
  refine abs_le_of_sq_le_sq ?_ (mul_nonneg (nrm_nonneg _) (nrm_nonneg _))
  rw [mul_pow, nrm_sq, nrm_sq, V3.dot]
  nlinarith [sq_nonneg (a.x * b.y - a.y * b.x), sq_nonneg (a.x * b.z - a.z * b.x), sq_nonneg (a.y * b.z - a.z * b.y)]

/-- The sum of the absolute products. -/
theorem absDot_le (a b : V3 ℝ) : |a.x * b.x| + |a.y * b.y| + |a.z * b.z| ≤ nrm a * nrm b := by
  have h := dot_le ⟨|a.x|, |a.y|, |a.z|⟩ ⟨|b.x|, |b.y|, |b.z|⟩
  have e : ∀ v : V3 ℝ, nrm ⟨|v.x|, |v.y|, |v.z|⟩ = nrm v := by
    intro v
    simp [nrm, V3.normSq, V3.dot]
  rw [e, e] at h
  simp only [V3.dot] at h
  rw [abs_mul, abs_mul, abs_mul]
  exact (le_abs_self _).trans h

theorem nrm_add (a b : V3 ℝ) : nrm (a + b) ≤ nrm a + nrm b := by
  refine nrm_le (add_nonneg (nrm_nonneg _) (nrm_nonneg _)) ?_
  have h := (abs_le.1 (dot_le a b)).2
  have h1 := nrm_sq a
  have h2 := nrm_sq b
  simp only [V3.dot] at h
  simp only [V3.add_x, V3.add_y, V3.add_z]
  nlinarith

theorem nrm_neg (a : V3 ℝ) : nrm (-a) = nrm a := by simp [nrm, V3.normSq, V3.dot]

theorem nrm_sub (a b : V3 ℝ) : nrm (a - b) ≤ nrm a + nrm b := by
  have := nrm_add a (-b)
  rw [nrm_neg] at this
  have e : a - b = a + -b := by ext <;> simp [sub_eq_add_neg]
  rwa [e]

theorem nrm_sub_comm (a b : V3 ℝ) : nrm (a - b) = nrm (b - a) := by
  rw [← nrm_neg]
  congr 1
  ext <;> simp

/-- Going over an intermediate vector. -/
theorem nrm_via (a b c : V3 ℝ) : nrm (a - c) ≤ nrm (a - b) + nrm (b - c) := by
  have := nrm_add (a - b) (b - c)
  have e : a - b + (b - c) = a - c := by ext <;> simp
  rwa [e] at this

theorem nrm_close (a b : V3 ℝ) : nrm a ≤ nrm b + nrm (a - b) := by
  have := nrm_add b (a - b)
  have e : b + (a - b) = a := by ext <;> simp
  rwa [e] at this

def row1 (m : M3 ℝ) : V3 ℝ := ⟨m.m11, m.m12, m.m13⟩
def row2 (m : M3 ℝ) : V3 ℝ := ⟨m.m21, m.m22, m.m23⟩
def row3 (m : M3 ℝ) : V3 ℝ := ⟨m.m31, m.m32, m.m33⟩

theorem frobSq_rows (m : M3 ℝ) : frobSq m = nrm (row1 m) ^ 2 + nrm (row2 m) ^ 2 + nrm (row3 m) ^ 2 := by
  rw [nrm_sq, nrm_sq, nrm_sq]
  simp only [frobSq, row1, row2, row3]; ring

theorem frob_tr (m : M3 ℝ) : frob m.tr = frob m := by
  unfold frob frobSq M3.tr; congr 1; ring

theorem frobSq_cols (m : M3 ℝ) : frobSq m = nrm (row1 m.tr) ^ 2 + nrm (row2 m.tr) ^ 2 + nrm (row3 m.tr) ^ 2 := by
  rw [← frobSq_rows, ← frob_sq, ← frob_sq, frob_tr]

/-- A vector whose components are bounded by `c` times the lengths of the rows. -/
theorem nrm_rows {v : V3 ℝ} {m : M3 ℝ} {c : ℝ} (hc : 0 ≤ c) (h1 : |v.x| ≤ c * nrm (row1 m)) (h2 : |v.y| ≤ c * nrm (row2 m))
    (h3 : |v.z| ≤ c * nrm (row3 m)) : nrm v ≤ c * frob m := by
  refine nrm_le (mul_nonneg hc (frob_nonneg _)) ?_
  rw [mul_pow, frob_sq, frobSq_rows]
  have g1 := sq_le_sq' (by linarith [abs_nonneg v.x, neg_abs_le v.x]) ((le_abs_self _).trans h1)
  have g2 := sq_le_sq' (by linarith [abs_nonneg v.y, neg_abs_le v.y]) ((le_abs_self _).trans h2)
  have g3 := sq_le_sq' (by linarith [abs_nonneg v.z, neg_abs_le v.z]) ((le_abs_self _).trans h3)
  rw [mul_pow] at g1 g2 g3
  linarith

theorem nrm_mulVec (m : M3 ℝ) (v : V3 ℝ) : nrm (m.mulVec v) ≤ frob m * nrm v := by
  rw [mul_comm]
  refine nrm_rows (nrm_nonneg _) ?_ ?_ ?_
  · rw [mul_comm]; exact dot_le (row1 m) v
  · rw [mul_comm]; exact dot_le (row2 m) v
  · rw [mul_comm]; exact dot_le (row3 m) v

theorem frob_plus (a b : M3 ℝ) : frob (M3.plus a b) ≤ frob a + frob b := by
  have e : ∀ m : M3 ℝ, frob m = ‖(!₂[m.m11, m.m12, m.m13, m.m21, m.m22, m.m23, m.m31, m.m32, m.m33] : EuclideanSpace ℝ (Fin 9))‖ := by
    intro m
    rw [EuclideanSpace.norm_eq, frob, frobSq]
    congr 1
    simp [Fin.sum_univ_succ, sq_abs]
    ring
  rw [e, e, e]
  refine le_trans (le_of_eq ?_) (norm_add_le _ _)
  congr 1
  ext i
  fin_cases i <;> simp [M3.plus]

theorem frob_via (a b c : M3 ℝ) : frob (M3.diff a c) ≤ frob (M3.diff a b) + frob (M3.diff b c) := by
  have := frob_plus (M3.diff a b) (M3.diff b c)
  have e : M3.plus (M3.diff a b) (M3.diff b c) = M3.diff a c := by ext <;> simp [M3.plus, M3.diff]
  rwa [e] at this

theorem frob_close (a b : M3 ℝ) : frob a ≤ frob b + frob (M3.diff a b) := by
  have := frob_plus b (M3.diff a b)
  have e : M3.plus b (M3.diff a b) = a := by ext <;> simp [M3.plus, M3.diff]
  rwa [e] at this

/-- A bound of the lengths of images bounds the Frobenius norm of products. -/
theorem frob_mul_op {a b : M3 ℝ} {c : ℝ} (hc : 0 ≤ c) (h : ∀ v, nrm (a.mulVec v) ≤ c * nrm v) : frob (a.mul b) ≤ c * frob b := by
  refine frob_le (mul_nonneg hc (frob_nonneg _)) ?_
  rw [mul_pow, frob_sq, frobSq_cols, frobSq_cols b]
  have g : ∀ v, nrm (a.mulVec v) ^ 2 ≤ c ^ 2 * nrm v ^ 2 := fun v => by
    rw [← mul_pow]
    exact pow_le_pow_left₀ (nrm_nonneg _) (h v) 2
  have g1 := g (row1 b.tr)
  have g2 := g (row2 b.tr)
  have g3 := g (row3 b.tr)
  have e1 : row1 (a.mul b).tr = a.mulVec (row1 b.tr) := rfl
  have e2 : row2 (a.mul b).tr = a.mulVec (row2 b.tr) := rfl
  have e3 : row3 (a.mul b).tr = a.mulVec (row3 b.tr) := rfl
  rw [e1, e2, e3]
  linarith

theorem frob_mul (a b : M3 ℝ) : frob (a.mul b) ≤ frob a * frob b := frob_mul_op (frob_nonneg _) (nrm_mulVec a)

end norms

/-! ## Nearly orthonormal matrices -/

section nearly

theorem nearly_nonneg {δ : ℝ} {m : M3 ℝ} (h : Nearly δ m) : 0 ≤ δ := (frob_nonneg _).trans h

theorem nearly_of_orth {m : M3 ℝ} (h : m.Orth) : Nearly 0 m := by
  unfold Nearly
  rw [(M3.orth_iff m).1 h]
  refine frob_le le_rfl ?_
  simp [frobSq, M3.diff]

/-- Rows are orthonormal to the same degree as columns. -/
theorem Nearly.tr {δ : ℝ} {m : M3 ℝ} (h : Nearly δ m) : Nearly δ m.tr := by
  unfold Nearly at *
  refine le_trans (le_of_eq ?_) h
  unfold frob
  congr 1
  simp only [frobSq, M3.diff, M3.mul, M3.tr, M3.one]
  ring

/-- Images under a nearly orthonormal matrix. -/
theorem Nearly.op {δ : ℝ} {m : M3 ℝ} (h : Nearly δ m) (v : V3 ℝ) : nrm (m.mulVec v) ≤ (1 + δ / 2) * nrm v := by
  have hδ := nearly_nonneg h
  refine nrm_le (mul_nonneg (by linarith) (nrm_nonneg _)) ?_
  have h1 := dot_le v ((M3.diff (m.tr.mul m) M3.one).mulVec v)
  have h2 := nrm_mulVec (M3.diff (m.tr.mul m) M3.one) v
  have h3 : nrm ((M3.diff (m.tr.mul m) M3.one).mulVec v) ≤ δ * nrm v := h2.trans (mul_le_mul_of_nonneg_right h (nrm_nonneg _))
  have h4 : V3.dot v ((M3.diff (m.tr.mul m) M3.one).mulVec v) ≤ nrm v * (δ * nrm v) :=
    (le_abs_self _).trans (h1.trans (mul_le_mul_of_nonneg_left h3 (nrm_nonneg _)))
  have e : (m.mulVec v).x ^ 2 + (m.mulVec v).y ^ 2 + (m.mulVec v).z ^ 2 =
      (v.x ^ 2 + v.y ^ 2 + v.z ^ 2) + V3.dot v ((M3.diff (m.tr.mul m) M3.one).mulVec v) := by
    simp only [V3.dot, M3.mulVec, M3.diff, M3.mul, M3.tr, M3.one]; ring
  rw [e, ← nrm_sq]
  nlinarith [mul_nonneg (sq_nonneg δ) (sq_nonneg (nrm v))]

theorem Nearly.frob {δ : ℝ} {m : M3 ℝ} (h : Nearly δ m) : frob m ≤ 7 / 4 * (1 + δ / 2) := by
  have hδ := nearly_nonneg h
  have h1 := frob_mul_op (a := m) (b := M3.one) (c := 1 + δ / 2) (by linarith) h.op
  rw [M3.mul_one'] at h1
  have h2 : Props.frob M3.one ≤ 7 / 4 := frob_le (by norm_num) (by simp [frobSq, M3.one]; norm_num)
  nlinarith

theorem Nearly.mul {δ ε : ℝ} {a b : M3 ℝ} (ha : Nearly δ a) (hb : Nearly ε b) : Nearly (ε + (1 + ε / 2) ^ 2 * δ) (a.mul b) := by
  have hδ := nearly_nonneg ha
  have hε := nearly_nonneg hb
  unfold Nearly
  have e : M3.diff ((a.mul b).tr.mul (a.mul b)) M3.one =
      M3.plus (M3.diff (b.tr.mul b) M3.one) (b.tr.mul ((M3.diff (a.tr.mul a) M3.one).mul b)) := by
    ext <;> simp only [M3.diff, M3.plus, M3.mul, M3.tr, M3.one] <;> ring
  rw [e]
  refine (frob_plus _ _).trans (add_le_add hb ?_)
  have h1 := frob_mul_op (a := b.tr) (b := (M3.diff (a.tr.mul a) M3.one).mul b) (c := 1 + ε / 2) (by linarith) hb.tr.op
  have h2 : Props.frob ((M3.diff (a.tr.mul a) M3.one).mul b) ≤ (1 + ε / 2) * δ := by
    rw [← frob_tr, M3.tr_mul]
    refine (frob_mul_op (a := b.tr) (c := 1 + ε / 2) (by linarith) hb.tr.op).trans ?_
    rw [frob_tr]
    exact mul_le_mul_of_nonneg_left ha (by linarith)
  refine h1.trans ((mul_le_mul_of_nonneg_left h2 (by linarith)).trans (le_of_eq (by ring)))

end nearly

/-! ## Rounded sums -/

section rounded
variable {u : ℝ} {rd : ℝ → ℝ}

theorem Rounds.zero (h : Rounds u rd) : rd 0 = 0 := by
  have := h.err 0
  simpa using this

theorem Rounds.nonneg (h : Rounds u rd) : 0 ≤ u := by
  have := (abs_nonneg _).trans (h.err 1)
  simpa using this

/-- The sum of three products. -/
theorem Rounds.dot3 (h : Rounds u rd) (hu : u ≤ 1 / 4) (a b c d e f : ℝ) :
    |rd (rd (rd (a * b) + rd (c * d)) + rd (e * f)) - (a * b + c * d + e * f)| ≤ 4 * u * (|a * b| + |c * d| + |e * f|) := by
  have hu0 := h.nonneg
  generalize a * b = A, c * d = B, e * f = C
  have h1 := h.err A
  have h2 := h.err B
  have h3 := h.err C
  have h4 := h.err (rd A + rd B)
  have h5 := h.err (rd (rd A + rd B) + rd C)
  have a1 : |rd A| ≤ |A| + u * |A| := by
    have := abs_sub_abs_le_abs_sub (rd A) A; linarith
  have a2 : |rd B| ≤ |B| + u * |B| := by
    have := abs_sub_abs_le_abs_sub (rd B) B; linarith
  have a3 : |rd C| ≤ |C| + u * |C| := by
    have := abs_sub_abs_le_abs_sub (rd C) C; linarith
  have a4 : |rd A + rd B| ≤ (1 + u) * (|A| + |B|) := by
    have := abs_add_le (rd A) (rd B); linarith
  have a5 : |rd (rd A + rd B)| ≤ (1 + u) ^ 2 * (|A| + |B|) := by
    have := abs_sub_abs_le_abs_sub (rd (rd A + rd B)) (rd A + rd B)
    nlinarith
  have a6 : |rd (rd A + rd B) + rd C| ≤ (1 + u) ^ 2 * (|A| + |B|) + (1 + u) * |C| := by
    have := abs_add_le (rd (rd A + rd B)) (rd C); linarith
  have a7 := mul_le_mul_of_nonneg_left a6 hu0
  have a8 := mul_le_mul_of_nonneg_left a4 hu0
  have key : |rd (rd (rd A + rd B) + rd C) - (A + B + C)| ≤
      |rd (rd (rd A + rd B) + rd C) - (rd (rd A + rd B) + rd C)| + |rd (rd A + rd B) - (rd A + rd B)| +
        |rd A - A| + |rd B - B| + |rd C - C| := by
    have e : rd (rd (rd A + rd B) + rd C) - (A + B + C) = (rd (rd (rd A + rd B) + rd C) - (rd (rd A + rd B) + rd C)) +
      (rd (rd A + rd B) - (rd A + rd B)) + (rd A - A) + (rd B - B) + (rd C - C) := by ring
    rw [e]
    refine (abs_add_le _ _).trans (add_le_add ((abs_add_le _ _).trans (add_le_add ((abs_add_le _ _).trans (add_le_add
      (abs_add_le _ _) le_rfl)) le_rfl)) le_rfl)
  refine key.trans ?_
  have hAB : 0 ≤ |A| + |B| := by positivity
  have hC : 0 ≤ |C| := abs_nonneg C
  have p1 : u * ((1 + u) ^ 2 * (|A| + |B|)) + u * ((1 + u) * (|A| + |B|)) ≤ 3 * u * (|A| + |B|) := by
    have : (1 + u) ^ 2 + (1 + u) ≤ 3 := by nlinarith
    have := mul_le_mul_of_nonneg_right this (mul_nonneg hu0 hAB)
    linarith
  have p2 : u * ((1 + u) * |C|) ≤ 2 * u * |C| := by
    have := mul_le_mul_of_nonneg_right (show 1 + u ≤ 2 by linarith) (mul_nonneg hu0 hC)
    linarith
  have p3 : 0 ≤ u * |C| := mul_nonneg hu0 hC
  linarith

/-- Matrix times vector. -/
theorem Rounds.mulVec (h : Rounds u rd) (hu : u ≤ 1 / 4) (m : M3 ℝ) (v : V3 ℝ) :
    ∃ w : V3 ℝ, (m.flt rd).mulVec (v.flt rd) = w.flt rd ∧ nrm (w - m.mulVec v) ≤ 4 * u * (frob m * nrm v) := by
  have hu0 := h.nonneg
  refine ⟨⟨rd (rd (rd (m.m11 * v.x) + rd (m.m12 * v.y)) + rd (m.m13 * v.z)),
    rd (rd (rd (m.m21 * v.x) + rd (m.m22 * v.y)) + rd (m.m23 * v.z)),
    rd (rd (rd (m.m31 * v.x) + rd (m.m32 * v.y)) + rd (m.m33 * v.z))⟩, rfl, ?_⟩
  have hn := nrm_nonneg v
  rw [show 4 * u * (frob m * nrm v) = 4 * u * nrm v * frob m by ring]
  refine nrm_rows (by positivity) ?_ ?_ ?_
  · refine (h.dot3 hu _ _ _ _ _ _).trans ?_
    have := absDot_le (row1 m) v
    have := mul_le_mul_of_nonneg_left this (show 0 ≤ 4 * u by linarith)
    exact this.trans (le_of_eq (by ring))
  · refine (h.dot3 hu _ _ _ _ _ _).trans ?_
    have := absDot_le (row2 m) v
    have := mul_le_mul_of_nonneg_left this (show 0 ≤ 4 * u by linarith)
    exact this.trans (le_of_eq (by ring))
  · refine (h.dot3 hu _ _ _ _ _ _).trans ?_
    have := absDot_le (row3 m) v
    have := mul_le_mul_of_nonneg_left this (show 0 ≤ 4 * u by linarith)
    exact this.trans (le_of_eq (by ring))

/-- Matrix times matrix. -/
theorem Rounds.mul (h : Rounds u rd) (hu : u ≤ 1 / 4) (a b : M3 ℝ) :
    ∃ c : M3 ℝ, (a.flt rd).mul (b.flt rd) = c.flt rd ∧ frob (M3.diff c (a.mul b)) ≤ 4 * u * (frob a * frob b) := by
  have hu0 := h.nonneg
  obtain ⟨w1, e1, h1⟩ := h.mulVec hu a (row1 b.tr)
  obtain ⟨w2, e2, h2⟩ := h.mulVec hu a (row2 b.tr)
  obtain ⟨w3, e3, h3⟩ := h.mulVec hu a (row3 b.tr)
  refine ⟨⟨w1.x, w2.x, w3.x, w1.y, w2.y, w3.y, w1.z, w2.z, w3.z⟩, ?_, ?_⟩
  · have f1 := congrArg V3.x e1; have f2 := congrArg V3.y e1; have f3 := congrArg V3.z e1
    have g1 := congrArg V3.x e2; have g2 := congrArg V3.y e2; have g3 := congrArg V3.z e2
    have k1 := congrArg V3.x e3; have k2 := congrArg V3.y e3; have k3 := congrArg V3.z e3
    simp only [M3.mulVec, M3.flt, V3.flt, M3.map, V3.map, row1, row2, row3, M3.tr] at f1 f2 f3 g1 g2 g3 k1 k2 k3
    simp only [M3.mul, M3.flt, M3.map, f1, f2, f3, g1, g2, g3, k1, k2, k3]
  · have hn := frob_nonneg a
    have hb := frob_nonneg b
    refine frob_le (by positivity) ?_
    rw [frobSq_cols, show (4 * u * (frob a * frob b)) ^ 2 = (4 * u) ^ 2 * (frob a ^ 2 * frob b ^ 2) by ring, frob_sq b,
      frobSq_cols b]
    have g : ∀ w v : V3 ℝ, nrm (w - a.mulVec v) ≤ 4 * u * (frob a * nrm v) →
        nrm (w - a.mulVec v) ^ 2 ≤ (4 * u) ^ 2 * (frob a ^ 2 * nrm v ^ 2) := by
      intro w v h
      have := pow_le_pow_left₀ (nrm_nonneg _) h 2
      linarith [show (4 * u * (frob a * nrm v)) ^ 2 = (4 * u) ^ 2 * (frob a ^ 2 * nrm v ^ 2) by ring]
    have g1 := g _ _ h1
    have g2 := g _ _ h2
    have g3 := g _ _ h3
    have i1 : ∀ c, row1 (M3.diff c (a.mul b)).tr = row1 c.tr - a.mulVec (row1 b.tr) := fun c => rfl
    have i2 : ∀ c, row2 (M3.diff c (a.mul b)).tr = row2 c.tr - a.mulVec (row2 b.tr) := fun c => rfl
    have i3 : ∀ c, row3 (M3.diff c (a.mul b)).tr = row3 c.tr - a.mulVec (row3 b.tr) := fun c => rfl
    rw [i1, i2, i3]
    have j1 : row1 (M3.tr (⟨w1.x, w2.x, w3.x, w1.y, w2.y, w3.y, w1.z, w2.z, w3.z⟩ : M3 ℝ)) = w1 := rfl
    have j2 : row2 (M3.tr (⟨w1.x, w2.x, w3.x, w1.y, w2.y, w3.y, w1.z, w2.z, w3.z⟩ : M3 ℝ)) = w2 := rfl
    have j3 : row3 (M3.tr (⟨w1.x, w2.x, w3.x, w1.y, w2.y, w3.y, w1.z, w2.z, w3.z⟩ : M3 ℝ)) = w3 := rfl
    rw [j1, j2, j3]
    linarith

theorem Rounds.vec (h : Rounds u rd) {w v : V3 ℝ} (hx : w.x = rd v.x) (hy : w.y = rd v.y) (hz : w.z = rd v.z) :
    nrm (w - v) ≤ u * nrm v := by
  have hu0 := h.nonneg
  refine nrm_le (mul_nonneg hu0 (nrm_nonneg _)) ?_
  rw [mul_pow, nrm_sq]
  have g : ∀ x, (rd x - x) ^ 2 ≤ u ^ 2 * x ^ 2 := fun x => by
    rw [← sq_abs (rd x - x), ← sq_abs x, ← mul_pow]
    exact pow_le_pow_left₀ (abs_nonneg _) (h.err x) 2
  simp only [V3.sub_x, V3.sub_y, V3.sub_z, hx, hy, hz]
  linarith [g v.x, g v.y, g v.z]

theorem Rounds.sub (h : Rounds u rd) (a b : V3 ℝ) :
    ∃ w : V3 ℝ, a.flt rd - b.flt rd = w.flt rd ∧ nrm (w - (a - b)) ≤ u * nrm (a - b) :=
  ⟨⟨rd (a.x - b.x), rd (a.y - b.y), rd (a.z - b.z)⟩, by ext <;> simp [V3.flt], h.vec rfl rfl rfl⟩

theorem Rounds.add (h : Rounds u rd) (a b : V3 ℝ) :
    ∃ w : V3 ℝ, a.flt rd + b.flt rd = w.flt rd ∧ nrm (w - (a + b)) ≤ u * nrm (a + b) :=
  ⟨⟨rd (a.x + b.x), rd (a.y + b.y), rd (a.z + b.z)⟩, by ext <;> simp [V3.flt], h.vec rfl rfl rfl⟩

end rounded

/-! ## C111: changes of frame -/

section c111
variable {u δ : ℝ} {rd : ℝ → ℝ}

theorem M3.mulVec_diff (a b : M3 ℝ) (v : V3 ℝ) : (M3.diff a b).mulVec v = a.mulVec v - b.mulVec v := by
  ext <;> simp [M3.mulVec, M3.diff] <;> ring

theorem M3.diff_tr (a b : M3 ℝ) : M3.diff a.tr b.tr = (M3.diff a b).tr := rfl

/-- A computed product of a stored matrix near `m` and a stored vector near `v`. -/
theorem Rounds.mulVec_near (h : Rounds u rd) (hu : u ≤ 1 / 4) {m m' : M3 ℝ} {v v' : V3 ℝ} {o e f M V : ℝ}
    (hop : ∀ w, nrm (m.mulVec w) ≤ o * nrm w) (hm : frob (M3.diff m' m) ≤ e) (hv : nrm (v' - v) ≤ f) (hM : frob m' ≤ M)
    (hV : nrm v' ≤ V) (ho : 0 ≤ o) :
    ∃ w : V3 ℝ, (m'.flt rd).mulVec (v'.flt rd) = w.flt rd ∧ nrm (w - m.mulVec v) ≤ 4 * u * (M * V) + e * V + o * f := by
  have hu0 := h.nonneg
  obtain ⟨w, hw, hw'⟩ := h.mulVec hu m' v'
  refine ⟨w, hw, ?_⟩
  have h1 := nrm_via w (m'.mulVec v') (m.mulVec v)
  have h2 := nrm_via (m'.mulVec v') (m.mulVec v') (m.mulVec v)
  have h3 : nrm (m'.mulVec v' - m.mulVec v') ≤ e * V := by
    rw [← M3.mulVec_diff]
    exact (nrm_mulVec _ _).trans (mul_le_mul hm hV (nrm_nonneg _) ((frob_nonneg _).trans hm))
  have h4 : nrm (m.mulVec v' - m.mulVec v) ≤ o * f := by
    rw [← M3.mulVec_sub]
    exact (hop _).trans (mul_le_mul_of_nonneg_left hv ho)
  have h5 : 4 * u * (frob m' * nrm v') ≤ 4 * u * (M * V) :=
    mul_le_mul_of_nonneg_left (mul_le_mul hM hV (nrm_nonneg _) ((frob_nonneg _).trans hM)) (by linarith)
  linarith

/-- The attributes of a computed `CoordTransform`. -/
theorem make_near (h : Rounds u rd) (hu : u ≤ 1 / 1000) {a b : CoordSys ℝ} (ha : Nearly δ a.rot) (hb : Nearly δ b.rot)
    (hδ : δ ≤ 1 / 100) : ∃ (dr : V3 ℝ) (drot : M3 ℝ),
    CoordTransform.make (a.flt rd) (b.flt rd) = ⟨a.flt rd, b.flt rd, dr.flt rd, drot.flt rd⟩ ∧
    nrm (dr - (CoordTransform.make a b).dr) ≤ 9 * u * nrm (b.origin - a.origin) ∧
    frob (M3.diff drot (CoordTransform.make a b).drot) ≤ 13 * u := by
  have hu0 := h.nonneg
  have hδ0 := nearly_nonneg ha
  have fa := ha.frob
  have fb := hb.frob
  have D0 := nrm_nonneg (b.origin - a.origin)
  obtain ⟨d, hd, hd'⟩ := h.sub b.origin a.origin
  have hdl := nrm_close d (b.origin - a.origin)
  have hV : nrm d ≤ 1001 / 1000 * nrm (b.origin - a.origin) := by nlinarith
  have hM : frob a.rot.tr ≤ 176 / 100 := by rw [frob_tr]; linarith
  have hop : ∀ w, nrm (a.rot.tr.mulVec w) ≤ 201 / 200 * nrm w := fun w =>
    (ha.tr.op w).trans (mul_le_mul_of_nonneg_right (by linarith) (nrm_nonneg _))
  have h0 : frob (M3.diff a.rot.tr a.rot.tr) ≤ 0 := frob_le le_rfl (by simp [frobSq, M3.diff])
  obtain ⟨dr, hdr, hdr'⟩ := h.mulVec_near (by linarith) hop h0 hd' hM hV (by norm_num)
  obtain ⟨drot, hdrot, hdrot'⟩ := h.mul (by linarith) a.rot.tr b.rot
  refine ⟨dr, drot, ?_, ?_, ?_⟩
  · show (⟨a.flt rd, b.flt rd, (a.rot.tr.flt rd).mulVec (b.origin.flt rd - a.origin.flt rd),
      (a.rot.tr.flt rd).mul (b.rot.flt rd)⟩ : CoordTransform (Flt rd)) = _
    rw [hd, hdr, hdrot]
  · refine hdr'.trans ?_
    generalize nrm (b.origin - a.origin) = D at *
    have := mul_nonneg hu0 D0
    nlinarith
  · refine hdrot'.trans ?_
    have : frob a.rot.tr * frob b.rot ≤ 176 / 100 * (176 / 100) :=
      mul_le_mul hM (by linarith) (frob_nonneg _) (by norm_num)
    have := mul_le_mul_of_nonneg_left this (show 0 ≤ 4 * u by linarith)
    linarith

/-- Sizes of the computed `drot`. -/
theorem drot_size (hu : u ≤ 1 / 1000) {a b : CoordSys ℝ} (ha : Nearly δ a.rot) (hb : Nearly δ b.rot)
    (hδ : δ ≤ 1 / 100) {drot : M3 ℝ} (h : frob (M3.diff drot (CoordTransform.make a b).drot) ≤ 13 * u) :
    frob drot ≤ 179 / 100 ∧ (∀ w, nrm ((CoordTransform.make a b).drot.mulVec w) ≤ 102 / 100 * nrm w) ∧
      (∀ w, nrm ((CoordTransform.make a b).drot.tr.mulVec w) ≤ 102 / 100 * nrm w) := by
  have hδ0 := nearly_nonneg ha
  have opa : ∀ w, nrm (a.rot.tr.mulVec w) ≤ 201 / 200 * nrm w := fun w =>
    (ha.tr.op w).trans (mul_le_mul_of_nonneg_right (by linarith) (nrm_nonneg _))
  have opa' : ∀ w, nrm (a.rot.mulVec w) ≤ 201 / 200 * nrm w := fun w =>
    (ha.op w).trans (mul_le_mul_of_nonneg_right (by linarith) (nrm_nonneg _))
  have opb : ∀ w, nrm (b.rot.mulVec w) ≤ 201 / 200 * nrm w := fun w =>
    (hb.op w).trans (mul_le_mul_of_nonneg_right (by linarith) (nrm_nonneg _))
  have opb' : ∀ w, nrm (b.rot.tr.mulVec w) ≤ 201 / 200 * nrm w := fun w =>
    (hb.tr.op w).trans (mul_le_mul_of_nonneg_right (by linarith) (nrm_nonneg _))
  refine ⟨?_, fun w => ?_, fun w => ?_⟩
  · have h1 := frob_close drot (CoordTransform.make a b).drot
    have h2 : frob (CoordTransform.make a b).drot ≤ 201 / 200 * frob b.rot := frob_mul_op (by norm_num) opa
    have h3 := hb.frob
    linarith
  · show nrm ((a.rot.tr.mul b.rot).mulVec w) ≤ _
    rw [M3.mul_mulVec]
    have := opa (b.rot.mulVec w)
    have := opb w
    have := nrm_nonneg w
    linarith
  · show nrm ((a.rot.tr.mul b.rot).tr.mulVec w) ≤ _
    rw [M3.tr_mul, M3.tr_tr, M3.mul_mulVec]
    have := opb' (a.rot.mulVec w)
    have := opa' w
    have := nrm_nonneg w
    linarith

theorem dr_size {a b : CoordSys ℝ} (ha : Nearly δ a.rot) (hδ : δ ≤ 1 / 100) :
    nrm (CoordTransform.make a b).dr ≤ 201 / 200 * nrm (b.origin - a.origin) :=
  (ha.tr.op _).trans (mul_le_mul_of_nonneg_right (by linarith) (nrm_nonneg _))

/-- The exact formula of the code against the composition of the two frames. -/
theorem forward_defect {a b : CoordSys ℝ} (ha : Nearly δ a.rot) (hb : Nearly δ b.rot) (hδ : δ ≤ 1 / 100) (r : V3 ℝ) :
    nrm ((CoordTransform.make a b).forward r - b.toLocal (a.toGlobal r)) ≤ 2 * δ * nrm (b.origin - a.origin) := by
  have hδ0 := nearly_nonneg ha
  have e : (CoordTransform.make a b).forward r - b.toLocal (a.toGlobal r) =
      b.rot.tr.mulVec (-((M3.diff (a.rot.tr.tr.mul a.rot.tr) M3.one).mulVec (b.origin - a.origin))) := by
    ext <;> simp [CoordTransform.forward, CoordTransform.make, CoordSys.toLocal, CoordSys.toGlobal, M3.mulVec, M3.mul, M3.tr,
      M3.diff, M3.one] <;> ring
  rw [e]
  refine (hb.tr.op _).trans ?_
  rw [nrm_neg]
  have h1 : nrm ((M3.diff (a.rot.tr.tr.mul a.rot.tr) M3.one).mulVec (b.origin - a.origin)) ≤ δ * nrm (b.origin - a.origin) :=
    (nrm_mulVec _ _).trans (mul_le_mul_of_nonneg_right ha.tr (nrm_nonneg _))
  have h2 := mul_nonneg hδ0 (nrm_nonneg (b.origin - a.origin))
  have h3 := nrm_nonneg ((M3.diff (a.rot.tr.tr.mul a.rot.tr) M3.one).mulVec (b.origin - a.origin))
  nlinarith

/-- C111: a computed point in another frame (`CoordTransform.applyForward`, `toCoordSys`) is off by at most 40 roundings of the
distances involved, besides twice the error of the frame's orthonormality. -/
theorem C111_forward (h : Rounds u rd) (hu : u ≤ 1 / 1000) {a b : CoordSys ℝ} (ha : Nearly δ a.rot) (hb : Nearly δ b.rot)
    (hδ : δ ≤ 1 / 100) (r : V3 ℝ) : ∃ q : V3 ℝ, (CoordTransform.make (a.flt rd) (b.flt rd)).forward (r.flt rd) = q.flt rd ∧
      nrm (q - b.toLocal (a.toGlobal r)) ≤
        40 * u * (nrm r + nrm (b.origin - a.origin)) + 2 * δ * nrm (b.origin - a.origin) := by
  have hu0 := h.nonneg
  obtain ⟨dr, drot, e, h1, h2⟩ := make_near h hu ha hb hδ
  obtain ⟨s1, s2, s3⟩ := drot_size hu ha hb hδ h2
  have s4 := dr_size (b := b) ha hδ
  have s5 := forward_defect ha hb hδ r
  obtain ⟨s, hs, hs'⟩ := h.sub r dr
  have R0 := nrm_nonneg r
  have D0 := nrm_nonneg (b.origin - a.origin)
  have t1 := nrm_close dr (CoordTransform.make a b).dr
  have t2 := nrm_sub r dr
  have t3 := nrm_close s (r - dr)
  have t4 := nrm_via s (r - dr) (r - (CoordTransform.make a b).dr)
  have t5 : nrm (r - dr - (r - (CoordTransform.make a b).dr)) = nrm (dr - (CoordTransform.make a b).dr) := by
    rw [nrm_sub_comm]
    congr 1
    ext <;> simp
  rw [t5] at t4
  have uD : u * nrm (b.origin - a.origin) ≤ 1 / 1000 * nrm (b.origin - a.origin) := mul_le_mul_of_nonneg_right hu D0
  have uD0 := mul_nonneg hu0 D0
  have uR0 := mul_nonneg hu0 R0
  have t6 : nrm dr ≤ 102 / 100 * nrm (b.origin - a.origin) := by linarith
  have t7 : nrm (r - dr) ≤ nrm r + 102 / 100 * nrm (b.origin - a.origin) := by linarith
  have t8 : u * nrm (r - dr) ≤ u * (nrm r + 102 / 100 * nrm (b.origin - a.origin)) := mul_le_mul_of_nonneg_left t7 hu0
  have t9 : u * nrm (r - dr) ≤ 1 / 1000 * nrm (r - dr) := mul_le_mul_of_nonneg_right hu (nrm_nonneg _)
  have hV : nrm s ≤ 103 / 100 * (nrm r + nrm (b.origin - a.origin)) := by linarith
  have hf : nrm (s - (r - (CoordTransform.make a b).dr)) ≤ 11 * u * (nrm r + nrm (b.origin - a.origin)) := by linarith
  have hM : frob (M3.diff drot.tr (CoordTransform.make a b).drot.tr) ≤ 13 * u := by rwa [M3.diff_tr, frob_tr]
  obtain ⟨q, hq, hq'⟩ := h.mulVec_near (by linarith) s3 hM hf (show frob drot.tr ≤ 179 / 100 by rw [frob_tr]; exact s1) hV (by norm_num)
  refine ⟨q, ?_, ?_⟩
  · rw [e]
    show (drot.tr.flt rd).mulVec (r.flt rd - dr.flt rd) = _
    rw [hs, hq]
  · have t := nrm_via q ((CoordTransform.make a b).forward r) (b.toLocal (a.toGlobal r))
    have hq'' : nrm (q - (CoordTransform.make a b).forward r) ≤ 40 * u * (nrm r + nrm (b.origin - a.origin)) := by
      refine hq'.trans ?_
      have := mul_nonneg hu0 (add_nonneg R0 D0)
      nlinarith
    linarith

/-- C111: a computed velocity in another frame is off by at most 25 roundings of its length. -/
theorem C111_velocity (h : Rounds u rd) (hu : u ≤ 1 / 1000) {a b : CoordSys ℝ} (ha : Nearly δ a.rot) (hb : Nearly δ b.rot)
    (hδ : δ ≤ 1 / 100) (v : V3 ℝ) : ∃ w : V3 ℝ, (CoordTransform.make (a.flt rd) (b.flt rd)).forwardVel (v.flt rd) = w.flt rd ∧
      nrm (w - b.rot.tr.mulVec (a.rot.mulVec v)) ≤ 25 * u * nrm v := by
  have hu0 := h.nonneg
  obtain ⟨dr, drot, e, h1, h2⟩ := make_near h hu ha hb hδ
  obtain ⟨s1, s2, s3⟩ := drot_size hu ha hb hδ h2
  have hM : frob (M3.diff drot.tr (CoordTransform.make a b).drot.tr) ≤ 13 * u := by rwa [M3.diff_tr, frob_tr]
  have h0 : nrm (v - v) ≤ 0 := nrm_le le_rfl (by simp)
  obtain ⟨w, hw, hw'⟩ := h.mulVec_near (by linarith) s3 hM h0 (show frob drot.tr ≤ 179 / 100 by rw [frob_tr]; exact s1) le_rfl (by norm_num)
  refine ⟨w, by rw [e]; exact hw, ?_⟩
  rw [← CoordSys.forwardVel_eq]
  refine hw'.trans ?_
  have := mul_nonneg hu0 (nrm_nonneg v)
  nlinarith

/-- C111: and so is a velocity on the way back. -/
theorem C111_velocity_back (h : Rounds u rd) (hu : u ≤ 1 / 1000) {a b : CoordSys ℝ} (ha : Nearly δ a.rot) (hb : Nearly δ b.rot)
    (hδ : δ ≤ 1 / 100) (v : V3 ℝ) : ∃ w : V3 ℝ, (CoordTransform.make (a.flt rd) (b.flt rd)).reverseVel (v.flt rd) = w.flt rd ∧
      nrm (w - a.rot.tr.mulVec (b.rot.mulVec v)) ≤ 25 * u * nrm v := by
  have hu0 := h.nonneg
  obtain ⟨dr, drot, e, h1, h2⟩ := make_near h hu ha hb hδ
  obtain ⟨s1, s2, s3⟩ := drot_size hu ha hb hδ h2
  have h0 : nrm (v - v) ≤ 0 := nrm_le le_rfl (by simp)
  obtain ⟨w, hw, hw'⟩ := h.mulVec_near (by linarith) s2 h2 h0 s1 le_rfl (by norm_num)
  refine ⟨w, by rw [e]; exact hw, ?_⟩
  have e' : a.rot.tr.mulVec (b.rot.mulVec v) = (CoordTransform.make a b).drot.mulVec v := by
    ext <;> simp [CoordTransform.make, M3.mulVec, M3.mul, M3.tr] <;> ring
  rw [e']
  refine hw'.trans ?_
  have := mul_nonneg hu0 (nrm_nonneg v)
  nlinarith

/-- C111: the way back, `CoordTransform.applyReverse`. -/
theorem C111_reverse (h : Rounds u rd) (hu : u ≤ 1 / 1000) {a b : CoordSys ℝ} (ha : Nearly δ a.rot) (hb : Nearly δ b.rot)
    (hδ : δ ≤ 1 / 100) (r : V3 ℝ) : ∃ q : V3 ℝ, (CoordTransform.make (a.flt rd) (b.flt rd)).reverse (r.flt rd) = q.flt rd ∧
      nrm (q - a.toLocal (b.toGlobal r)) ≤ 25 * u * (nrm r + nrm (b.origin - a.origin)) := by
  have hu0 := h.nonneg
  obtain ⟨dr, drot, e, h1, h2⟩ := make_near h hu ha hb hδ
  obtain ⟨s1, s2, s3⟩ := drot_size hu ha hb hδ h2
  have s4 := dr_size (b := b) ha hδ
  have h0 : nrm (r - r) ≤ 0 := nrm_le le_rfl (by simp)
  obtain ⟨w, hw, hw'⟩ := h.mulVec_near (by linarith) s2 h2 h0 s1 le_rfl (by norm_num)
  obtain ⟨q, hq, hq'⟩ := h.add w dr
  refine ⟨q, by rw [e]; show (drot.flt rd).mulVec (r.flt rd) + dr.flt rd = _; rw [hw, hq], ?_⟩
  rw [← CoordSys.reverse_eq]
  have R0 := nrm_nonneg r
  have D0 := nrm_nonneg (b.origin - a.origin)
  have uD0 := mul_nonneg hu0 D0
  have uR0 := mul_nonneg hu0 R0
  have t1 := nrm_via q (w + dr) ((CoordTransform.make a b).reverse r)
  have t2 : nrm (w + dr - (CoordTransform.make a b).reverse r) ≤
      nrm (w - (CoordTransform.make a b).drot.mulVec r) + nrm (dr - (CoordTransform.make a b).dr) := by
    refine le_trans (le_of_eq ?_) (nrm_add _ _)
    congr 1
    ext <;> simp [CoordTransform.reverse] <;> ring
  have t3 := nrm_add w dr
  have t4 := nrm_close w ((CoordTransform.make a b).drot.mulVec r)
  have t5 := s2 r
  have t6 := nrm_close dr (CoordTransform.make a b).dr
  have w1 : nrm (w - (CoordTransform.make a b).drot.mulVec r) ≤ 21 * u * nrm r := by
    refine hw'.trans ?_
    nlinarith
  have uR : u * nrm r ≤ 1 / 1000 * nrm r := mul_le_mul_of_nonneg_right hu R0
  have uD : u * nrm (b.origin - a.origin) ≤ 1 / 1000 * nrm (b.origin - a.origin) := mul_le_mul_of_nonneg_right hu D0
  have t7 : nrm (w + dr) ≤ 2 * (nrm r + nrm (b.origin - a.origin)) := by linarith
  have t8 := mul_le_mul_of_nonneg_left t7 hu0
  linarith

/-- C111: going to another frame and back returns every point up to 100 roundings of the distances involved and 5 times the error of
orthonormality. -/
theorem C111_round_trip (h : Rounds u rd) (hu : u ≤ 1 / 1000) {a b : CoordSys ℝ} (ha : Nearly δ a.rot) (hb : Nearly δ b.rot)
    (hδ : δ ≤ 1 / 100) (r : V3 ℝ) : ∃ q : V3 ℝ, (CoordTransform.make (a.flt rd) (b.flt rd)).reverse
        ((CoordTransform.make (a.flt rd) (b.flt rd)).forward (r.flt rd)) = q.flt rd ∧
      nrm (q - r) ≤ (100 * u + 5 * δ) * (nrm r + nrm (b.origin - a.origin)) := by
  have hu0 := h.nonneg
  have hδ0 := nearly_nonneg ha
  obtain ⟨p, hp, hp'⟩ := C111_forward h hu ha hb hδ r
  obtain ⟨q, hq, hq'⟩ := C111_reverse h hu ha hb hδ p
  refine ⟨q, by rw [hp, hq], ?_⟩
  have R0 := nrm_nonneg r
  have D0 := nrm_nonneg (b.origin - a.origin)
  have opa : ∀ w, nrm (a.rot.tr.mulVec w) ≤ 201 / 200 * nrm w := fun w =>
    (ha.tr.op w).trans (mul_le_mul_of_nonneg_right (by linarith) (nrm_nonneg _))
  have opb : ∀ w, nrm (b.rot.mulVec w) ≤ 201 / 200 * nrm w := fun w =>
    (hb.op w).trans (mul_le_mul_of_nonneg_right (by linarith) (nrm_nonneg _))
  have opb' : ∀ w, nrm (b.rot.tr.mulVec w) ≤ 201 / 200 * nrm w := fun w =>
    (hb.tr.op w).trans (mul_le_mul_of_nonneg_right (by linarith) (nrm_nonneg _))
  have opa' : ∀ w, nrm (a.rot.mulVec w) ≤ 201 / 200 * nrm w := fun w =>
    (ha.op w).trans (mul_le_mul_of_nonneg_right (by linarith) (nrm_nonneg _))
  -- the point seen from `b`
  have x1 : nrm (a.toGlobal r - b.origin) ≤ 201 / 200 * nrm r + nrm (b.origin - a.origin) := by
    have e : a.toGlobal r - b.origin = a.rot.mulVec r - (b.origin - a.origin) := by
      ext <;> simp [CoordSys.toGlobal] <;> ring
    rw [e]
    have := nrm_sub (a.rot.mulVec r) (b.origin - a.origin)
    have := opa' r
    linarith
  have x2 : nrm (b.toLocal (a.toGlobal r)) ≤ 201 / 200 * nrm (a.toGlobal r - b.origin) := opb' _
  have x3 := nrm_close p (b.toLocal (a.toGlobal r))
  -- the three parts of the error
  have y1 := nrm_via q (a.toLocal (b.toGlobal p)) r
  have y2 := nrm_via (a.toLocal (b.toGlobal p)) (a.toLocal (b.toGlobal (b.toLocal (a.toGlobal r)))) r
  have y3 : nrm (a.toLocal (b.toGlobal p) - a.toLocal (b.toGlobal (b.toLocal (a.toGlobal r)))) ≤
      102 / 100 * nrm (p - b.toLocal (a.toGlobal r)) := by
    have e : a.toLocal (b.toGlobal p) - a.toLocal (b.toGlobal (b.toLocal (a.toGlobal r))) =
        a.rot.tr.mulVec (b.rot.mulVec (p - b.toLocal (a.toGlobal r))) := by
      generalize b.toLocal (a.toGlobal r) = z
      ext <;> simp [CoordSys.toLocal, CoordSys.toGlobal, M3.mulVec] <;> ring
    rw [e]
    have := opa (b.rot.mulVec (p - b.toLocal (a.toGlobal r)))
    have := opb (p - b.toLocal (a.toGlobal r))
    have := nrm_nonneg (p - b.toLocal (a.toGlobal r))
    linarith
  have y4 : nrm (a.toLocal (b.toGlobal (b.toLocal (a.toGlobal r))) - r) ≤
      201 / 200 * (δ * nrm (a.toGlobal r - b.origin)) + δ * nrm r := by
    have e : a.toLocal (b.toGlobal (b.toLocal (a.toGlobal r))) - r =
        a.rot.tr.mulVec ((M3.diff (b.rot.tr.tr.mul b.rot.tr) M3.one).mulVec (a.toGlobal r - b.origin)) +
          (M3.diff (a.rot.tr.mul a.rot) M3.one).mulVec r := by
      ext <;> simp [CoordSys.toLocal, CoordSys.toGlobal, M3.mulVec, M3.mul, M3.tr, M3.diff, M3.one] <;> ring
    rw [e]
    refine (nrm_add _ _).trans (add_le_add ((opa _).trans (mul_le_mul_of_nonneg_left ?_ (by norm_num))) ?_)
    · exact (nrm_mulVec _ _).trans (mul_le_mul_of_nonneg_right hb.tr (nrm_nonneg _))
    · exact (nrm_mulVec _ _).trans (mul_le_mul_of_nonneg_right ha (nrm_nonneg _))
  generalize nrm (b.origin - a.origin) = D at *
  generalize nrm r = R at *
  have uS := mul_nonneg hu0 (add_nonneg R0 D0)
  have dS := mul_nonneg hδ0 (add_nonneg R0 D0)
  have dD := mul_nonneg hδ0 D0
  have dR := mul_nonneg hδ0 R0
  have uS' : u * (R + D) ≤ 1 / 1000 * (R + D) := mul_le_mul_of_nonneg_right hu (add_nonneg R0 D0)
  have dD' : δ * D ≤ 1 / 100 * D := mul_le_mul_of_nonneg_right hδ D0
  have z1 : nrm p ≤ 11 / 10 * (R + D) := by linarith
  have z2 : u * nrm p ≤ u * (11 / 10 * (R + D)) := mul_le_mul_of_nonneg_left z1 hu0
  have z3 : δ * nrm (a.toGlobal r - b.origin) ≤ δ * (201 / 200 * R + D) := mul_le_mul_of_nonneg_left x1 hδ0
  have uD := mul_nonneg hu0 D0
  have uR := mul_nonneg hu0 R0
  linarith

end c111

/-! ## C112: histories of edits -/

section c112
variable {u δ : ℝ} {rd : ℝ → ℝ}

/-- An edit of a frame with stored numbers. -/
inductive StoredOp where
  | shiftGlobal (dr : V3 ℝ)
  | shiftLocal (dr : V3 ℝ)
  | rotateGlobal (rot : M3 ℝ) (center : V3 ℝ) (cs : Option (CoordSys ℝ))
  | rotateLocal (rot : M3 ℝ) (center : V3 ℝ) (cs : Option (CoordSys ℝ))

/-- Its rotation matrix is orthonormal up to `δ`. -/
def StoredOp.Ok (δ : ℝ) : StoredOp → Prop
  | .rotateGlobal r _ _ => Nearly δ r
  | .rotateLocal r _ _ => Nearly δ r
  | _ => True

/-- The edit as computed with rounding, and exactly. -/
noncomputable def StoredOp.run (rd : ℝ → ℝ) (c : CoordSys (Flt rd)) : StoredOp → CoordSys (Flt rd)
  | .shiftGlobal d => c.shiftGlobal (d.flt rd)
  | .shiftLocal d => c.shiftLocal (d.flt rd)
  | .rotateGlobal r ce cs => c.rotateGlobal (r.flt rd) (ce.flt rd) (cs.map (·.flt rd))
  | .rotateLocal r ce cs => c.rotateLocal (r.flt rd) (ce.flt rd) (cs.map (·.flt rd))
def StoredOp.exact (c : CoordSys ℝ) : StoredOp → CoordSys ℝ
  | .shiftGlobal d => c.shiftGlobal d
  | .shiftLocal d => c.shiftLocal d
  | .rotateGlobal r ce cs => c.rotateGlobal r ce cs
  | .rotateLocal r ce cs => c.rotateLocal r ce cs

/-- A computed product of nearly orthonormal matrices. -/
theorem Rounds.mul_nearly (h : Rounds u rd) (hu : u ≤ 1 / 1000) {a b : M3 ℝ} {x y : ℝ} (ha : Nearly x a) (hb : Nearly y b)
    (hx : x ≤ 1 / 10) (hy : y ≤ 1 / 10) : ∃ c : M3 ℝ, (a.flt rd).mul (b.flt rd) = c.flt rd ∧
      frob (M3.diff c (a.mul b)) ≤ 14 * u ∧ Nearly (y + (1 + y / 2) ^ 2 * x + 40 * u) c := by
  have hu0 := h.nonneg
  have x0 := nearly_nonneg ha
  have y0 := nearly_nonneg hb
  obtain ⟨c, hc, hc'⟩ := h.mul (by linarith) a b
  have fa := ha.frob
  have fb := hb.frob
  have e1 : frob (M3.diff c (a.mul b)) ≤ 14 * u := by
    refine hc'.trans ?_
    have : frob a * frob b ≤ 147 / 80 * (147 / 80) := mul_le_mul (by linarith) (by linarith) (frob_nonneg _) (by norm_num)
    have := mul_le_mul_of_nonneg_left this (show 0 ≤ 4 * u by linarith)
    linarith
  refine ⟨c, hc, e1, ?_⟩
  unfold Nearly
  generalize hE : M3.diff c (a.mul b) = E at e1
  have e : M3.diff (c.tr.mul c) M3.one = M3.plus (M3.plus (M3.diff ((a.mul b).tr.mul (a.mul b)) M3.one)
      ((a.mul b).tr.mul E)) (M3.plus ((a.mul b).tr.mul E).tr (E.tr.mul E)) := by
    rw [← hE]
    ext <;> simp only [M3.diff, M3.plus, M3.mul, M3.tr, M3.one] <;> ring
  rw [e]
  have op : ∀ w, nrm ((a.mul b).tr.mulVec w) ≤ 112 / 100 * nrm w := by
    intro w
    rw [M3.tr_mul, M3.mul_mulVec]
    have h1 := hb.tr.op (a.tr.mulVec w)
    have h2 := ha.tr.op w
    have h3 := nrm_nonneg w
    have h4 := nrm_nonneg (a.tr.mulVec w)
    nlinarith
  have k1 : frob (M3.diff ((a.mul b).tr.mul (a.mul b)) M3.one) ≤ y + (1 + y / 2) ^ 2 * x := ha.mul hb
  have k2 : frob ((a.mul b).tr.mul E) ≤ 112 / 100 * frob E := frob_mul_op (by norm_num) op
  have k3 : frob (E.tr.mul E) ≤ frob E * frob E := by
    have := frob_mul E.tr E
    rwa [frob_tr] at this
  have k4 : frob E * frob E ≤ 14 * u * (14 * u) := mul_le_mul e1 e1 (frob_nonneg _) (by linarith)
  have k5 : 14 * u * (14 * u) ≤ u := by nlinarith
  have p1 := frob_plus (M3.plus (M3.diff ((a.mul b).tr.mul (a.mul b)) M3.one) ((a.mul b).tr.mul E))
    (M3.plus ((a.mul b).tr.mul E).tr (E.tr.mul E))
  have p2 := frob_plus (M3.diff ((a.mul b).tr.mul (a.mul b)) M3.one) ((a.mul b).tr.mul E)
  have p3 := frob_plus ((a.mul b).tr.mul E).tr (E.tr.mul E)
  rw [frob_tr] at p3
  linarith

/-- One edit. -/
theorem storedOp_step (h : Rounds u rd) (hu : u ≤ 1 / 1000) {op : StoredOp} (hop : op.Ok δ) (hδ : δ ≤ 1 / 10) (hδ0 : 0 ≤ δ)
    {c : CoordSys ℝ} {d : ℝ} (hc : Nearly d c.rot) (hd : d ≤ 1 / 10) {e : CoordSys ℝ} {z : ℝ}
    (hz : frob (M3.diff c.rot e.rot) ≤ z) : ∃ c' : CoordSys ℝ, op.run rd (c.flt rd) = c'.flt rd ∧
      Nearly (d + 2 * δ + 40 * u) c'.rot ∧ frob (M3.diff c'.rot (op.exact e).rot) ≤ (1 + δ / 2) * z + 14 * u := by
  have hu0 := h.nonneg
  have d0 := nearly_nonneg hc
  have z0 := (frob_nonneg _).trans hz
  have weaken : ∀ {x y : ℝ} {m : M3 ℝ}, Nearly x m → x ≤ y → Nearly y m := fun h1 h2 => h1.trans h2
  have origin : ∀ (m : M3 ℝ) (p q : V3 ℝ) (s : CoordSys ℝ), ∃ o : V3 ℝ,
      (m.flt rd).mulVec (p.flt rd - (s.flt rd).toGlobal (q.flt rd)) + (s.flt rd).toGlobal (q.flt rd) = o.flt rd := by
    intro m p q s
    obtain ⟨w, hw, -⟩ := h.mulVec (by linarith) s.rot q
    obtain ⟨g, hg, -⟩ := h.add w s.origin
    have eg : (s.flt rd).toGlobal (q.flt rd) = g.flt rd := by
      show (s.rot.flt rd).mulVec (q.flt rd) + s.origin.flt rd = _
      rw [hw, hg]
    rw [eg]
    obtain ⟨x, hx, -⟩ := h.sub p g
    obtain ⟨y, hy, -⟩ := h.mulVec (by linarith) m x
    obtain ⟨o, ho, -⟩ := h.add y g
    exact ⟨o, by rw [hx, hy, ho]⟩
  cases op with
  | shiftGlobal dr =>
    obtain ⟨o, ho, -⟩ := h.add c.origin dr
    refine ⟨⟨o, c.rot⟩, ?_, weaken hc (by linarith), hz.trans (by nlinarith)⟩
    show (⟨c.origin.flt rd + dr.flt rd, c.rot.flt rd⟩ : CoordSys (Flt rd)) = _
    rw [ho]; rfl
  | shiftLocal dr =>
    obtain ⟨w, hw, -⟩ := h.mulVec (by linarith) c.rot dr
    obtain ⟨o, ho, -⟩ := h.add c.origin w
    refine ⟨⟨o, c.rot⟩, ?_, weaken hc (by linarith), hz.trans (by nlinarith)⟩
    show (⟨c.origin.flt rd + (c.rot.flt rd).mulVec (dr.flt rd), c.rot.flt rd⟩ : CoordSys (Flt rd)) = _
    rw [hw, ho]; rfl
  | rotateGlobal r ce cs =>
    obtain ⟨m, hm, hm1, hm2⟩ := h.mul_nearly hu (show Nearly δ r from hop) hc hδ hd
    have hstd : (cs.map (·.flt rd)).getD (CoordSys.std (Flt rd)) = (cs.getD ⟨⟨rd 0, rd 0, rd 0⟩,
        ⟨rd 1, rd 0, rd 0, rd 0, rd 1, rd 0, rd 0, rd 0, rd 1⟩⟩).flt rd := by
      cases cs with
      | some s => rfl
      | none => simp [CoordSys.std, CoordSys.flt, V3.flt, M3.flt, V3.map, M3.map, Flt.ofNat_fin]
    obtain ⟨o, ho⟩ := origin r c.origin ce (cs.getD ⟨⟨rd 0, rd 0, rd 0⟩, ⟨rd 1, rd 0, rd 0, rd 0, rd 1, rd 0, rd 0, rd 0, rd 1⟩⟩)
    refine ⟨⟨o, m⟩, ?_, weaken hm2 ?_, ?_⟩
    · show (c.flt rd).rotateGlobalIn (r.flt rd) (ce.flt rd) ((cs.map (·.flt rd)).getD (CoordSys.std (Flt rd))) = _
      rw [hstd]
      show (⟨_, (r.flt rd).mul (c.rot.flt rd)⟩ : CoordSys (Flt rd)) = _
      rw [hm]
      show (⟨(r.flt rd).mulVec (c.origin.flt rd - _) + _, m.flt rd⟩ : CoordSys (Flt rd)) = _
      rw [ho]; rfl
    · have : (1 + d / 2) ^ 2 ≤ 2 := by nlinarith
      nlinarith
    · show frob (M3.diff m (r.mul e.rot)) ≤ _
      have k1 := frob_via m (r.mul c.rot) (r.mul e.rot)
      have k2 : M3.diff (r.mul c.rot) (r.mul e.rot) = r.mul (M3.diff c.rot e.rot) := by
        ext <;> simp only [M3.diff, M3.mul] <;> ring
      rw [k2] at k1
      have k3 : frob (r.mul (M3.diff c.rot e.rot)) ≤ (1 + δ / 2) * frob (M3.diff c.rot e.rot) :=
        frob_mul_op (by linarith) (show Nearly δ r from hop).op
      have k4 := mul_le_mul_of_nonneg_left hz (show 0 ≤ 1 + δ / 2 by linarith)
      linarith
  | rotateLocal r ce cs =>
    obtain ⟨m, hm, hm1, hm2⟩ := h.mul_nearly hu hc (show Nearly δ r from hop) hd hδ
    obtain ⟨m2, hm3, -⟩ := h.mul (by linarith) m c.rot.tr
    obtain ⟨o, ho⟩ := origin m2 c.origin ce (cs.getD c)
    have hcs : (cs.map (·.flt rd)).getD (c.flt rd) = (cs.getD c).flt rd := by cases cs <;> rfl
    refine ⟨⟨o, m⟩, ?_, weaken hm2 ?_, ?_⟩
    · show (⟨(((c.rot.flt rd).mul (r.flt rd)).mul (c.rot.tr.flt rd)).mulVec (c.origin.flt rd - _) +
        ((cs.map (·.flt rd)).getD (c.flt rd)).toGlobal (ce.flt rd), (c.rot.flt rd).mul (r.flt rd)⟩ : CoordSys (Flt rd)) = _
      rw [hcs, hm, hm3, ho]; rfl
    · have g1 : δ * d ≤ δ * (1 / 10) := mul_le_mul_of_nonneg_left hd hδ0
      have g2 : δ * (δ * d) ≤ δ * (1 / 10) := mul_le_mul_of_nonneg_left (by nlinarith) hδ0
      have : (1 + δ / 2) ^ 2 * d ≤ d + δ := by nlinarith
      linarith
    · show frob (M3.diff m (e.rot.mul r)) ≤ _
      have k1 := frob_via m (c.rot.mul r) (e.rot.mul r)
      have k2 : M3.diff (c.rot.mul r) (e.rot.mul r) = (r.tr.mul (M3.diff c.rot e.rot).tr).tr := by
        ext <;> simp only [M3.diff, M3.mul, M3.tr] <;> ring
      rw [k2, frob_tr] at k1
      have k3 : frob (r.tr.mul (M3.diff c.rot e.rot).tr) ≤ (1 + δ / 2) * frob (M3.diff c.rot e.rot).tr :=
        frob_mul_op (by linarith) (show Nearly δ r from hop).tr.op
      rw [frob_tr] at k3
      have k4 := mul_le_mul_of_nonneg_left hz (show 0 ≤ 1 + δ / 2 by linarith)
      linarith

/-- C112: after any history of `n` shifts and rotations computed with rounding, the rotation matrix of the frame is orthonormal up to
what it was plus `n` times (40 roundings and twice the error of the matrices given), and differs from the exact one by at
most `20 n` roundings, as long as the first bound stays below a tenth. -/
theorem C112_drift (h : Rounds u rd) (hu : u ≤ 1 / 1000) (hδ0 : 0 ≤ δ) (ops : List StoredOp) (hops : ∀ op ∈ ops, op.Ok δ)
    (c : CoordSys ℝ) {d : ℝ} (hc : Nearly d c.rot) (hn : d + ops.length * (2 * δ + 40 * u) ≤ 1 / 10) :
    ∃ c' : CoordSys ℝ, ops.foldl (StoredOp.run rd) (c.flt rd) = c'.flt rd ∧
      Nearly (d + ops.length * (2 * δ + 40 * u)) c'.rot ∧
      frob (M3.diff c'.rot (ops.foldl StoredOp.exact c).rot) ≤ 20 * ops.length * u := by
  have hu0 := h.nonneg
  have d0 := nearly_nonneg hc
  induction ops using List.reverseRecOn with
  | nil =>
    refine ⟨c, rfl, by simpa using hc, ?_⟩
    exact frob_le (by simp) (by simp [frobSq, M3.diff])
  | append_singleton ops op ih =>
    have hlen : ((ops ++ [op]).length : ℝ) = ops.length + 1 := by simp
    rw [hlen] at hn ⊢
    have n0 : (0 : ℝ) ≤ ops.length := Nat.cast_nonneg _
    have g0 := mul_nonneg n0 hδ0
    have g1 := mul_nonneg n0 hu0
    obtain ⟨c', h1, h2, h3⟩ := ih (fun o ho => hops o (by simp [ho])) (by nlinarith)
    obtain ⟨c2, k1, k2, k3⟩ := storedOp_step h hu (hops op (by simp)) (by nlinarith) hδ0 h2 (by nlinarith) h3
    refine ⟨c2, ?_, k2.trans (by linarith), ?_⟩
    · rw [List.foldl_append, h1]
      exact k1
    · rw [List.foldl_append]
      refine k3.trans ?_
      have : δ * ops.length ≤ 1 / 20 := by nlinarith
      have := mul_le_mul_of_nonneg_right this hu0
      nlinarith

end c112

/-! ## Concrete cases -/

/-- Rounding to a binary number with 53 significant digits. -/
noncomputable def rd53 (x : ℝ) : ℝ := round (x / 2 ^ (Int.log 2 |x| - 52)) * 2 ^ (Int.log 2 |x| - 52)

/-- Double precision. -/
theorem rd53_rounds : Rounds (2 ^ (-53 : ℤ)) rd53 where
  err x := by
    by_cases hx : x = 0
    · subst hx; simp [rd53]
    · have hp : (0 : ℝ) < 2 ^ (Int.log 2 |x| - 52) := zpow_pos (by norm_num) _
      have h1 := abs_sub_round (x / 2 ^ (Int.log 2 |x| - 52))
      have h2 : ((2 : ℕ) : ℝ) ^ Int.log 2 |x| ≤ |x| := Int.zpow_log_le_self (by norm_num) (abs_pos.2 hx)
      have e : rd53 x - x = -((x / 2 ^ (Int.log 2 |x| - 52) - round (x / 2 ^ (Int.log 2 |x| - 52))) * 2 ^ (Int.log 2 |x| - 52)) := by
        rw [rd53, sub_mul, div_mul_cancel₀ _ hp.ne']; ring
      rw [e, abs_neg, abs_mul, abs_of_pos hp]
      calc _ ≤ 1 / 2 * (2 : ℝ) ^ (Int.log 2 |x| - 52) := mul_le_mul_of_nonneg_right h1 hp.le
        _ = 2 ^ (-53 : ℤ) * 2 ^ Int.log 2 |x| := by
            rw [zpow_sub₀ (by norm_num), zpow_neg]; norm_num; ring
        _ ≤ _ := mul_le_mul_of_nonneg_left (by exact_mod_cast h2) (zpow_nonneg (by norm_num) _)

/-- Matrices made from angles: `RotX` with rounded sines and cosines is orthonormal up to 3 roundings. -/
theorem rotX_nearly {u : ℝ} {rd : ℝ → ℝ} (h : Rounds u rd) (hu : u ≤ 1 / 1000) (th : ℝ) :
    Nearly (3 * u) ⟨1, 0, 0, 0, rd (Real.cos th), -rd (Real.sin th), 0, rd (Real.sin th), rd (Real.cos th)⟩ := by
  have hu0 := h.nonneg
  unfold Nearly
  have hc := h.err (Real.cos th)
  have hs := h.err (Real.sin th)
  have one := Real.sin_sq_add_cos_sq th
  have key : |rd (Real.cos th) ^ 2 + rd (Real.sin th) ^ 2 - 1| ≤ (2 * u + u ^ 2) := by
    have g : ∀ x : ℝ, |rd x - x| ≤ u * |x| → |rd x ^ 2 - x ^ 2| ≤ (2 * u + u ^ 2) * x ^ 2 := by
      intro x hx
      have e : rd x ^ 2 - x ^ 2 = (rd x - x) * ((rd x - x) + 2 * x) := by ring
      rw [e, abs_mul]
      have h1 : |rd x - x + 2 * x| ≤ u * |x| + 2 * |x| := by
        have := abs_add_le (rd x - x) (2 * x)
        rw [abs_mul, abs_two] at this
        linarith
      calc _ ≤ u * |x| * (u * |x| + 2 * |x|) := mul_le_mul hx h1 (abs_nonneg _) (by positivity)
        _ = (2 * u + u ^ 2) * |x| ^ 2 := by ring
        _ = _ := by rw [sq_abs]
    have g1 := g _ hc
    have g2 := g _ hs
    have e : rd (Real.cos th) ^ 2 + rd (Real.sin th) ^ 2 - 1 =
        (rd (Real.cos th) ^ 2 - Real.cos th ^ 2) + (rd (Real.sin th) ^ 2 - Real.sin th ^ 2) := by linarith
    rw [e]
    refine (abs_add_le _ _).trans ?_
    nlinarith
  refine frob_le (by linarith) ?_
  have e : frobSq (M3.diff (M3.mul (M3.tr ⟨1, 0, 0, 0, rd (Real.cos th), -rd (Real.sin th), 0, rd (Real.sin th), rd (Real.cos th)⟩)
      ⟨1, 0, 0, 0, rd (Real.cos th), -rd (Real.sin th), 0, rd (Real.sin th), rd (Real.cos th)⟩) M3.one) =
      2 * (rd (Real.cos th) ^ 2 + rd (Real.sin th) ^ 2 - 1) ^ 2 := by
    simp only [frobSq, M3.diff, M3.mul, M3.tr, M3.one]; ring
  rw [e, ← sq_abs]
  have h1 := pow_le_pow_left₀ (abs_nonneg _) key 2
  nlinarith [mul_nonneg hu0 hu0, mul_nonneg (mul_nonneg hu0 hu0) hu0]

/-- In double precision a thousand rotations of the telescope leave frames orthonormal to `10^-10`, and take a point within ten
metres to another frame and back to within ten nanometres. -/
example (ths : List ℝ) (hlen : ths.length = 1000) : ∃ c : CoordSys ℝ,
    (ths.map (fun th => StoredOp.rotateLocal ⟨1, 0, 0, 0, rd53 (Real.cos th), -rd53 (Real.sin th), 0, rd53 (Real.sin th),
      rd53 (Real.cos th)⟩ ⟨0, 0, 0⟩ none)).foldl (StoredOp.run rd53) ((CoordSys.std ℝ).flt rd53) = c.flt rd53 ∧
    Nearly (1 / 10 ^ 10) c.rot ∧
    ∀ r : V3 ℝ, nrm r + nrm ((CoordSys.std ℝ).origin - c.origin) ≤ 10 → ∃ q : V3 ℝ,
      (CoordTransform.make (c.flt rd53) ((CoordSys.std ℝ).flt rd53)).reverse
        ((CoordTransform.make (c.flt rd53) ((CoordSys.std ℝ).flt rd53)).forward (r.flt rd53)) = q.flt rd53 ∧
      nrm (q - r) ≤ 1 / 10 ^ 8 := by
  have hu : (2 : ℝ) ^ (-53 : ℤ) ≤ 1 / 1000 := by norm_num [zpow_neg]
  have hstd : Nearly 0 (CoordSys.std ℝ).rot := nearly_of_orth M3.orth_one
  obtain ⟨c, h1, h2, -⟩ := C112_drift rd53_rounds hu (δ := 3 * 2 ^ (-53 : ℤ)) (by positivity)
    (ths.map (fun th => StoredOp.rotateLocal ⟨1, 0, 0, 0, rd53 (Real.cos th), -rd53 (Real.sin th), 0, rd53 (Real.sin th),
      rd53 (Real.cos th)⟩ ⟨0, 0, 0⟩ none)) (by
      intro op hop
      obtain ⟨th, -, rfl⟩ := List.mem_map.1 hop
      exact rotX_nearly rd53_rounds hu th) (CoordSys.std ℝ) hstd (by
      rw [List.length_map, hlen]; norm_num [zpow_neg])
  have h3 : Nearly (1 / 10 ^ 10) c.rot := h2.trans (by rw [List.length_map, hlen]; norm_num [zpow_neg])
  refine ⟨c, h1, h3, fun r hr => ?_⟩
  obtain ⟨q, hq, hq'⟩ := C111_round_trip rd53_rounds hu (δ := 1 / 10 ^ 10) h3
    (hstd.trans (by norm_num)) (by norm_num) r
  refine ⟨q, hq, hq'.trans ?_⟩
  have : (100 * (2 : ℝ) ^ (-53 : ℤ) + 5 * (1 / 10 ^ 10)) ≤ 1 / 10 ^ 9 := by norm_num [zpow_neg]
  have h0 : 0 ≤ nrm r + nrm ((CoordSys.std ℝ).origin - c.origin) := add_nonneg (nrm_nonneg _) (nrm_nonneg _)
  nlinarith

end Batoid.Props
