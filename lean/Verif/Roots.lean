import Verif.Surface
import Mathlib.Tactic.FieldSimp
import Mathlib.Tactic.LinearCombination
import Mathlib.Tactic.Positivity

/-!
# The root pair of Paraboloid, Sphere and Quadric on ideal doubles

Helper lemmas: what `rootPair` (paraboloid.cpp L59-64, sphere.cpp L56-62, quadric.cpp L58-64) returns, including the
NaN cases.
-/

namespace Batoid.Surface
open Batoid

/-- Two numbers are the roots of a quadratic, counted with multiplicity. -/
structure AreRoots (a b c t1 t2 : ℝ) : Prop where
  sum : a * (t1 + t2) = -b
  prod : a * (t1 * t2) = c

theorem AreRoots.root1 {a b c t1 t2 : ℝ} (h : AreRoots a b c t1 t2) : a * t1 * t1 + b * t1 + c = 0 := by
  have h1 := h.sum; have h2 := h.prod
  linear_combination t1 * h1 - h2

theorem AreRoots.root2 {a b c t1 t2 : ℝ} (h : AreRoots a b c t1 t2) : a * t2 * t2 + b * t2 + c = 0 := by
  have h1 := h.sum; have h2 := h.prod
  linear_combination t2 * h1 - h2

theorem AreRoots.only {a b c t1 t2 : ℝ} (h : AreRoots a b c t1 t2) (ha : a ≠ 0) {t : ℝ}
    (ht : a * t * t + b * t + c = 0) : t = t1 ∨ t = t2 := by
  have h1 := h.sum; have h2 := h.prod
  have : a * ((t - t1) * (t - t2)) = 0 := by linear_combination ht + t * h1 * (-1) + h2
  rcases mul_eq_zero.mp this with h0 | h0
  · exact absurd h0 ha
  · rcases mul_eq_zero.mp h0 with h0 | h0
    · left; linarith
    · right; linarith

theorem AreRoots.symm {a b c t1 t2 : ℝ} (h : AreRoots a b c t1 t2) : AreRoots a b c t2 t1 :=
  ⟨by rw [add_comm]; exact h.sum, by rw [mul_comm t2]; exact h.prod⟩

/-- What `rootPair` returns when the leading coefficient is not zero and the discriminant not negative. -/
theorem rootPair_cases {a b c : ℝ} (ha : a ≠ 0) (hD : 0 ≤ b * b - 4 * a * c) :
    (∃ t1 t2, rootPair (.fin a) (.fin b) (.fin c) (.fin (b * b - 4 * a * c)) = (Dbl.fin t1, Dbl.fin t2) ∧
        AreRoots a b c t1 t2 ∧ (c ≠ 0 ∨ 0 < b)) ∨
    (c = 0 ∧ b < 0 ∧ rootPair (.fin a) (.fin b) (.fin c) (.fin (b * b - 4 * a * c)) = (Dbl.fin 0, Dbl.nan)) ∨
    (c = 0 ∧ b = 0 ∧ rootPair (.fin a) (.fin b) (.fin c) (.fin (b * b - 4 * a * c)) = (Dbl.nan, Dbl.nan)) := by
  have hs0 := Real.sqrt_nonneg (b * b - 4 * a * c)
  have hss := Real.mul_self_sqrt hD
  have h2a : (2 : ℝ) * a ≠ 0 := mul_ne_zero two_ne_zero ha
  unfold rootPair
  simp only [Dbl.sqrt_fin hD, Dbl.zero_dbl, Dbl.gt_fin, Dbl.neg_fin, Dbl.sub_fin, Dbl.add_fin, Dbl.ofNat_dbl', Dbl.mul_fin]
  set s := Real.sqrt (b * b - 4 * a * c) with hs

  by_cases hb : 0 < b
  · left
    have hne : (-b - s) / (2 * a) ≠ 0 := div_ne_zero (by linarith) h2a
    have hane : a * ((-b - s) / (2 * a)) ≠ 0 := mul_ne_zero ha hne
    refine ⟨(-b - s) / (2 * a), c / (a * ((-b - s) / (2 * a))), ?_, ⟨?_, ?_⟩, Or.inr hb⟩
    · simp [hb, Dbl.div_fin h2a, Dbl.div_fin hane]
    · have hbs : -b - s ≠ 0 := by linarith
      have e : c / (a * ((-b - s) / (2 * a))) = 2 * c / (-b - s) := by field_simp
      rw [e]; field_simp; linear_combination hss
    · have hbs : -b - s ≠ 0 := by linarith
      field_simp
  · have hb' : b ≤ 0 := not_lt.mp hb
    by_cases hz : -b + s = 0
    · -- b = 0 and the discriminant vanishes
      right; right
      have hb0 : b = 0 := by linarith
      have hs0' : s = 0 := by linarith
      have hc : c = 0 := by
        have : a * c = 0 := by rw [hs0', hb0] at hss; linarith
        exact (mul_eq_zero.mp this).resolve_left ha
      refine ⟨hc, hb0, ?_⟩
      simp [hb, hz, hc]
    · by_cases hc : c = 0
      · have hbne : b ≠ 0 := by
          intro h0; apply hz
          have : s * s = 0 := by rw [hss, h0, hc]; ring
          have : s = 0 := mul_self_eq_zero.mp this
          rw [h0, this]; ring
        right; left
        refine ⟨hc, lt_of_le_of_ne hb' hbne, ?_⟩
        simp only [hb, decide_false, Bool.false_eq_true, if_false, Dbl.div_fin hz, hc]
        simp
      · left
        have hne : 2 * c / (-b + s) ≠ 0 := div_ne_zero (mul_ne_zero two_ne_zero hc) hz
        have hane : a * (2 * c / (-b + s)) ≠ 0 := mul_ne_zero ha hne
        refine ⟨2 * c / (-b + s), c / (a * (2 * c / (-b + s))), ?_, ⟨?_, ?_⟩, Or.inl hc⟩
        · simp [hb, Dbl.div_fin hz, Dbl.div_fin hane]
        · have e : c / (a * (2 * c / (-b + s))) = (-b + s) / (2 * a) := by field_simp
          rw [e]; field_simp; linear_combination hss
        · field_simp

/-- With a vanishing leading coefficient the second member is never a number; the first one, if it is a number, solves
the linear equation. -/
theorem rootPair_degenerate {b c : ℝ} :
    (∀ t, (rootPair (.fin 0) (.fin b) (.fin c) (.fin (b * b))).1 = Dbl.fin t → b * t + c = 0 ∧ b < 0) ∧
    (∀ t, (rootPair (.fin 0) (.fin b) (.fin c) (.fin (b * b))).2 ≠ Dbl.fin t) := by
  have hD : (0:ℝ) ≤ b * b := mul_self_nonneg b
  have hs : Real.sqrt (b * b) = |b| := Real.sqrt_mul_self_eq_abs b
  unfold rootPair
  simp only [Dbl.sqrt_fin hD, hs, Dbl.zero_dbl, Dbl.gt_fin, Dbl.neg_fin, Dbl.sub_fin, Dbl.add_fin, Dbl.ofNat_dbl', Dbl.mul_fin,
    mul_zero]

  by_cases hb : 0 < b
  · have hneg : -b - |b| < 0 := by rw [abs_of_pos hb]; linarith
    simp only [hb, decide_true, if_true, Dbl.neg_div_zero hneg]
    have : Dbl.fin 0 * Dbl.ninf = Dbl.nan := by
      show Dbl.infMul _ = _; simp [Dbl.infMul]
    simp [this]
  · have hb' : b ≤ 0 := not_lt.mp hb
    simp only [hb, decide_false, Bool.false_eq_true, if_false, abs_of_nonpos hb']
    by_cases h0 : b = 0
    · subst h0
      simp only [neg_zero, add_zero, Dbl.div_fin', if_true]
      constructor
      · intro t ht
        exfalso
        unfold Dbl.infMul at ht
        split at ht
        · cases ht
        · split at ht <;> cases ht
      · intro t ht
        unfold Dbl.infMul at ht
        split at ht
        · simp at ht
        · split at ht
          · have : Dbl.fin 0 * Dbl.pinf = Dbl.nan := by show Dbl.infMul _ = _; simp [Dbl.infMul]
            rw [this] at ht; simp at ht
          · have : Dbl.fin 0 * Dbl.ninf = Dbl.nan := by show Dbl.infMul _ = _; simp [Dbl.infMul]
            rw [this] at ht; simp at ht
    · have hne : -b + -b ≠ 0 := by
        intro h; apply h0; linarith
      have hlt : b < 0 := lt_of_le_of_ne hb' h0
      rw [Dbl.div_fin hne]
      constructor
      · intro t ht
        rw [Dbl.fin_inj] at ht
        refine ⟨?_, hlt⟩
        rw [← ht]; field_simp; ring
      · intro t ht
        simp only [Dbl.mul_fin, zero_mul, Dbl.div_fin', if_true] at ht
        unfold Dbl.infMul at ht
        split at ht
        · cases ht
        · split at ht <;> cases ht

end Batoid.Surface
