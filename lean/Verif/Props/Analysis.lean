import Verif.Analysis
import Verif.Props.Launch
import Verif.Props.Clear

/-!
# Analysis functions (C65, C66, C67)
-/

namespace Batoid.Props
open Batoid Batoid.Analysis Batoid.Construct

/-! ## C66: reciprocal lattice vectors -/

/-- The vectors `b1`, `b2` are dual to `a1`, `a2` with the constant `2 pi/N`. -/
structure Dual (a1 a2 b1 b2 : ℝ × ℝ) (N : ℤ) : Prop where
  d11 : b1.1 * a1.1 + b1.2 * a1.2 = 2 * Real.pi / N
  d12 : b1.1 * a2.1 + b1.2 * a2.2 = 0
  d21 : b2.1 * a1.1 + b2.2 * a1.2 = 0
  d22 : b2.1 * a2.1 + b2.2 * a2.2 = 2 * Real.pi / N

/-- What the function computes for linearly independent vectors. -/
theorem reciprocal_fin {a1 a2 : ℝ × ℝ} (hdet : a1.1 * a2.2 - a1.2 * a2.1 ≠ 0) {N : ℤ} (hN : N ≠ 0) :
    reciprocalLatticeVectors (Dbl.fin a1.1, Dbl.fin a1.2) (Dbl.fin a2.1, Dbl.fin a2.2) N =
      ((Dbl.fin (2 * Real.pi / (a1.1 * a2.2 - a1.2 * a2.1) / N * a2.2), Dbl.fin (2 * Real.pi / (a1.1 * a2.2 - a1.2 * a2.1) / N * a2.1)),
       (Dbl.fin (2 * Real.pi / (a1.1 * a2.2 - a1.2 * a2.1) / N * a1.2), Dbl.fin (2 * Real.pi / (a1.1 * a2.2 - a1.2 * a2.1) / N * a1.1))) := by
  have hN' : (N : ℝ) ≠ 0 := by exact_mod_cast hN
  have h2 : (2 : Dbl) = Dbl.fin 2 := Dbl.ofNat_dbl' 2
  simp only [reciprocalLatticeVectors, h2, Dbl.pi_def, Dbl.mul_fin, Dbl.sub_fin, Dbl.div_fin hdet, Dbl.const_dbl, Rat.cast_intCast,
    Dbl.div_fin hN']

/-- C66, exactly when it holds: the vectors are dual if and only if `a1` lies along x and `a2` along y. -/
theorem C66_exact {a1 a2 : ℝ × ℝ} (hdet : a1.1 * a2.2 - a1.2 * a2.1 ≠ 0) {N : ℤ} (hN : N ≠ 0) :
    ∃ b1 b2 : ℝ × ℝ, reciprocalLatticeVectors (Dbl.fin a1.1, Dbl.fin a1.2) (Dbl.fin a2.1, Dbl.fin a2.2) N =
        ((Dbl.fin b1.1, Dbl.fin b1.2), (Dbl.fin b2.1, Dbl.fin b2.2)) ∧
      (Dual a1 a2 b1 b2 N ↔ a1.2 = 0 ∧ a2.1 = 0) := by
  have hN' : (N : ℝ) ≠ 0 := by exact_mod_cast hN
  have hpi := Real.pi_ne_zero
  refine ⟨(2 * Real.pi / (a1.1 * a2.2 - a1.2 * a2.1) / N * a2.2, 2 * Real.pi / (a1.1 * a2.2 - a1.2 * a2.1) / N * a2.1),
    (2 * Real.pi / (a1.1 * a2.2 - a1.2 * a2.1) / N * a1.2, 2 * Real.pi / (a1.1 * a2.2 - a1.2 * a2.1) / N * a1.1), reciprocal_fin hdet hN, ?_⟩
  constructor
  · rintro ⟨h11, h12, h21, h22⟩
    have hc : 2 * Real.pi / (a1.1 * a2.2 - a1.2 * a2.1) / N ≠ 0 := by positivity
    have k12 : a2.1 * a2.2 = 0 := by
      have : 2 * Real.pi / (a1.1 * a2.2 - a1.2 * a2.1) / N * (2 * (a2.1 * a2.2)) = 0 := by linear_combination h12
      rcases mul_eq_zero.mp this with h | h
      · exact absurd h hc
      · linarith
    have k21 : a1.1 * a1.2 = 0 := by
      have : 2 * Real.pi / (a1.1 * a2.2 - a1.2 * a2.1) / N * (2 * (a1.1 * a1.2)) = 0 := by linear_combination h21
      rcases mul_eq_zero.mp this with h | h
      · exact absurd h hc
      · linarith
    have k11 : a1.2 * a2.1 = 0 := by
      simp only at h11
      field_simp at h11
      linarith
    have hd : a1.1 * a2.2 ≠ 0 := by intro h; apply hdet; rw [h, k11]; ring
    obtain ⟨hx, hy⟩ := mul_ne_zero_iff.mp hd
    exact ⟨(mul_eq_zero.mp k21).resolve_left hx, (mul_eq_zero.mp k12).resolve_right hy⟩
  · obtain ⟨x1, y1⟩ := a1
    obtain ⟨x2, y2⟩ := a2
    rintro ⟨h1, h2⟩
    simp only at h1 h2 hdet
    subst h1 h2
    have hxy : x1 * y2 ≠ 0 := by simpa using hdet
    obtain ⟨hx, hy⟩ := mul_ne_zero_iff.mp hxy
    constructor
    · simp only [mul_zero, sub_zero, zero_mul, add_zero]; field_simp
    · simp
    · simp
    · simp only [mul_zero, sub_zero, zero_mul, zero_add]; field_simp

/-- C66 for pupil grids that stay aligned with the axes.  *Missing*: all other vectors, see `C66_exact` and `C66_violated`. -/
theorem C66_partial {a b : ℝ} (ha : a ≠ 0) (hb : b ≠ 0) {N : ℤ} (hN : N ≠ 0) :
    ∃ b1 b2 : ℝ × ℝ, reciprocalLatticeVectors (Dbl.fin a, Dbl.fin 0) (Dbl.fin 0, Dbl.fin b) N =
        ((Dbl.fin b1.1, Dbl.fin b1.2), (Dbl.fin b2.1, Dbl.fin b2.2)) ∧ Dual (a, 0) (0, b) b1 b2 N := by
  obtain ⟨b1, b2, h1, h2⟩ := C66_exact (a1 := (a, 0)) (a2 := (0, b)) (by simp [ha, hb]) hN
  exact ⟨b1, b2, h1, h2.mpr ⟨rfl, rfl⟩⟩

/-- C66 is violated for sheared lattices: signs are missing in the vectors. -/
theorem C66_violated : ∃ a1 a2 b1 b2 : ℝ × ℝ, a1.1 * a2.2 - a1.2 * a2.1 ≠ 0 ∧
    reciprocalLatticeVectors (Dbl.fin a1.1, Dbl.fin a1.2) (Dbl.fin a2.1, Dbl.fin a2.2) 1 =
      ((Dbl.fin b1.1, Dbl.fin b1.2), (Dbl.fin b2.1, Dbl.fin b2.2)) ∧ ¬ Dual a1 a2 b1 b2 1 := by
  obtain ⟨b1, b2, h1, h2⟩ := C66_exact (a1 := (1, 0)) (a2 := (1, 1)) (by norm_num) one_ne_zero
  refine ⟨(1, 0), (1, 1), b1, b2, by norm_num, h1, fun h => ?_⟩
  have := (h2.mp h).2
  norm_num at this

/-! ## C67: the padded pupil -/

theorem embed_slice {nx pad : ℤ} (hnx : 0 < nx) (hpad : 0 < pad) :
    Py.adjustIndices (nx * pad) (some (nx * pad / 2 - nx / 2)) (some (nx * pad / 2 + nx / 2)) 1 =
      (nx * pad / 2 - nx / 2, nx * pad / 2 + nx / 2) := by
  have h1 : nx ≤ nx * pad := by nlinarith
  unfold Py.adjustIndices
  simp only [show ¬ ((1 : ℤ) < 0) by omega, if_false]
  rw [if_neg (by omega), if_neg (by omega), min_eq_left (by omega), min_eq_left (by omega)]

theorem embed_len {a b : ℤ} (h : a ≤ b) : (Py.rangeLen a b 1 : ℤ) = b - a := by
  unfold Py.rangeLen
  rw [if_pos (by omega)]
  split
  · rw [Int.ediv_one]; omega
  · have : a = b := by omega
    subst this; simp

/-- C67 for even `nx`: the pupil array is copied into the padded array unchanged, the entry `[nx//2, nx//2]` of the chief ray goes to
the centre of the padded array, and everything else is zero.  *Missing*: odd `nx`, for which `fftPSF` always raises, see
`C67_odd_violated`. -/
theorem C67_even_partial {A : Type} (zero : A) (k pad : ℕ) (hk : 0 < k) (hpad : 0 < pad) (cell : ℕ → ℕ → Option A) :
    ∃ arr : ℕ → ℕ → A, embed zero (2 * k : ℕ) pad cell = .ok (((2 * k * pad : ℕ) : ℤ), arr) ∧
      (∀ j i : ℕ, j < 2 * k → i < 2 * k → arr (k * pad + j - k) (k * pad + i - k) = (cell j i).getD zero) ∧
      (∀ r c : ℕ, (r < k * pad - k ∨ k * pad + k ≤ r ∨ c < k * pad - k ∨ k * pad + k ≤ c) → arr r c = zero) ∧
      k * pad + k ≤ 2 * k * pad ∧ (k * pad + k) - k = (2 * k * pad) / 2 := by
  have hle : k ≤ k * pad := Nat.le_mul_of_pos_right k hpad
  have e2 : 2 * k * pad = 2 * (k * pad) := by ring
  have e1 : (((2 * k : ℕ) : ℤ) * (pad : ℤ)) = ((2 * (k * pad) : ℕ) : ℤ) := by push_cast; ring
  have hs := embed_slice (nx := ((2 * k : ℕ) : ℤ)) (pad := pad) (by omega) (by omega)
  unfold embed
  rw [e1] at hs
  simp only [e1, hs]
  rw [if_neg (by omega), if_neg (by rw [embed_len (by omega)]; omega)]
  refine ⟨_, by rw [e2], ?_, ?_, by omega, by omega⟩
  · intro j i hj hi
    rw [if_pos (by omega)]
    congr 2 <;> omega
  · intro r c h
    rw [if_neg (by omega)]

/-- C67 is violated for every odd number of rays: the window is one too small and the assignment raises, whatever the pad factor. -/
theorem C67_odd_violated {A : Type} (zero : A) (k pad : ℕ) (hpad : 0 < pad) (cell : ℕ → ℕ → Option A) :
    embed zero (2 * k + 1 : ℕ) pad cell = .error .indexError := by
  have hs := embed_slice (nx := ((2 * k + 1 : ℕ) : ℤ)) (pad := pad) (by omega) (by omega)
  have h0 : 0 ≤ ((2 * k + 1 : ℕ) : ℤ) * (pad : ℤ) := by positivity
  unfold embed
  simp only [hs]
  rw [if_neg (by omega), if_pos (by rw [embed_len (by omega)]; omega)]

/-- A pupil of 4 x 4 rays with pad factor 2: the chief ray `[2, 2]` is at the centre `[4, 4]`. -/
example : ∃ arr : ℕ → ℕ → ℕ, embed 0 (4 : ℕ) (2 : ℕ) (fun j i => some (10 * j + i + 1)) = .ok (8, arr) ∧ arr 4 4 = 23 ∧ arr 2 5 = 4 ∧
    arr 1 4 = 0 := by
  obtain ⟨arr, h1, h2, h3, _⟩ := C67_even_partial 0 2 2 (by norm_num) (by norm_num) (fun j i => some (10 * j + i + 1))
  exact ⟨arr, h1, h2 2 2 (by norm_num) (by norm_num), h2 0 3 (by norm_num) (by norm_num), h3 1 4 (Or.inl (by norm_num))⟩

/-! ## C65: closest approach -/

/-- The squared distance of a point from the line through `Q` along `v`. -/
noncomputable def distSqToLine (p Q v : V3 ℝ) : ℝ := V3.normSq (p - Q) - V3.dot (p - Q) v ^ 2 / V3.dot v v

/-- The distance is the least distance from the points of the line. -/
theorem distSqToLine_least (p Q v : V3 ℝ) (hv : 0 < V3.dot v v) :
    (∃ s, V3.normSq (p - (Q + v.smulR s)) = distSqToLine p Q v) ∧ ∀ s, distSqToLine p Q v ≤ V3.normSq (p - (Q + v.smulR s)) := by
  have key : ∀ s, V3.normSq (p - (Q + v.smulR s)) = distSqToLine p Q v + V3.dot v v * (s - V3.dot (p - Q) v / V3.dot v v) ^ 2 := by
    intro s
    unfold distSqToLine
    field_simp
    simp only [V3.normSq, V3.dot, V3.sub_x, V3.sub_y, V3.sub_z, V3.add_x, V3.add_y, V3.add_z, V3.smulR_x, V3.smulR_y, V3.smulR_z]
    ring
  refine ⟨⟨V3.dot (p - Q) v / V3.dot v v, by rw [key]; simp⟩, fun s => ?_⟩
  rw [key]
  have := mul_nonneg hv.le (sq_nonneg (s - V3.dot (p - Q) v / V3.dot v v))
  linarith

/-- Cauchy-Schwarz, with the case of equality. -/
theorem gram_pos {u v : V3 ℝ} (h : V3.dot u u * V3.dot v v - V3.dot u v * V3.dot u v ≠ 0) :
    0 < V3.dot u u * V3.dot v v - V3.dot u v * V3.dot u v ∧ 0 < V3.dot v v := by
  have e : V3.dot u u * V3.dot v v - V3.dot u v * V3.dot u v =
      (u.y * v.z - u.z * v.y) ^ 2 + (u.z * v.x - u.x * v.z) ^ 2 + (u.x * v.y - u.y * v.x) ^ 2 := by
    simp only [V3.dot]; ring
  have h1 : 0 ≤ V3.dot u u * V3.dot v v - V3.dot u v * V3.dot u v := by rw [e]; positivity
  have hvv : 0 ≤ V3.dot v v := by simp only [V3.dot]; nlinarith [mul_self_nonneg v.x, mul_self_nonneg v.y, mul_self_nonneg v.z]
  refine ⟨lt_of_le_of_ne h1 (Ne.symm h), lt_of_le_of_ne hvv fun h0 => ?_⟩
  have : v.x = 0 ∧ v.y = 0 ∧ v.z = 0 := by
    simp only [V3.dot] at h0
    have a := mul_self_nonneg v.x
    have b := mul_self_nonneg v.y
    have c := mul_self_nonneg v.z
    exact ⟨mul_self_eq_zero.mp (by linarith), mul_self_eq_zero.mp (by linarith), mul_self_eq_zero.mp (by linarith)⟩
  apply h
  rw [← h0]
  simp [V3.dot, this.1, this.2.1, this.2.2]

/-- C65: for lines that are not parallel the returned point is on the first line and nearer to the second line than every other
point of the first line. -/
theorem C65_closest {P u Q v : V3 ℝ} (h : V3.dot u u * V3.dot v v - V3.dot u v * V3.dot u v ≠ 0) :
    ∃ s : ℝ, closestApproach P.fin u.fin Q.fin v.fin = .ok (P + u.smulR s).fin ∧
      ∀ s' : ℝ, s' ≠ s → distSqToLine (P + u.smulR s) Q v < distSqToLine (P + u.smulR s') Q v := by
  obtain ⟨hg, hv⟩ := gram_pos h
  refine ⟨(V3.dot u v * V3.dot v (P - Q) - V3.dot v v * V3.dot u (P - Q)) / (V3.dot u u * V3.dot v v - V3.dot u v * V3.dot u v), ?_, ?_⟩
  · simp only [closestApproach, V3.fin_dot, V3.fin_sub, Dbl.mul_fin, Dbl.sub_fin, Dbl.zero_dbl, Dbl.eq_fin, h, decide_false,
      Bool.false_eq_true, if_false, Dbl.div_fin h]
    congr 1
    apply V3.ext <;> simp [V3.smul, V3.smulR, mul_comm]
  · intro s' hs
    have key : ∀ s, distSqToLine (P + u.smulR s) Q v = distSqToLine P Q v + ((V3.dot u u * V3.dot v v - V3.dot u v * V3.dot u v) * s ^ 2
        - 2 * (V3.dot u v * V3.dot v (P - Q) - V3.dot v v * V3.dot u (P - Q)) * s) / V3.dot v v := by
      intro s
      unfold distSqToLine
      field_simp
      simp only [V3.normSq, V3.dot, V3.sub_x, V3.sub_y, V3.sub_z, V3.add_x, V3.add_y, V3.add_z, V3.smulR_x, V3.smulR_y, V3.smulR_z]
      ring
    rw [key, key]
    set G := V3.dot u u * V3.dot v v - V3.dot u v * V3.dot u v
    set B := V3.dot u v * V3.dot v (P - Q) - V3.dot v v * V3.dot u (P - Q)
    have : 0 < G * (s' - B / G) ^ 2 := mul_pos hg (by have := sub_ne_zero.mpr hs; positivity)
    have e : (G * s' ^ 2 - 2 * B * s') - (G * (B / G) ^ 2 - 2 * B * (B / G)) = G * (s' - B / G) ^ 2 := by field_simp; ring
    have : (G * (B / G) ^ 2 - 2 * B * (B / G)) / V3.dot v v < (G * s' ^ 2 - 2 * B * s') / V3.dot v v := by
      apply div_lt_div_of_pos_right _ hv; linarith
    linarith

/-- C65: parallel lines raise. -/
theorem C65_parallel {P u Q v : V3 ℝ} (h : V3.dot u u * V3.dot v v - V3.dot u v * V3.dot u v = 0) :
    closestApproach P.fin u.fin Q.fin v.fin = .error .valueError := by
  simp only [closestApproach, V3.fin_dot, V3.fin_sub, Dbl.mul_fin, Dbl.sub_fin, Dbl.zero_dbl, Dbl.eq_fin, h, decide_true, if_true]

end Batoid.Props
