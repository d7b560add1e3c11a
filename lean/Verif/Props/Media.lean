import Verif.Medium
import Mathlib.Tactic.LinearCombination
import Mathlib.Tactic.FieldSimp

/-!
# Media (C31, C32)
-/

namespace Batoid.Props
open Batoid Batoid.Medium

/-! ## C31: table media

Specification: a table is a pair of real lists of equal length, wavelengths strictly increasing. -/

theorem upperIdx_eq (w : ℝ) : ∀ (l : List ℝ) (i m : ℕ) (hm : m < l.length), (∀ j (hj : j < l.length), j < m → l[j] ≤ w) →
    w < l[m] → upperIdx (Dbl.fin w) i (l.map Dbl.fin) = i + m
  | [], _, m, hm, _, _ => absurd hm (Nat.not_lt_zero m)
  | a :: l, i, 0, _, _, hw => by
    have : w < a := hw
    simp [upperIdx, this]
  | a :: l, i, m + 1, hm, h, hw => by
    have h0 : ¬ w < a := not_lt.mpr (h 0 (by simp) (Nat.succ_pos m))
    have := upperIdx_eq w l (i + 1) m (by simpa using hm)
      (fun j hj hjm => by have := h (j + 1) (by simpa using hj) (by omega); rwa [List.getElem_cons_succ] at this) (by simpa using hw)
    simp only [List.map_cons, upperIdx, Dbl.lt_fin, h0, decide_false, Bool.false_eq_true, if_false, this]
    omega

theorem upperIdx_none (w : ℝ) : ∀ (l : List ℝ) (i : ℕ), (∀ x ∈ l, x ≤ w) →
    upperIdx (Dbl.fin w) i (l.map Dbl.fin) = i + l.length
  | [], i, _ => rfl
  | a :: l, i, h => by
    have h0 : ¬ w < a := not_lt.mpr (h a (by simp))
    have := upperIdx_none w l (i + 1) (fun x hx => h x (by simp [hx]))
    simp only [List.map_cons, upperIdx, Dbl.lt_fin, h0, decide_false, Bool.false_eq_true, if_false, this, List.length_cons]
    omega

variable {a v : List ℝ}

theorem incr_le (hinc : a.Pairwise (· < ·)) {i j : ℕ} (hi : i < a.length) (hj : j < a.length) (h : i ≤ j) : a[i] ≤ a[j] := by
  rcases Nat.lt_or_eq_of_le h with h | h
  · exact (List.pairwise_iff_getElem.mp hinc i j hi hj h).le
  · subst h; exact le_rfl

/-- Between two neighbouring wavelengths the index is interpolated linearly between the neighbouring values; all reads
are inside the table. -/
theorem C31_interpolates (hinc : a.Pairwise (· < ·)) (hlen : v.length = a.length) {k : ℕ} (hk : k + 1 < a.length) {w : ℝ}
    (h1 : a[k] ≤ w) (h2 : w < a[k + 1]) :
    tableGetN (a.map Dbl.fin) (v.map Dbl.fin) (.fin w) =
      some (.fin (v[k] + (w - a[k]) / (a[k + 1] - a[k]) * (v[k + 1] - v[k]))) := by
  obtain ⟨a0, as, rfl⟩ : ∃ a0 as, a = a0 :: as := by
    cases a with
    | nil => simp at hk
    | cons x xs => exact ⟨x, xs, rfl⟩
  have hk' : k < as.length := by simpa using hk
  have hu : upperIdx (Dbl.fin w) 1 (as.map Dbl.fin) = 1 + k := by
    refine upperIdx_eq w as 1 k hk' ?_ (by simpa using h2)
    intro j hj hjk
    refine le_trans ?_ h1
    have := incr_le hinc (i := j + 1) (j := k) (by simpa using hj) (by simpa using Nat.lt_of_lt_of_le hk' (Nat.le_succ _)) (by omega)
    simpa using this
  have ha0 : ¬ w < a0 := by
    have := incr_le hinc (i := 0) (j := k) (by simp) (by omega) (by omega)
    simp only [List.getElem_cons_zero] at this
    linarith
  have hal : ¬ (a0 :: as)[as.length] < w := by
    have := incr_le hinc (i := k + 1) (j := as.length) hk (by simp) (by omega)
    linarith
  have hne : (a0 :: as)[k + 1] - (a0 :: as)[k] ≠ 0 := by linarith
  have hvk : k + 1 < v.length := by omega
  unfold tableGetN
  have e0 : (List.map Dbl.fin (a0 :: as))[0]? = some (Dbl.fin a0) := rfl
  have el : (List.map Dbl.fin (a0 :: as))[(List.map Dbl.fin (a0 :: as)).length - 1]? = some (Dbl.fin (a0 :: as)[as.length]) := by
    simp only [List.length_map, List.length_cons, Nat.add_sub_cancel, List.getElem?_map]
    rw [List.getElem?_eq_getElem (by simp)]; rfl
  have et : (List.map Dbl.fin (a0 :: as)).tail = as.map Dbl.fin := rfl
  have ei : ∀ (l : List ℝ) (i : ℕ) (hi : i < l.length), (l.map Dbl.fin)[i]? = some (Dbl.fin l[i]) := by
    intro l i hi; simp [hi]
  rw [e0, el, et, hu]
  simp only [Option.bind_eq_bind, Option.bind_some, Dbl.lt_fin, ha0, decide_false, Bool.false_eq_true, if_false,
    Dbl.gt_fin, hal]
  rw [show 1 + k - 1 = k by omega, show 1 + k = k + 1 by omega, ei _ k (by omega), ei _ (k + 1) hvk, ei _ k (by omega), ei _ (k + 1) hk]
  simp only [Option.bind_some, Dbl.sub_fin, Dbl.mul_fin, Dbl.div_fin hne, Dbl.add_fin]
  show some _ = some _
  congr 2
  field_simp
  ring

/-- The tabulated value is returned at every tabulated wavelength but the last. -/
theorem C31_tabulated_partial (hinc : a.Pairwise (· < ·)) (hlen : v.length = a.length) {k : ℕ} (hk : k + 1 < a.length) :
    tableGetN (a.map Dbl.fin) (v.map Dbl.fin) (.fin a[k]) = some (.fin v[k]) := by
  rw [C31_interpolates hinc hlen hk le_rfl (List.pairwise_iff_getElem.mp hinc k (k + 1) (by omega) hk (by omega))]
  simp

/-- The result lies between the neighbouring values. -/
theorem C31_between (hinc : a.Pairwise (· < ·)) (hlen : v.length = a.length) {k : ℕ} (hk : k + 1 < a.length) {w : ℝ}
    (h1 : a[k] ≤ w) (h2 : w < a[k + 1]) :
    ∃ n, tableGetN (a.map Dbl.fin) (v.map Dbl.fin) (.fin w) = some (.fin n) ∧
      min v[k] v[k + 1] ≤ n ∧ n ≤ max v[k] v[k + 1] := by
  refine ⟨_, C31_interpolates hinc hlen hk h1 h2, ?_⟩
  have hd : 0 < a[k + 1] - a[k] := by linarith
  have ht0 : 0 ≤ (w - a[k]) / (a[k + 1] - a[k]) := div_nonneg (by linarith) hd.le
  have ht1 : (w - a[k]) / (a[k + 1] - a[k]) ≤ 1 := (div_le_one hd).mpr (by linarith)
  generalize (w - a[k]) / (a[k + 1] - a[k]) = t at ht0 ht1
  rcases le_total v[k] v[k + 1] with h | h
  · rw [min_eq_left h, max_eq_right h]
    constructor <;> nlinarith
  · rw [min_eq_right h, max_eq_left h]
    constructor <;> nlinarith

/-- Every wavelength in the half-open range is covered by one of the intervals of `C31_interpolates`: no read outside
the arrays. -/
theorem C31_reads_inside (hinc : a.Pairwise (· < ·)) (hlen : v.length = a.length) {w : ℝ} (hn : 0 < a.length) (h1 : a[0] ≤ w)
    (h2 : w < a[a.length - 1]) : ∃ n, tableGetN (a.map Dbl.fin) (v.map Dbl.fin) (.fin w) = some (.fin n) := by
  -- the last index whose wavelength is not above `w`
  have key : ∀ m (hm : m < a.length), w < a[m] → ∃ k, ∃ hk : k + 1 < a.length, a[k] ≤ w ∧ w < a[k + 1] := by
    intro m
    induction m with
    | zero => intro hm h; exact absurd h (not_lt.mpr h1)
    | succ m ih =>
      intro hm h
      by_cases hw : w < a[m]
      · exact ih (by omega) hw
      · exact ⟨m, hm, not_lt.mp hw, h⟩
  obtain ⟨k, hk, h3, h4⟩ := key (a.length - 1) (by omega) h2
  exact ⟨_, C31_interpolates hinc hlen hk h3 h4⟩

/-- Outside the table the index is NaN. -/
theorem C31_out_of_range (hn : 0 < a.length) {w : ℝ} (h : w < a[0] ∨ a[a.length - 1] < w) :
    tableGetN (a.map Dbl.fin) (v.map Dbl.fin) (.fin w) = some .nan := by
  unfold tableGetN
  have ei : ∀ (l : List ℝ) (i : ℕ) (hi : i < l.length), (l.map Dbl.fin)[i]? = some (Dbl.fin l[i]) := by
    intro l i hi; simp [hi]
  rw [List.length_map, ei a 0 hn, ei a (a.length - 1) (by omega)]
  by_cases h0 : w < a[0]
  · simp only [Option.bind_eq_bind, Option.bind_some, Dbl.lt_fin, h0, decide_true, if_true]; rfl
  · have h' := h.resolve_left h0
    simp only [Option.bind_eq_bind, Option.bind_some, Dbl.lt_fin, h0, decide_false, Bool.false_eq_true, if_false, Dbl.gt_fin, h',
      decide_true, if_true]; rfl

/-- At the last tabulated wavelength the search runs off the table: `_vals[_size]` and `_args[_size]` are read. -/
theorem C31_last_wavelength_violated (hinc : a.Pairwise (· < ·)) (hlen : v.length = a.length) (hn : 0 < a.length) :
    tableGetN (a.map Dbl.fin) (v.map Dbl.fin) (.fin a[a.length - 1]) = none := by
  obtain ⟨a0, as, rfl⟩ : ∃ a0 as, a = a0 :: as := by
    cases a with
    | nil => simp at hn
    | cons x xs => exact ⟨x, xs, rfl⟩
  have hmax : ∀ x ∈ as, x ≤ (a0 :: as)[(a0 :: as).length - 1] := by
    intro x hx
    obtain ⟨i, hi, rfl⟩ := List.getElem_of_mem hx
    have := incr_le hinc (i := i + 1) (j := (a0 :: as).length - 1) (by simpa using hi) (by simp) (by simp only [List.length_cons]; omega)
    simpa using this
  have h0 : ¬ (a0 :: as)[(a0 :: as).length - 1] < a0 := by
    have := incr_le hinc (i := 0) (j := (a0 :: as).length - 1) (by simp) (by simp) (by omega)
    simpa using this
  have ei : ∀ (l : List ℝ) (i : ℕ) (hi : i < l.length), (l.map Dbl.fin)[i]? = some (Dbl.fin l[i]) := by
    intro l i hi; simp [hi]
  have e0 : (List.map Dbl.fin (a0 :: as))[0]? = some (Dbl.fin a0) := rfl
  have et : (List.map Dbl.fin (a0 :: as)).tail = as.map Dbl.fin := rfl
  unfold tableGetN
  rw [et, upperIdx_none _ as 1 hmax, e0, List.length_map, ei (a0 :: as) _ (by simp)]
  simp only [Option.bind_eq_bind, Option.bind_some, Dbl.lt_fin, h0, decide_false, Bool.false_eq_true, if_false, Dbl.gt_fin,
    lt_self_iff_false]
  have ev : (List.map Dbl.fin v)[1 + as.length]? = none := by
    rw [List.getElem?_eq_none]; simp only [List.length_map, hlen, List.length_cons]; omega
  rw [ev]
  cases (List.map Dbl.fin (a0 :: as))[1 + as.length - 1]? <;> rfl

/-- A concrete table. -/
example : tableGetN ([1, 2, 4].map Dbl.fin) ([10, 20, 0].map Dbl.fin) (.fin 3) = some (.fin 10) := by
  have := C31_interpolates (a := [1, 2, 4]) (v := [10, 20, 0]) (by norm_num) rfl (k := 1) (by norm_num) (w := 3)
    (by norm_num) (by norm_num)
  rw [this]; norm_num

example : tableGetN ([1, 2, 4].map Dbl.fin) ([10, 20, 0].map Dbl.fin) (.fin 4) = none :=
  C31_last_wavelength_violated (a := [1, 2, 4]) (v := [10, 20, 0]) (by norm_num) rfl (by norm_num)

/-! ## C32: dispersion formulas -/

/-- Microns in a metre. -/
noncomputable def microns (w : ℝ) : ℝ := w * 10 ^ 6

/-- batoid/medium.py L123-128: `n = sqrt(1 + sum B_i lambda^2 / (lambda^2 - C_i))`. -/
theorem C32_sellmeier (B1 B2 B3 C1 C2 C3 w : ℝ)
    (h1 : microns w ^ 2 ≠ C1) (h2 : microns w ^ 2 ≠ C2) (h3 : microns w ^ 2 ≠ C3)
    (hp : 0 ≤ 1 + (B1 * microns w ^ 2 / (microns w ^ 2 - C1) + B2 * microns w ^ 2 / (microns w ^ 2 - C2) +
      B3 * microns w ^ 2 / (microns w ^ 2 - C3))) :
    sellmeierN (Dbl.fin B1) (.fin B2) (.fin B3) (.fin C1) (.fin C2) (.fin C3) (.fin w) =
      .fin (Real.sqrt (1 + (B1 * microns w ^ 2 / (microns w ^ 2 - C1) + B2 * microns w ^ 2 / (microns w ^ 2 - C2) +
        B3 * microns w ^ 2 / (microns w ^ 2 - C3)))) := by
  have hx : w * w * ((10 ^ 12 : ℚ) : ℝ) = microns w ^ 2 := by unfold microns; push_cast; ring
  unfold sellmeierN
  simp only [Dbl.const_dbl, Dbl.mul_fin, hx, Dbl.sub_fin, Dbl.div_fin (sub_ne_zero.mpr h1), Dbl.div_fin (sub_ne_zero.mpr h2),
    Dbl.div_fin (sub_ne_zero.mpr h3), Dbl.one_dbl, Dbl.add_fin]
  rw [add_assoc, add_assoc, ← add_assoc (B1 * _ / _), Dbl.sqrt_fin hp]

/-- batoid/medium.py L183-188: `n = sqrt(A0 + A1 lambda^2 + sum_{i=2}^5 A_i lambda^{-2(i-1)})`. -/
theorem C32_sumita (A0 A1 A2 A3 A4 A5 w : ℝ) (hw : w ≠ 0)
    (hp : 0 ≤ A0 + A1 * microns w ^ 2 + (A2 * (microns w ^ 2)⁻¹ + A3 * (microns w ^ 4)⁻¹ + A4 * (microns w ^ 6)⁻¹ +
      A5 * (microns w ^ 8)⁻¹)) :
    sumitaN (Dbl.fin A0) (.fin A1) (.fin A2) (.fin A3) (.fin A4) (.fin A5) (.fin w) =
      .fin (Real.sqrt (A0 + A1 * microns w ^ 2 + (A2 * (microns w ^ 2)⁻¹ + A3 * (microns w ^ 4)⁻¹ + A4 * (microns w ^ 6)⁻¹ +
        A5 * (microns w ^ 8)⁻¹))) := by
  have hx : w * w * ((10 ^ 12 : ℚ) : ℝ) = microns w ^ 2 := by unfold microns; push_cast; ring
  have hm : microns w ≠ 0 := by unfold microns; positivity
  have hm2 : microns w ^ 2 ≠ 0 := by positivity
  unfold sumitaN
  simp only [Dbl.const_dbl, Dbl.mul_fin, hx, Dbl.one_dbl, Dbl.div_fin hm2, Dbl.add_fin]
  have e : A0 + A1 * microns w ^ 2 + 1 / microns w ^ 2 * (A2 + 1 / microns w ^ 2 * (A3 + 1 / microns w ^ 2 *
      (A4 + 1 / microns w ^ 2 * A5))) = A0 + A1 * microns w ^ 2 + (A2 * (microns w ^ 2)⁻¹ + A3 * (microns w ^ 4)⁻¹ +
        A4 * (microns w ^ 6)⁻¹ + A5 * (microns w ^ 8)⁻¹) := by
    field_simp; ring
  rw [e, Dbl.sqrt_fin hp]

/-- Filippenko (1982): refractivity times 10^6 of dry air at 760 mm Hg and 15 C, `s` in inverse microns squared. -/
noncomputable def edlen (s : ℝ) : ℝ := 64.328 + 29498.1 / (146 - s) + 255.4 / (41 - s)

/-- Filippenko (1982), equations 1-3: refractivity times 10^6; pressures `P`, `f` in mm Hg, temperature `T` in Celsius. -/
noncomputable def filippenko (P T f s : ℝ) : ℝ :=
  edlen s * (P * (1 + (1.049 - 0.0157 * T) * (10 ^ 6)⁻¹ * P) / (720.883 * (1 + 0.003661 * T)))
    - (0.0624 - 0.000680 * s) / (1 + 0.003661 * T) * f

/-- Inverse wavelength in microns, squared. -/
noncomputable def waveNumberSq (w : ℝ) : ℝ := (1 / microns w) ^ 2

/-- `Air(pressure, temperature, h2o_pressure).getN` is Filippenko's formula, pressures converted from kPa to mm Hg and
temperature from Kelvin to Celsius.  The excluded wavelengths are the poles of the dry-air formula (about 82.8 nm and
156.2 nm) and the excluded temperature is absolute zero of the gas law, `T = -1/0.003661` C. -/
theorem C32_air (pressure temperature h2o w : ℝ) (hw : w ≠ 0) (h146 : waveNumberSq w ≠ 146) (h41 : waveNumberSq w ≠ 41)
    (hT : 1 + 0.003661 * (temperature - 273.15) ≠ 0) :
    airN (Dbl.fin pressure) (.fin temperature) (.fin h2o) (.fin w) =
      .fin (1 + filippenko (pressure * 7.50061683) (temperature - 273.15) (h2o * 7.50061683) (waveNumberSq w) * (10 ^ 6)⁻¹) := by
  have hww : w * w ≠ 0 := mul_ne_zero hw hw
  have hs : ((1 / 10 ^ 12 : ℚ) : ℝ) / (w * w) = waveNumberSq w := by
    unfold waveNumberSq microns; push_cast; field_simp
  have h1 : ((146 : ℚ) : ℝ) - waveNumberSq w ≠ 0 := by push_cast; exact sub_ne_zero.mpr (Ne.symm h146)
  have h2 : ((41 : ℚ) : ℝ) - waveNumberSq w ≠ 0 := by push_cast; exact sub_ne_zero.mpr (Ne.symm h41)
  have h3 : (1:ℝ) + ((3661 / 1000000 : ℚ) : ℝ) * (temperature - ((27315 / 100 : ℚ) : ℝ)) ≠ 0 := by
    push_cast; norm_num at hT ⊢; exact hT
  have h4 : ((720883 / 1000 : ℚ) : ℝ) * (1 + ((3661 / 1000000 : ℚ) : ℝ) * (temperature - ((27315 / 100 : ℚ) : ℝ))) ≠ 0 :=
    mul_ne_zero (by norm_num) h3
  unfold airN
  simp only [Dbl.const_dbl, Dbl.mul_fin, Dbl.sub_fin, Dbl.div_fin hww, hs, Dbl.div_fin h1, Dbl.div_fin h2, Dbl.add_fin,
    Dbl.one_dbl, Dbl.div_fin h3, Dbl.div_fin h4]
  congr 1
  unfold filippenko edlen
  push_cast
  norm_num
  ring

/-- In vacuum the index is one. -/
theorem C32_vacuum (temperature w : ℝ) (hw : w ≠ 0) (h146 : waveNumberSq w ≠ 146) (h41 : waveNumberSq w ≠ 41)
    (hT : 1 + 0.003661 * (temperature - 273.15) ≠ 0) :
    airN (Dbl.fin 0) (.fin temperature) (.fin 0) (.fin w) = .fin 1 := by
  rw [C32_air _ _ _ _ hw h146 h41 hT]
  simp [filippenko]

/-- The hypotheses are met at one micron and room temperature. -/
example : airN (Dbl.fin 0) (.fin 293.15) (.fin 0) (.fin (1 / 10 ^ 6)) = .fin 1 :=
  C32_vacuum _ _ (by norm_num) (by unfold waveNumberSq microns; norm_num) (by unfold waveNumberSq microns; norm_num)
    (by norm_num)

example : sellmeierN (Dbl.fin 3) (.fin 0) (.fin 0) (.fin 0) (.fin 0) (.fin 0) (.fin (1 / 10 ^ 6)) = .fin 2 := by
  rw [C32_sellmeier _ _ _ _ _ _ _ (by unfold microns; norm_num) (by unfold microns; norm_num) (by unfold microns; norm_num)
    (by unfold microns; norm_num)]
  unfold microns
  rw [show (1:ℝ) + (3 * (1 / 10 ^ 6 * 10 ^ 6) ^ 2 / ((1 / 10 ^ 6 * 10 ^ 6) ^ 2 - 0) + 0 * (1 / 10 ^ 6 * 10 ^ 6) ^ 2 / ((1 / 10 ^ 6 * 10 ^ 6) ^ 2 - 0) +
      0 * (1 / 10 ^ 6 * 10 ^ 6) ^ 2 / ((1 / 10 ^ 6 * 10 ^ 6) ^ 2 - 0)) = 2 ^ 2 by norm_num, Real.sqrt_sq (by norm_num)]

end Batoid.Props
