import Verif.Props.Media
import Verif.Props.RoundPhase

/-!
# Property C134: refractive indices in arithmetic with rounding

C31 and C32 say that the media return the tabulated and the published indices in exact arithmetic.  Here: how far rounding moves them.  The formulas
divide by differences (squared wavelength minus squared resonance), so the bounds contain a number `κ` that says how much these differences cancel, and a number
`L` that says how much the terms under the root cancel.

Specification vocabulary: `interpolated`, `resonance`, `sumita`, and the formulas of C32.
-/

namespace Batoid.Props
open Batoid Batoid.Medium

section spec

/-- The point above `w` on the line through `(a, p)` and `(b, q)`. -/
noncomputable def interpolated (a b p q w : ℝ) : ℝ := p + (w - a) / (b - a) * (q - p)

/-- One term of Sellmeier's formula; `s` is the squared wavelength in microns. -/
noncomputable def resonance (B C s : ℝ) : ℝ := B * s / (s - C)

/-- Sumita's formula for the squared index. -/
noncomputable def sumita (A0 A1 A2 A3 A4 A5 s : ℝ) : ℝ := A0 + A1 * s + (A2 * s⁻¹ + A3 * (s ^ 2)⁻¹ + A4 * (s ^ 3)⁻¹ + A5 * (s ^ 4)⁻¹)

/-- Filippenko's formula with all terms made positive; `t` is the temperature in Kelvin. -/
noncomputable def filippenkoSize (P t f s : ℝ) : ℝ :=
  (64.328 + 29498.1 / |146 - s| + 255.4 / |41 - s|) *
      (|P| * (1 + (1.049 + 0.0157 * (|t| + 273.15)) * (10 ^ 6)⁻¹ * |P|) / (720.883 * |1 + 0.003661 * (t - 273.15)|))
    + (0.0624 + 0.000680 * s) / |1 + 0.003661 * (t - 273.15)| * |f|

end spec

section tools
variable {u κ : ℝ} {rd : ℝ → ℝ} {k : ℕ} {a b M : ℝ}

/-- A relative error of at most `u`. -/
theorem rel_of_near (hu0 : 0 ≤ u) (hu : u < 1) (h : |a - b| ≤ u * |b|) : Rel u 1 a b := by
  have r : Rounds u (fun x => if x = b then a else x) := ⟨fun x => by
    by_cases e : x = b
    · subst e; simpa using h
    · simp only [e, if_false, sub_self, abs_zero]; positivity⟩
  simpa using r.rel hu b

theorem Rounds.coarser {v : ℝ} (h : Rounds u rd) (huv : u ≤ v) : Rounds v rd :=
  ⟨fun x => (h.err x).trans (mul_le_mul_of_nonneg_right huv (abs_nonneg _))⟩

/-- A difference that does not cancel too much. -/
theorem uncancelled (hu0 : 0 ≤ u) (h : Err u k a b M) (hk : 2 * (k : ℝ) ≤ 10) (hκ : 1 ≤ κ) (hM : M ≤ κ * |b|) (hu : κ * u ≤ 1 / 1000) :
    Rel (10 * κ * u) 1 a b := by
  have k0 : 0 ≤ κ * u := by positivity
  have hu1 : u ≤ 1 / 1000 := by nlinarith
  refine rel_of_near (by positivity) (by linarith) ((h.close hu0 (by linarith) 10 hk (by linarith)).trans ?_)
  have := mul_le_mul_of_nonneg_left hM (show 0 ≤ 10 * u by positivity)
  linarith

theorem Err.same {b' M' : ℝ} (h : Err u k a b M) (hb : b = b') (hM : M = M') : Err u k a b' M' := by subst hb; subst hM; exact h

/-- A root of a number that is known up to a fraction of itself. -/
theorem root_close (hη : k * u ≤ 1) (hb : 0 ≤ b) (h : |a - b| ≤ k * u * b) : 0 ≤ a ∧ |Real.sqrt a - Real.sqrt b| ≤ k * u * Real.sqrt b := by
  have h' := abs_le.1 h
  have a0 : 0 ≤ a := by nlinarith
  refine ⟨a0, ?_⟩
  rcases hb.eq_or_lt with e | hb
  · subst e
    have : a = 0 := by simpa using h
    simp [this]
  have sb := Real.sqrt_pos.2 hb
  have sa := Real.sqrt_nonneg a
  have e : (Real.sqrt a - Real.sqrt b) * (Real.sqrt a + Real.sqrt b) = a - b := by
    have := Real.mul_self_sqrt a0
    have := Real.mul_self_sqrt hb.le
    linarith
  have p : 0 < Real.sqrt a + Real.sqrt b := by linarith
  have q : |Real.sqrt a - Real.sqrt b| * (Real.sqrt a + Real.sqrt b) ≤ k * u * b := by rw [← abs_of_pos p, ← abs_mul, e]; exact h
  have q' : |Real.sqrt a - Real.sqrt b| * Real.sqrt b ≤ k * u * Real.sqrt b * Real.sqrt b := by
    rw [mul_assoc _ (Real.sqrt b), Real.mul_self_sqrt hb.le]
    refine le_trans ?_ q
    exact mul_le_mul_of_nonneg_left (by linarith) (abs_nonneg _)
  exact le_of_mul_le_mul_right q' sb

end tools

section media
variable {u κ L : ℝ} {rd : ℝ → ℝ}

/-- The squared wavelength in microns, as computed. -/
theorem microns_rel (h : Rounds u rd) (hu : u < 1) (w : ℝ) : Rel u 3 (rd (rd (w * w) * rd ((10 ^ 12 : ℚ) : ℝ))) (microns w ^ 2) := by
  have := h.after hu ((h.rel hu (w * w)).mul hu (h.rel hu ((10 ^ 12 : ℚ) : ℝ)))
  convert this using 1
  unfold microns; push_cast; ring

/-- One term of Sellmeier's formula, as computed. -/
theorem resonance_near (h : Rounds u rd) (hκ : 1 ≤ κ) (hu : κ * u ≤ 1 / 1000) {B C w : ℝ} (hw : w ≠ 0)
    (hC : microns w ^ 2 + |C| ≤ κ * |microns w ^ 2 - C|) {x : ℝ} (ex : x = rd (rd (w * w) * rd ((10 ^ 12 : ℚ) : ℝ))) :
    rd (x - C) ≠ 0 ∧ Rel (10 * κ * u) 6 (rd (rd (B * x) / rd (x - C))) (resonance B C (microns w ^ 2)) := by
  subst ex
  have hu0 := h.nonneg
  have hu1 : u ≤ 1 / 1000 := by nlinarith
  have huv : u ≤ 10 * κ * u := by nlinarith
  have hv1 : 10 * κ * u < 1 := by linarith
  have hm : 0 < microns w ^ 2 := by unfold microns; positivity
  have hd : microns w ^ 2 - C ≠ 0 := by
    intro e
    rw [e, abs_zero, mul_zero] at hC
    have := abs_nonneg C
    linarith
  have e1 := (microns_rel h (by linarith) w).err hu0 (by linarith)
  rw [abs_of_pos hm] at e1
  have e2 := h.errSub (by linarith) e1 ((Err.exact (u := u) C).mono hu0 (by linarith) (Nat.zero_le 3))
  have r := uncancelled hu0 e2 (by norm_num) hκ hC hu
  have h' := h.coarser huv
  refine ⟨r.ne hv1 hd, ?_⟩
  have b1 := h'.after hv1 ((Rel.refl (u := 10 * κ * u) B).mul hv1 (microns_rel h' hv1 w))
  exact h'.after hv1 (b1.div hv1 r)

/-- The last step of the glasses: the root of a sum that is known up to a fraction of itself. -/
theorem index_near (h : Rounds u rd) {k : ℕ} {η a b : ℝ} (hη : k * η ≤ 1) (hb : 0 ≤ b) (e : |a - b| ≤ k * η * b) :
    0 ≤ a ∧ |rd (Real.sqrt a) - Real.sqrt b| ≤ (k * η + 2 * u) * Real.sqrt b := by
  have hu0 := h.nonneg
  obtain ⟨a0, e1⟩ := root_close hη hb e
  refine ⟨a0, ?_⟩
  have e2 := h.err (Real.sqrt a)
  have sb := Real.sqrt_nonneg b
  rw [abs_of_nonneg (Real.sqrt_nonneg a)] at e2
  have e3 : Real.sqrt a ≤ 2 * Real.sqrt b := by
    have := (abs_le.1 e1).2
    have := mul_le_mul_of_nonneg_right hη sb
    linarith
  have e4 := mul_le_mul_of_nonneg_left e3 hu0
  have e5 := abs_sub_le (rd (Real.sqrt a)) (Real.sqrt a) (Real.sqrt b)
  linarith

/-- **C134**: Sellmeier glasses. -/
theorem C134_sellmeier (h : Rounds u rd) (hκ : 1 ≤ κ) (hL : 1 ≤ L) (hu : κ * L * u ≤ 1 / 1000) {B1 B2 B3 C1 C2 C3 w : ℝ} (hw : w ≠ 0)
    (h1 : microns w ^ 2 + |C1| ≤ κ * |microns w ^ 2 - C1|) (h2 : microns w ^ 2 + |C2| ≤ κ * |microns w ^ 2 - C2|)
    (h3 : microns w ^ 2 + |C3| ≤ κ * |microns w ^ 2 - C3|)
    (hS : 1 + |resonance B1 C1 (microns w ^ 2)| + |resonance B2 C2 (microns w ^ 2)| + |resonance B3 C3 (microns w ^ 2)| ≤
      L * (1 + resonance B1 C1 (microns w ^ 2) + resonance B2 C2 (microns w ^ 2) + resonance B3 C3 (microns w ^ 2))) :
    ∃ n, sellmeierN (Flt.fin rd B1) (Flt.fin rd B2) (Flt.fin rd B3) (Flt.fin rd C1) (Flt.fin rd C2) (Flt.fin rd C3) (Flt.fin rd w) = Flt.fin rd n ∧
      |n - Real.sqrt (1 + resonance B1 C1 (microns w ^ 2) + resonance B2 C2 (microns w ^ 2) + resonance B3 C3 (microns w ^ 2))| ≤
        200 * (κ * L) * u * Real.sqrt (1 + resonance B1 C1 (microns w ^ 2) + resonance B2 C2 (microns w ^ 2) + resonance B3 C3 (microns w ^ 2)) := by
  have hu0 := h.nonneg
  have hκu : κ * u ≤ 1 / 1000 := by
    have : 0 ≤ κ * u := by positivity
    nlinarith
  have hu1 : u ≤ 1 / 1000 := by nlinarith
  have huv : u ≤ 10 * κ * u := by nlinarith
  have hv1 : 10 * κ * u < 1 := by linarith
  have hv0 : 0 ≤ 10 * κ * u := by positivity
  obtain ⟨d1, t1⟩ := resonance_near (B := B1) h hκ hκu hw h1 rfl
  obtain ⟨d2, t2⟩ := resonance_near (B := B2) h hκ hκu hw h2 rfl
  obtain ⟨d3, t3⟩ := resonance_near (B := B3) h hκ hκu hw h3 rfl
  have h' := h.coarser huv
  have o := ((h'.rel hv1 1).err hv0 hv1).mono hv0 hv1 (show 1 ≤ 6 by norm_num)
  have s1 := h'.errAdd hv1 o (t1.err hv0 hv1)
  have s2 := h'.errAdd hv1 s1 ((t2.err hv0 hv1).mono hv0 hv1 (show 6 ≤ 7 by norm_num))
  have s3 := h'.errAdd hv1 s2 ((t3.err hv0 hv1).mono hv0 hv1 (show 6 ≤ 8 by norm_num))
  rw [abs_one] at s3
  have c := s3.close hv0 hv1 18 (by norm_num) (by linarith)
  have S0 : 0 ≤ 1 + resonance B1 C1 (microns w ^ 2) + resonance B2 C2 (microns w ^ 2) + resonance B3 C3 (microns w ^ 2) := by
    have : 0 ≤ 1 + |resonance B1 C1 (microns w ^ 2)| + |resonance B2 C2 (microns w ^ 2)| + |resonance B3 C3 (microns w ^ 2)| := by positivity
    nlinarith
  have c' := c.trans (mul_le_mul_of_nonneg_left hS (show 0 ≤ 18 * (10 * κ * u) by positivity))
  obtain ⟨a0, r⟩ := index_near (k := 180) (η := κ * L * u) h (by push_cast; linarith) S0 (c'.trans (le_of_eq (by push_cast; ring)))
  refine ⟨_, ?_, r.trans ?_⟩
  · unfold sellmeierN
    simp only [Flt.const_fin, Flt.mul_fin, Flt.sub_fin, Flt.div_fin d1, Flt.div_fin d2, Flt.div_fin d3, flt_one, Flt.add_fin, Flt.sqrt_fin a0]
  · refine mul_le_mul_of_nonneg_right ?_ (Real.sqrt_nonneg _)
    have : 0 ≤ κ * u := by positivity
    have : κ * u ≤ κ * L * u := by nlinarith
    push_cast
    nlinarith

/-- **C134**: Sumita glasses. -/
theorem C134_sumita (h : Rounds u rd) (hL : 1 ≤ L) (hu : L * u ≤ 1 / 1000) {A0 A1 A2 A3 A4 A5 w : ℝ} (hw : w ≠ 0)
    (hS : sumita |A0| |A1| |A2| |A3| |A4| |A5| (microns w ^ 2) ≤ L * sumita A0 A1 A2 A3 A4 A5 (microns w ^ 2)) :
    ∃ n, sumitaN (Flt.fin rd A0) (Flt.fin rd A1) (Flt.fin rd A2) (Flt.fin rd A3) (Flt.fin rd A4) (Flt.fin rd A5) (Flt.fin rd w) = Flt.fin rd n ∧
      |n - Real.sqrt (sumita A0 A1 A2 A3 A4 A5 (microns w ^ 2))| ≤ 60 * L * u * Real.sqrt (sumita A0 A1 A2 A3 A4 A5 (microns w ^ 2)) := by
  have hu0 := h.nonneg
  have hu1 : u ≤ 1 / 1000 := by nlinarith
  have hl : u < 1 := by linarith
  have hm : 0 < microns w ^ 2 := by unfold microns; positivity
  have x3 := microns_rel h hl w
  have xn := x3.ne hl hm.ne'
  have y5 := h.after hl ((h.rel hl 1).div hl x3)
  have ye := y5.err hu0 hl
  have lift : ∀ (A : ℝ) (k : ℕ), Err u k A A |A| := fun A k => (Err.exact A).mono hu0 hl (Nat.zero_le k)
  have f4 := h.errAdd hl (lift A4 6) (h.errMul hl ye (lift A5 0))
  have f3 := h.errAdd hl (lift A3 13) (h.errMul hl ye f4)
  have f2 := h.errAdd hl (lift A2 20) (h.errMul hl ye f3)
  have f1 := h.errMul hl ye f2
  have g := h.errAdd hl (lift A0 4) (h.errMul hl (lift A1 0) (x3.err hu0 hl))
  have s := h.errAdd hl (g.mono hu0 hl (show 5 ≤ 27 by norm_num)) f1
  have c := s.close hu0 hl 56 (by norm_num) (by linarith)
  have yp : |1 / microns w ^ 2| = 1 / microns w ^ 2 := abs_of_pos (by positivity)
  rw [yp, abs_of_pos hm] at c
  generalize hx : rd (rd (w * w) * rd ((10 ^ 12 : ℚ) : ℝ)) = x at *
  generalize microns w ^ 2 = m at *
  have eS : A0 + A1 * m + 1 / m * (A2 + 1 / m * (A3 + 1 / m * (A4 + 1 / m * A5))) = sumita A0 A1 A2 A3 A4 A5 m := by
    unfold sumita; field_simp; ring
  have eM : |A0| + |A1| * m + 1 / m * (|A2| + 1 / m * (|A3| + 1 / m * (|A4| + 1 / m * |A5|))) = sumita |A0| |A1| |A2| |A3| |A4| |A5| m := by
    unfold sumita; field_simp; ring
  rw [eS, eM] at c
  have S0 : 0 ≤ sumita A0 A1 A2 A3 A4 A5 m := by
    have : 0 ≤ sumita |A0| |A1| |A2| |A3| |A4| |A5| m := by unfold sumita; positivity
    nlinarith
  have c' := c.trans (mul_le_mul_of_nonneg_left hS (show 0 ≤ 56 * u by positivity))
  obtain ⟨a0, r⟩ := index_near (k := 56) (η := L * u) h (by push_cast; linarith) S0 (c'.trans (le_of_eq (by push_cast; ring)))
  refine ⟨_, ?_, r.trans ?_⟩
  · unfold sumitaN
    simp only [Flt.const_fin, Flt.mul_fin, hx, flt_one, Flt.div_fin xn, Flt.add_fin, Flt.sqrt_fin a0]
  · refine mul_le_mul_of_nonneg_right ?_ (Real.sqrt_nonneg _)
    push_cast
    nlinarith

/-- Air, before the one is added. -/
theorem air_near (h : Rounds u rd) (hκ : 1 ≤ κ) (hu : κ * u ≤ 1 / 1000) {p t f w : ℝ} (hw : w ≠ 0)
    (h1 : 146 + waveNumberSq w ≤ κ * |146 - waveNumberSq w|) (h2 : 41 + waveNumberSq w ≤ κ * |41 - waveNumberSq w|)
    (h3 : 1 + 0.003661 * (|t| + 273.15) ≤ κ * |1 + 0.003661 * (t - 273.15)|) :
    ∃ m, airN (Flt.fin rd p) (Flt.fin rd t) (Flt.fin rd f) (Flt.fin rd w) = Flt.fin rd (rd (rd 1 + m)) ∧
      Err (10 * κ * u) 27 m (filippenko (p * 7.50061683) (t - 273.15) (f * 7.50061683) (waveNumberSq w) * (10 ^ 6)⁻¹)
        (filippenkoSize (p * 7.50061683) t (f * 7.50061683) (waveNumberSq w) * (10 ^ 6)⁻¹) := by
  have hu0 := h.nonneg
  have hu1 : u ≤ 1 / 1000 := by nlinarith
  have hl : u < 1 := by linarith
  have huv : u ≤ 10 * κ * u := by nlinarith
  have hv1 : 10 * κ * u < 1 := by linarith
  have hv0 : 0 ≤ 10 * κ * u := by positivity
  have h' := h.coarser huv
  have hs : 0 < waveNumberSq w := by unfold waveNumberSq microns; positivity
  have es : ((1 / 10 ^ 12 : ℚ) : ℝ) / (w * w) = waveNumberSq w := by unfold waveNumberSq microns; push_cast; field_simp
  -- the squared wave number and the three differences
  have σ : ∀ {v : ℝ}, Rounds v rd → v < 1 → Rel v 3 (rd (rd ((1 / 10 ^ 12 : ℚ) : ℝ) / rd (w * w))) (waveNumberSq w) := by
    intro v r hv
    rw [← es]
    exact r.after hv ((r.rel hv _).div hv (r.rel hv _))
  have wn : rd (w * w) ≠ 0 := (h.rel hl (w * w)).ne hl (mul_ne_zero hw hw)
  have con : ∀ {v : ℝ} (_ : Rounds v rd) (_ : v < 1) (q : ℚ) (k : ℕ), 0 ≤ (q : ℝ) → 1 ≤ k → Err v k (rd (q : ℝ)) q q := by
    intro v r hv q k q0 hk
    have := ((r.rel hv (q : ℝ)).err r.nonneg hv).mono r.nonneg hv hk
    rwa [abs_of_nonneg q0] at this
  have σu := (σ h hl).err hu0 hl
  rw [abs_of_pos hs] at σu
  have A := uncancelled hu0 (h.errSub hl (con h hl 146 3 (by norm_num) (by norm_num)) σu) (by norm_num) hκ (by push_cast; exact h1) hu
  have B := uncancelled hu0 (h.errSub hl (con h hl 41 3 (by norm_num) (by norm_num)) σu) (by norm_num) hκ (by push_cast; exact h2) hu
  have one : ∀ {v : ℝ} (_ : Rounds v rd) (_ : v < 1) (k : ℕ), 1 ≤ k → Err v k (rd 1) 1 1 := by
    intro v r hv k hk
    have := con r hv 1 k (by norm_num) hk
    simpa using this
  have T := fun {v : ℝ} (r : Rounds v rd) (hv : v < 1) =>
    r.errSub hv ((Err.exact (u := v) t).mono r.nonneg hv (show 0 ≤ 1 by norm_num)) (con r hv (27315 / 100) 1 (by norm_num) le_rfl)
  have D := uncancelled hu0 (h.errAdd hl (one h hl 4 (by norm_num)) (h.errMul hl (con h hl (3661 / 1000000) 1 (by norm_num) le_rfl) (T h hl)))
    (by norm_num) hκ (by push_cast; norm_num at h3 ⊢; exact h3) hu
  have n1 : ((146 : ℚ) : ℝ) - waveNumberSq w ≠ 0 := by
    intro e
    push_cast at e
    rw [e, abs_zero, mul_zero] at h1
    linarith
  have n2 : ((41 : ℚ) : ℝ) - waveNumberSq w ≠ 0 := by
    intro e
    push_cast at e
    rw [e, abs_zero, mul_zero] at h2
    linarith
  have n3 : (1 : ℝ) + ((3661 / 1000000 : ℚ) : ℝ) * (t - ((27315 / 100 : ℚ) : ℝ)) ≠ 0 := by
    intro e
    push_cast at e
    norm_num at h3 e
    rw [e, abs_zero, mul_zero] at h3
    have := abs_nonneg t
    linarith
  -- dry air
  have m0 := h'.errMul hv1 (h'.errAdd hv1 (h'.errAdd hv1 (con h' hv1 (64328 / 1000) 3 (by norm_num) (by norm_num))
      (h'.errDiv hv1 (con h' hv1 (294981 / 10) 1 (by norm_num) le_rfl) A))
      ((h'.errDiv hv1 (con h' hv1 (2554 / 10) 1 (by norm_num) le_rfl) B).mono hv0 hv1 (show 3 ≤ 4 by norm_num)))
    (con h' hv1 (1 / 10 ^ 6) 1 (by norm_num) le_rfl)
  have P := fun q : ℝ => h'.errMul hv1 (Err.exact (u := 10 * κ * u) q) (con h' hv1 (750061683 / 100000000) 1 (by norm_num) le_rfl)
  have gas := h'.errMul hv1 (P p) (h'.errAdd hv1 (one h' hv1 10 (by norm_num))
    (h'.errMul hv1 (h'.errMul hv1 (h'.errSub hv1 (con h' hv1 (1049 / 1000) 4 (by norm_num) (by norm_num))
      (h'.errMul hv1 (con h' hv1 (157 / 10000) 1 (by norm_num) le_rfl) (T h' hv1))) (con h' hv1 (1 / 10 ^ 6) 1 (by norm_num) le_rfl)) (P p)))
  have den := h'.after hv1 ((h'.rel hv1 ((720883 / 1000 : ℚ) : ℝ)).mul hv1 D)
  have m1 := h'.errMul hv1 m0 (h'.errDiv hv1 gas den)
  -- water vapour
  have σv := (σ h' hv1).err hv0 hv1
  rw [abs_of_pos hs] at σv
  have wet := h'.errMul hv1 (h'.errMul hv1 (h'.errDiv hv1 (h'.errSub hv1 (con h' hv1 (624 / 10000) 5 (by norm_num) (by norm_num))
    (h'.errMul hv1 (con h' hv1 (680 / 1000000) 1 (by norm_num) le_rfl) σv)) D) (P f)) (con h' hv1 (1 / 10 ^ 6) 1 (by norm_num) le_rfl)
  have m2 := h'.errSub hv1 m1 (wet.mono hv0 hv1 (show 13 ≤ 26 by norm_num))
  have dn := den.ne hv1 (mul_ne_zero (by norm_num) n3)
  refine ⟨_, ?_, m2.same ?_ ?_⟩
  · unfold airN
    simp only [Flt.const_fin, Flt.mul_fin, Flt.sub_fin, Flt.div_fin wn, Flt.div_fin (A.ne hv1 n1), Flt.div_fin (B.ne hv1 n2), flt_one, Flt.add_fin,
      Flt.div_fin (D.ne hv1 n3), Flt.div_fin dn]
  · unfold filippenko edlen; push_cast; norm_num; ring
  · unfold filippenkoSize; rw [abs_mul, abs_mul, abs_mul]; push_cast; norm_num; ring

/-- **C134**: air; `n - 1` is small, so the error is hardly more than that of adding one. -/
theorem C134_air (h : Rounds u rd) (hκ : 1 ≤ κ) (hu : κ * u ≤ 1 / 1000) {p t f w : ℝ} (hw : w ≠ 0)
    (h1 : 146 + waveNumberSq w ≤ κ * |146 - waveNumberSq w|) (h2 : 41 + waveNumberSq w ≤ κ * |41 - waveNumberSq w|)
    (h3 : 1 + 0.003661 * (|t| + 273.15) ≤ κ * |1 + 0.003661 * (t - 273.15)|) :
    ∃ n, airN (Flt.fin rd p) (Flt.fin rd t) (Flt.fin rd f) (Flt.fin rd w) = Flt.fin rd n ∧
      |n - (1 + filippenko (p * 7.50061683) (t - 273.15) (f * 7.50061683) (waveNumberSq w) * (10 ^ 6)⁻¹)| ≤
        3 * u + 600 * κ * u * (filippenkoSize (p * 7.50061683) t (f * 7.50061683) (waveNumberSq w) * (10 ^ 6)⁻¹) := by
  have hu0 := h.nonneg
  have hu1 : u ≤ 1 / 1000 := by nlinarith
  have hv0 : 0 ≤ 10 * κ * u := by positivity
  obtain ⟨m, e, k⟩ := air_near (p := p) (f := f) h hκ hu hw h1 h2 h3
  refine ⟨_, e, ?_⟩
  have M0 := k.M0
  have kb := k.1
  have c := k.close hv0 (by linarith) 54 (by norm_num) (by linarith)
  generalize filippenkoSize (p * 7.50061683) t (f * 7.50061683) (waveNumberSq w) * (10 ^ 6)⁻¹ = M at *
  generalize filippenko (p * 7.50061683) (t - 273.15) (f * 7.50061683) (waveNumberSq w) * (10 ^ 6)⁻¹ = N at *
  have r1 := h.err 1
  have r2 := h.err (rd 1 + m)
  rw [abs_one] at r1
  have b : |rd 1 + m| ≤ 2 + 2 * M := by
    have i1 : 54 * (10 * κ * u) * M ≤ 1 * M := mul_le_mul_of_nonneg_right (by linarith) M0
    have i2 := abs_add_le (rd 1) m
    have i3 := abs_sub_abs_le_abs_sub (rd 1) 1
    have i4 := abs_sub_abs_le_abs_sub m N
    rw [abs_one] at i3
    linarith
  have b' := mul_le_mul_of_nonneg_left b hu0
  have i0 : |rd (rd 1 + m) - (1 + N)| ≤ |rd (rd 1 + m) - (rd 1 + m)| + (|rd 1 - 1| + |m - N|) := by
    rw [show rd (rd 1 + m) - (1 + N) = (rd (rd 1 + m) - (rd 1 + m)) + ((rd 1 - 1) + (m - N)) by ring]
    exact (abs_add_le _ _).trans (by linarith [abs_add_le (rd 1 - 1) (m - N)])
  have i5 : u * M ≤ κ * u * M := mul_le_mul_of_nonneg_right (by nlinarith) M0
  have i6 : 0 ≤ κ * u * M := by positivity
  linarith

/-- The search in a table only compares. -/
theorem upperIdx_flt (w : ℝ) : ∀ (l : List ℝ) (i : ℕ), upperIdx (Flt.fin rd w) i (l.map (Flt.fin rd)) = upperIdx (Dbl.fin w) i (l.map Dbl.fin)
  | [], _ => rfl
  | a :: l, i => by
    have := upperIdx_flt w l (i + 1)
    by_cases c : w < a <;> simp [upperIdx, c, this]

/-- **C134**: tables. -/
theorem C134_table (h : Rounds u rd) (hu : u ≤ 1 / 1000) {a v : List ℝ} (hinc : a.Pairwise (· < ·)) (hlen : v.length = a.length) {k : ℕ}
    (hk : k + 1 < a.length) {w : ℝ} (h1 : a[k] ≤ w) (h2 : w < a[k + 1]) :
    ∃ n, tableGetN (a.map (Flt.fin rd)) (v.map (Flt.fin rd)) (Flt.fin rd w) = some (Flt.fin rd n) ∧
      |n - interpolated a[k] a[k + 1] v[k] v[k + 1] w| ≤ 12 * u * (|v[k + 1] - v[k]| + |v[k]|) := by
  have hu0 := h.nonneg
  have hl : u < 1 := by linarith
  obtain ⟨a0, as, rfl⟩ : ∃ a0 as, a = a0 :: as := by
    cases a with
    | nil => simp at hk
    | cons x xs => exact ⟨x, xs, rfl⟩
  have hk' : k < as.length := by simpa using hk
  have hu : upperIdx (Flt.fin rd w) 1 (as.map (Flt.fin rd)) = 1 + k := by
    rw [upperIdx_flt]
    refine upperIdx_eq w as 1 k hk' ?_ (by simpa using h2)
    intro j hj hjk
    refine le_trans ?_ h1
    have := incr_le hinc (i := j + 1) (j := k) (by simpa using hj) (by simpa using Nat.lt_of_lt_of_le hk' (Nat.le_succ _)) (by omega)
    simpa using this
  have ha0 : ¬ w < a0 := by
    have := incr_le hinc (i := 0) (j := k) (by simp) (by omega) (by omega)
    simp only [List.getElem_cons_zero] at this
    linarith
  have hal : ¬ (a0 :: as)[as.length] < w := by
    have := incr_le hinc (i := k + 1) (j := as.length) hk (by simp) (by omega)
    linarith
  have hvk : k + 1 < v.length := by omega
  have e0 : (List.map (Flt.fin rd) (a0 :: as))[0]? = some (Flt.fin rd a0) := rfl
  have el : (List.map (Flt.fin rd) (a0 :: as))[(List.map (Flt.fin rd) (a0 :: as)).length - 1]? = some (Flt.fin rd (a0 :: as)[as.length]) := by
    simp only [List.length_map, List.length_cons, Nat.add_sub_cancel, List.getElem?_map]
    rw [List.getElem?_eq_getElem (by simp)]; rfl
  have et : (List.map (Flt.fin rd) (a0 :: as)).tail = as.map (Flt.fin rd) := rfl
  have ei : ∀ (l : List ℝ) (i : ℕ) (hi : i < l.length), (l.map (Flt.fin rd))[i]? = some (Flt.fin rd l[i]) := by
    intro l i hi; simp [hi]
  unfold tableGetN
  rw [e0, el, et, hu]
  simp only [Option.bind_eq_bind, Option.bind_some, Flt.lt_fin, ha0, decide_false, Bool.false_eq_true, if_false, Flt.gt_fin, hal]
  rw [show 1 + k - 1 = k by omega, show 1 + k = k + 1 by omega, ei _ k (by omega), ei _ (k + 1) hvk, ei _ k (by omega), ei _ (k + 1) hk]
  generalize (a0 :: as)[k] = p at *
  generalize (a0 :: as)[k + 1] = q at *
  generalize v[k] = y at *
  generalize v[k + 1] = z at *
  have hq : 0 < q - p := by linarith
  have den := h.rel hl (q - p)
  have r := h.after hl ((h.after hl ((h.rel hl (w - p)).mul hl (h.rel hl (z - y)))).div hl den)
  have s := h.errAdd hl (r.err hu0 hl) ((Err.exact (u := u) y).mono hu0 hl (Nat.zero_le _))
  have s' := s.same (b' := interpolated p q y z w) (by unfold interpolated; field_simp; ring) rfl
  refine ⟨_, ?_, (s'.close hu0 hl 12 (by norm_num) (by linarith)).trans ?_⟩
  · simp only [Option.bind_some, Flt.sub_fin, Flt.mul_fin, Flt.div_fin (den.ne hl hq.ne'), Flt.add_fin]
    rfl
  · refine mul_le_mul_of_nonneg_left ?_ (by positivity)
    have : |(w - p) * (z - y) / (q - p)| ≤ |z - y| := by
      rw [abs_div, abs_mul, abs_of_pos hq, abs_of_nonneg (by linarith : 0 ≤ w - p), div_le_iff₀ hq, mul_comm]
      exact mul_le_mul_of_nonneg_left (by linarith) (abs_nonneg _)
    linarith

end media

/-! ## Concrete cases in double precision -/

private theorem tiny : (2 : ℝ) ^ (-53 : ℤ) ≤ 1 / 10 ^ 15 := by rw [zpow_neg]; norm_num

/-- Fused silica at one micron: the index is accurate to 1e-11. -/
example : ∃ n, sellmeierN (Flt.fin rd53 0.6961663) (Flt.fin rd53 0.4079426) (Flt.fin rd53 0.8974794) (Flt.fin rd53 0.00467914826)
      (Flt.fin rd53 0.0135120631) (Flt.fin rd53 97.9340025) (Flt.fin rd53 (1 / 10 ^ 6)) = Flt.fin rd53 n ∧
    |n - Real.sqrt (1 + resonance 0.6961663 0.00467914826 1 + resonance 0.4079426 0.0135120631 1 + resonance 0.8974794 97.9340025 1)| ≤ 1 / 10 ^ 11 := by
  have hm : microns (1 / 10 ^ 6) ^ 2 = 1 := by unfold microns; norm_num
  have := C134_sellmeier (κ := 2) (L := 2) (B1 := 0.6961663) (B2 := 0.4079426) (B3 := 0.8974794) (C1 := 0.00467914826) (C2 := 0.0135120631)
    (C3 := 97.9340025) (w := 1 / 10 ^ 6) rd53_rounds (by norm_num) (by norm_num) (by linarith [tiny]) (by norm_num) (by rw [hm]; norm_num [abs_of_pos, abs_of_neg])
    (by rw [hm]; norm_num [abs_of_pos, abs_of_neg]) (by rw [hm]; norm_num [abs_of_pos, abs_of_neg]) (by rw [hm]; norm_num [resonance, abs_of_pos, abs_of_neg])
  rw [hm] at this
  obtain ⟨n, e, k⟩ := this
  refine ⟨n, e, k.trans ?_⟩
  have r : Real.sqrt (1 + resonance 0.6961663 0.00467914826 1 + resonance 0.4079426 0.0135120631 1 + resonance 0.8974794 97.9340025 1) ≤ 1.5 := by
    apply Real.sqrt_le_iff.2
    unfold resonance
    norm_num
  have r0 := Real.sqrt_nonneg (1 + resonance 0.6961663 0.00467914826 1 + resonance 0.4079426 0.0135120631 1 + resonance 0.8974794 97.9340025 1)
  have t := tiny
  have t0 : (0 : ℝ) ≤ 2 ^ (-53 : ℤ) := by positivity
  generalize Real.sqrt _ = X at *
  generalize (2 : ℝ) ^ (-53 : ℤ) = ε at *
  have : ε * X ≤ 1 / 10 ^ 15 * 1.5 := mul_le_mul t r r0 (by norm_num)
  norm_num at this ⊢
  linarith

/-- A glass with six coefficients, at one micron. -/
example : ∃ n, sumitaN (Flt.fin rd53 2) (Flt.fin rd53 (-0.01)) (Flt.fin rd53 0.01) (Flt.fin rd53 0) (Flt.fin rd53 0) (Flt.fin rd53 0) (Flt.fin rd53 (1 / 10 ^ 6)) =
    Flt.fin rd53 n ∧ |n - Real.sqrt 2| ≤ 120 * 2 ^ (-53 : ℤ) * Real.sqrt 2 := by
  have hm : microns (1 / 10 ^ 6) ^ 2 = 1 := by unfold microns; norm_num
  have := C134_sumita (L := 2) (A0 := 2) (A1 := -0.01) (A2 := 0.01) (A3 := 0) (A4 := 0) (A5 := 0) (w := 1 / 10 ^ 6) rd53_rounds (by norm_num)
    (by linarith [tiny]) (by norm_num) (by rw [hm]; norm_num [sumita, abs_of_pos, abs_of_neg])
  rw [hm, show sumita 2 (-0.01) 0.01 0 0 0 1 = 2 by norm_num [sumita]] at this
  norm_num at this ⊢
  exact this

/-- Air on a mountain, at one micron: the index is accurate to 1e-14. -/
example : ∃ n, airN (Flt.fin rd53 70) (Flt.fin rd53 293.15) (Flt.fin rd53 1) (Flt.fin rd53 (1 / 10 ^ 6)) = Flt.fin rd53 n ∧
    |n - (1 + filippenko (70 * 7.50061683) 20 (1 * 7.50061683) 1 * (10 ^ 6)⁻¹)| ≤ 1 / 10 ^ 14 := by
  have hs : waveNumberSq (1 / 10 ^ 6) = 1 := by unfold waveNumberSq microns; norm_num
  have := C134_air (κ := 3) (p := 70) (t := 293.15) (f := 1) (w := 1 / 10 ^ 6) rd53_rounds (by norm_num) (by linarith [tiny]) (by norm_num)
    (by rw [hs]; norm_num) (by rw [hs]; norm_num) (by norm_num [abs_of_pos])
  rw [hs, show (293.15 : ℝ) - 273.15 = 20 by norm_num] at this
  obtain ⟨n, e, k⟩ := this
  refine ⟨n, e, k.trans ?_⟩
  have z : filippenkoSize (70 * 7.50061683) 293.15 (1 * 7.50061683) 1 * (10 ^ 6)⁻¹ ≤ 1 / 1000 := by norm_num [filippenkoSize, abs_of_pos]
  have z0 : 0 ≤ filippenkoSize (70 * 7.50061683) 293.15 (1 * 7.50061683) 1 * (10 ^ 6)⁻¹ := by unfold filippenkoSize; positivity
  have t := tiny
  have t0 : (0 : ℝ) ≤ 2 ^ (-53 : ℤ) := by positivity
  generalize filippenkoSize _ _ _ _ * _ = X at *
  generalize (2 : ℝ) ^ (-53 : ℤ) = ε at *
  have : ε * X ≤ 1 / 10 ^ 15 * (1 / 1000) := mul_le_mul t z z0 (by norm_num)
  norm_num at this t ⊢
  linarith

/-- A table of three wavelengths. -/
example : ∃ n, tableGetN ([1, 2, 4].map (Flt.fin rd53)) ([1.5, 1.4, 1.3].map (Flt.fin rd53)) (Flt.fin rd53 3) = some (Flt.fin rd53 n) ∧
    |n - 1.35| ≤ 12 * 2 ^ (-53 : ℤ) * 1.5 := by
  have := C134_table (a := [1, 2, 4]) (v := [1.5, 1.4, 1.3]) rd53_rounds (by linarith [tiny]) (by norm_num) rfl (k := 1) (by norm_num) (w := 3)
    (by norm_num) (by norm_num)
  simp only [List.getElem_cons_succ, List.getElem_cons_zero] at this
  rw [show interpolated 2 4 1.4 1.3 3 = 1.35 by norm_num [interpolated], show |(1.3 : ℝ) - 1.4| + |1.4| = 1.5 by norm_num [abs_of_pos, abs_of_neg]] at this
  exact this

end Batoid.Props
