import Verif.Props.RoundSnell

/-!
# Property C118: where rays land, in arithmetic with rounding

Specification vocabulary: `Rounds`, `nrm` of C111; the equations of the surfaces.
-/

namespace Batoid.Props
open Batoid

/-! ## Absolute errors -/

section err
variable {u : ℝ} {rd : ℝ → ℝ} {k l : ℕ} {a b c d M N : ℝ}

/-- `a` is computed for `b`, a sum of terms whose sizes add up to `M`, with `k` relative errors in each term. -/
def Err (u : ℝ) (k : ℕ) (a b M : ℝ) : Prop := |b| ≤ M ∧ |a - b| * (1 - u) ^ k ≤ (1 - (1 - u) ^ k) * M

theorem Err.size (hu : u < 1) (h : Err u k a b M) : |a| * (1 - u) ^ k ≤ M := by
  obtain ⟨h1, h2⟩ := h
  have g := gpos hu k
  have := abs_sub_abs_le_abs_sub a b
  nlinarith [mul_le_mul_of_nonneg_right this g.le]

theorem Err.M0 (h : Err u k a b M) : 0 ≤ M := (abs_nonneg _).trans h.1

theorem Err.mono (hu0 : 0 ≤ u) (hu : u < 1) (h : Err u k a b M) (hkl : k ≤ l) : Err u l a b M := by
  have M0 := h.M0
  obtain ⟨h1, h2⟩ := h
  have hp : (1 - u) ^ l ≤ (1 - u) ^ k := pow_le_pow_of_le_one (by linarith) (by linarith) hkl
  refine ⟨h1, ?_⟩
  have := mul_le_mul_of_nonneg_left hp (abs_nonneg (a - b))
  have := mul_le_mul_of_nonneg_right hp M0
  linarith

theorem Rel.err (hu0 : 0 ≤ u) (hu : u < 1) (h : Rel u k a b) : Err u k a b |b| := by
  obtain ⟨θ, rfl, p1, p2⟩ := h
  have g := gpos hu k
  have g1 := gle hu0 hu k
  refine ⟨le_refl _, ?_⟩
  rw [show b * θ - b = (θ - 1) * b by ring, abs_mul, mul_right_comm]
  refine mul_le_mul_of_nonneg_right ?_ (abs_nonneg b)
  have h0 : 0 ≤ θ := g.le.trans p1
  rcases le_total θ 1 with h | h
  · rw [abs_of_nonpos (by linarith)]
    nlinarith
  · rw [abs_of_nonneg (by linarith)]
    nlinarith

theorem Err.exact (a : ℝ) : Err u 0 a a |a| := ⟨le_refl _, by simp⟩

theorem Err.neg (h : Err u k a b M) : Err u k (-a) (-b) M := by
  obtain ⟨h1, h2⟩ := h
  exact ⟨by rwa [abs_neg], by rwa [show -a - -b = -(a - b) by ring, abs_neg]⟩

/-- Rounding. -/
theorem Rounds.errAfter (h : Rounds u rd) (hu : u < 1) (h1 : Err u k a b M) : Err u (k + 1) (rd a) b M := by
  have hu0 := h.nonneg
  have hs := h1.size hu
  obtain ⟨h2, h3⟩ := h1
  have g := gpos hu k
  have e := h.err a
  refine ⟨h2, ?_⟩
  have t : |rd a - b| ≤ |rd a - a| + |a - b| := abs_sub_le _ _ _
  rw [pow_succ]
  have k1 : |rd a - b| * ((1 - u) ^ k * (1 - u)) ≤ (u * |a| + |a - b|) * ((1 - u) ^ k * (1 - u)) :=
    mul_le_mul_of_nonneg_right (by linarith) (mul_nonneg g.le (by linarith))
  refine k1.trans ?_
  have k2 : u * |a| * ((1 - u) ^ k * (1 - u)) = u * (1 - u) * (|a| * (1 - u) ^ k) := by ring
  have k3 : |a - b| * ((1 - u) ^ k * (1 - u)) = (1 - u) * (|a - b| * (1 - u) ^ k) := by ring
  rw [add_mul, k2, k3]
  have M0 : 0 ≤ M := (abs_nonneg _).trans h2
  have k4 := mul_le_mul_of_nonneg_left hs (show 0 ≤ u * (1 - u) from mul_nonneg hu0 (by linarith))
  have k5 := mul_le_mul_of_nonneg_left h3 (show (0 : ℝ) ≤ 1 - u by linarith)
  have k6 : u * (1 - u) * M ≤ u * M := by nlinarith [mul_nonneg hu0 M0]
  linarith

theorem Err.plus (h1 : Err u k a b M) (h2 : Err u k c d N) : Err u k (a + c) (b + d) (M + N) := by
  obtain ⟨p1, p2⟩ := h1
  obtain ⟨q1, q2⟩ := h2
  by_cases hg : 0 ≤ (1 - u) ^ k
  · refine ⟨(abs_add_le _ _).trans (add_le_add p1 q1), ?_⟩
    have : |a + c - (b + d)| ≤ |a - b| + |c - d| := by
      rw [show a + c - (b + d) = (a - b) + (c - d) by ring]; exact abs_add_le _ _
    have := mul_le_mul_of_nonneg_right this hg
    linarith
  · refine ⟨(abs_add_le _ _).trans (add_le_add p1 q1), ?_⟩
    push Not at hg
    have n1 : |a + c - (b + d)| * (1 - u) ^ k ≤ 0 := mul_nonpos_of_nonneg_of_nonpos (abs_nonneg _) hg.le
    have n2 : 0 ≤ (1 - (1 - u) ^ k) * (M + N) :=
      mul_nonneg (by linarith) (add_nonneg ((abs_nonneg _).trans p1) ((abs_nonneg _).trans q1))
    linarith

theorem Err.times (hu0 : 0 ≤ u) (hu : u < 1) (h1 : Err u k a b M) (h2 : Err u l c d N) : Err u (k + l) (a * c) (b * d) (M * N) := by
  have M0 := h1.M0
  have N0 := h2.M0
  have s := h1.size hu
  obtain ⟨p1, p2⟩ := h1
  obtain ⟨q1, q2⟩ := h2
  refine ⟨by rw [abs_mul]; exact mul_le_mul p1 q1 (abs_nonneg _) M0, ?_⟩
  have g1 := gpos hu k
  have g2 := gpos hu l
  have l2 := gle hu0 hu l
  have t : |a * c - b * d| ≤ |a| * |c - d| + |a - b| * |d| := by
    rw [show a * c - b * d = a * (c - d) + (a - b) * d by ring, ← abs_mul, ← abs_mul]; exact abs_add_le _ _
  rw [pow_add]
  refine (mul_le_mul_of_nonneg_right t (mul_nonneg g1.le g2.le)).trans ?_
  have e1 : |a| * |c - d| * ((1 - u) ^ k * (1 - u) ^ l) = (|a| * (1 - u) ^ k) * (|c - d| * (1 - u) ^ l) := by ring
  have e2 : |a - b| * |d| * ((1 - u) ^ k * (1 - u) ^ l) = (|a - b| * (1 - u) ^ k) * |d| * (1 - u) ^ l := by ring
  rw [add_mul, e1, e2]
  have b1 : (|a| * (1 - u) ^ k) * (|c - d| * (1 - u) ^ l) ≤ M * ((1 - (1 - u) ^ l) * N) :=
    mul_le_mul s q2 (mul_nonneg (abs_nonneg _) g2.le) M0
  have b2 : (|a - b| * (1 - u) ^ k) * |d| * (1 - u) ^ l ≤ (1 - (1 - u) ^ k) * M * N * (1 - u) ^ l := by
    refine mul_le_mul_of_nonneg_right ?_ g2.le
    exact mul_le_mul p2 q1 (abs_nonneg _) ((mul_nonneg (abs_nonneg _) g1.le).trans p2)
  linarith

/-- The error of a sum, a difference, a product and a quotient of computed numbers. -/
theorem Rounds.errAdd (h : Rounds u rd) (hu : u < 1) (h1 : Err u k a b M) (h2 : Err u k c d N) :
    Err u (k + 1) (rd (a + c)) (b + d) (M + N) := h.errAfter hu (h1.plus h2)
theorem Rounds.errSub (h : Rounds u rd) (hu : u < 1) (h1 : Err u k a b M) (h2 : Err u k c d N) :
    Err u (k + 1) (rd (a - c)) (b - d) (M + N) := by
  rw [sub_eq_add_neg, sub_eq_add_neg]
  exact h.errAfter hu (h1.plus h2.neg)
theorem Rounds.errMul (h : Rounds u rd) (hu : u < 1) (h1 : Err u k a b M) (h2 : Err u l c d N) :
    Err u (k + l + 1) (rd (a * c)) (b * d) (M * N) := h.errAfter hu (h1.times h.nonneg hu h2)
theorem Rounds.errDiv (h : Rounds u rd) (hu : u < 1) (h1 : Err u k a b M) (h2 : Rel u l c d) :
    Err u (k + l + 1) (rd (a / c)) (b / d) (M / |d|) := by
  have h3 := (h2.inv hu).err h.nonneg hu
  have h4 := h1.times h.nonneg hu h3
  rw [← div_eq_mul_inv, ← div_eq_mul_inv, abs_inv, ← div_eq_mul_inv] at h4
  exact h.errAfter hu h4

theorem Err.close (hu0 : 0 ≤ u) (hu : u < 1) (K : ℝ) (h : Err u k a b M) (hK : 2 * (k : ℝ) ≤ K) (hKu : K * u ≤ 1) :
    |a - b| ≤ K * u * M := by
  have M0 := h.M0
  obtain ⟨-, h2⟩ := h
  have hb : 1 - k * u ≤ (1 - u) ^ k := by
    have := one_add_mul_le_pow (a := -u) (by linarith) k
    have e : (1 + -u) ^ k = (1 - u) ^ k := by ring_nf
    rw [e] at this
    linarith
  have hku : (k : ℝ) * u ≤ 1 / 2 := by nlinarith
  have h3 : |a - b| * (1 / 2) ≤ k * u * M := by
    have k1 : |a - b| * (1 / 2) ≤ |a - b| * (1 - u) ^ k := mul_le_mul_of_nonneg_left (by linarith) (abs_nonneg _)
    have k2 : (1 - (1 - u) ^ k) * M ≤ k * u * M := mul_le_mul_of_nonneg_right (by linarith) M0
    linarith
  have h4 : 2 * (k : ℝ) * u * M ≤ K * u * M := mul_le_mul_of_nonneg_right (mul_le_mul_of_nonneg_right hK hu0) M0
  linarith

end err

/-! ## Quadratic equations -/

section quadratic
variable {u : ℝ} {rd : ℝ → ℝ} {a b c x y K η : ℝ}

/-- `x` solves the quadratic equation up to a fraction `K` of the sizes of its terms. -/
def Solves (a b c K x : ℝ) : Prop := |a * x ^ 2 + b * x + c| ≤ K * (|a| * x ^ 2 + |b| * |x| + |c|)

theorem Solves.mono {L : ℝ} (h : Solves a b c K x) (hKL : K ≤ L) : Solves a b c L x :=
  h.trans (mul_le_mul_of_nonneg_right hKL (by positivity))

/-- If `x` solves the equation, so does `c / (a x)`, equally well. -/
theorem Solves.other (h : Solves a b c K x) (ha : a ≠ 0) (hx : x ≠ 0) : Solves a b c K (c / (a * x)) := by
  unfold Solves at *
  have e1 : a * (c / (a * x)) ^ 2 + b * (c / (a * x)) + c = c / (a * x ^ 2) * (a * x ^ 2 + b * x + c) := by
    field_simp; ring
  have ha' : |a| ≠ 0 := abs_ne_zero.2 ha
  have hx' : |x| ≠ 0 := abs_ne_zero.2 hx
  have e2 : |a| * (c / (a * x)) ^ 2 + |b| * |c / (a * x)| + |c| = |c / (a * x ^ 2)| * (|a| * x ^ 2 + |b| * |x| + |c|) := by
    rw [← sq_abs (c / (a * x)), ← sq_abs x, abs_div, abs_div, abs_mul, abs_mul, abs_pow, abs_abs]
    field_simp
    ring
  rw [e1, e2, abs_mul]
  have := mul_le_mul_of_nonneg_left h (abs_nonneg (c / (a * x ^ 2)))
  linarith

/-- A number near a solution. -/
theorem Solves.near (h : Solves a b c K y) (hK : 0 ≤ K) (hη0 : 0 ≤ η) (hη : η ≤ 1 / 50) (hx : |x - y| ≤ η * |y|) :
    Solves a b c (105 / 100 * K + 22 / 10 * η) x := by
  unfold Solves at *
  have A0 := abs_nonneg a
  have B0 := abs_nonneg b
  have C0 := abs_nonneg c
  have Y0 := abs_nonneg y
  have X0 := abs_nonneg x
  have x1 : |x| ≤ |y| + η * |y| := by have := abs_sub_abs_le_abs_sub x y; linarith
  have y1 : (1 - η) * |y| ≤ |x| := by
    have := abs_sub_abs_le_abs_sub y x
    rw [abs_sub_comm] at this
    linarith
  have y2 : |y| ≤ 50 / 49 * |x| := by nlinarith
  have y3 : y ^ 2 ≤ 1042 / 1000 * x ^ 2 := by
    rw [← sq_abs y, ← sq_abs x]
    nlinarith
  have e : a * x ^ 2 + b * x + c = (a * y ^ 2 + b * y + c) + (x - y) * (a * (x + y) + b) := by ring
  have t1 : |a * (x + y) + b| ≤ |a| * (202 / 100 * |y|) + |b| := by
    refine (abs_add_le _ _).trans ?_
    rw [abs_mul]
    have : |x + y| ≤ 202 / 100 * |y| := (abs_add_le _ _).trans (by nlinarith)
    have := mul_le_mul_of_nonneg_left this A0
    linarith
  have t2 : |(x - y) * (a * (x + y) + b)| ≤ η * |y| * (|a| * (202 / 100 * |y|) + |b|) := by
    rw [abs_mul]
    exact mul_le_mul hx t1 (abs_nonneg _) (mul_nonneg hη0 Y0)
  have t3 : η * |y| * (|a| * (202 / 100 * |y|) + |b|) ≤ 202 / 100 * η * (|a| * y ^ 2 + |b| * |y| + |c|) := by
    rw [← sq_abs y]
    have := mul_nonneg hη0 (mul_nonneg B0 Y0)
    have := mul_nonneg hη0 C0
    nlinarith
  have t4 : |a| * y ^ 2 + |b| * |y| + |c| ≤ 1042 / 1000 * (|a| * x ^ 2 + |b| * |x| + |c|) := by
    have := mul_le_mul_of_nonneg_left y3 A0
    have := mul_le_mul_of_nonneg_left y2 B0
    nlinarith [mul_nonneg B0 X0]
  have t5 : |a * x ^ 2 + b * x + c| ≤ (K + 202 / 100 * η) * (|a| * y ^ 2 + |b| * |y| + |c|) := by
    rw [e]
    refine (abs_add_le _ _).trans ?_
    linarith
  refine t5.trans ?_
  have t6 := mul_le_mul_of_nonneg_left t4 (show 0 ≤ K + 202 / 100 * η by positivity)
  have m0 : 0 ≤ |a| * x ^ 2 + |b| * |x| + |c| := by positivity
  have t7 : (K + 202 / 100 * η) * (1042 / 1000 * (|a| * x ^ 2 + |b| * |x| + |c|)) ≤
      (105 / 100 * K + 22 / 10 * η) * (|a| * x ^ 2 + |b| * |x| + |c|) := by
    have := mul_nonneg hη0 m0
    nlinarith
  exact t6.trans t7

/-- The root formulas with an inexact discriminant `D`. -/
theorem solves_formula {D : ℝ} (ha : a ≠ 0) (hD : 0 ≤ D) (hK : 0 ≤ K) (he : |D - (b ^ 2 - 4 * a * c)| ≤ K * (b ^ 2 + 4 * |a| * |c|))
    {σ : ℝ} (hσ : σ = 1 ∨ σ = -1) (hs : 0 ≤ σ * b) : Solves a b c K ((-b - σ * Real.sqrt D) / (2 * a)) := by
  unfold Solves
  have hq := Real.mul_self_sqrt hD
  have hs0 := Real.sqrt_nonneg D
  set s := Real.sqrt D
  have hσ2 : σ * σ = 1 := by rcases hσ with rfl | rfl <;> norm_num
  have A1 : 0 < |a| := abs_pos.2 ha
  have e : a * ((-b - σ * s) / (2 * a)) ^ 2 + b * ((-b - σ * s) / (2 * a)) + c = (D - (b ^ 2 - 4 * a * c)) / (4 * a) := by
    field_simp
    have : (-b - σ * s) ^ 2 = b ^ 2 + 2 * b * (σ * s) + (σ * σ) * (s * s) := by ring
    rw [hσ2, hq] at this
    nlinarith
  rw [e, abs_div, abs_mul, abs_of_pos (show (0 : ℝ) < 4 by norm_num), div_le_iff₀ (by positivity)]
  refine he.trans ?_
  have hy : b ^ 2 ≤ 4 * |a| ^ 2 * ((-b - σ * s) / (2 * a)) ^ 2 := by
    rw [sq_abs, div_pow, mul_pow]
    have : 4 * a ^ 2 * ((-b - σ * s) ^ 2 / (2 ^ 2 * a ^ 2)) = (-b - σ * s) ^ 2 := by field_simp; ring
    rw [this]
    have : (-b - σ * s) ^ 2 = b ^ 2 + 2 * (σ * b) * s + (σ * σ) * (s * s) := by ring
    rw [this, hσ2, hq]
    nlinarith [mul_nonneg hs hs0]
  have : b ^ 2 + 4 * |a| * |c| ≤ (|a| * ((-b - σ * s) / (2 * a)) ^ 2 + |b| * |(-b - σ * s) / (2 * a)| + |c|) * (4 * |a|) := by
    have := mul_nonneg (mul_nonneg (abs_nonneg b) (abs_nonneg ((-b - σ * s) / (2 * a)))) A1.le
    nlinarith
  have := mul_le_mul_of_nonneg_left this hK
  linarith

/-- The computed discriminant. -/
theorem disc_near (h : Rounds u rd) (hu : u ≤ 1 / 1000) (a b c : ℝ) :
    |rd (rd (b * b) - rd (rd (rd 4 * a) * c)) - (b ^ 2 - 4 * a * c)| ≤ 10 * u * (b ^ 2 + 4 * |a| * |c|) := by
  have hu0 := h.nonneg
  have hu1 : u < 1 := by linarith
  have e1 := h.errMul hu1 (Err.exact b) (Err.exact b)
  have e2 := h.errMul hu1 (h.errMul hu1 ((h.rel hu1 4).err hu0 hu1) (Err.exact a)) (Err.exact c)
  have e3 := h.errSub hu1 (e1.mono hu0 hu1 (show 0 + 0 + 1 ≤ 1 + 0 + 1 + 0 + 1 by norm_num)) e2
  have e4 := e3.close hu0 hu1 10 (by norm_num) (by linarith)
  rw [show |b| * |b| = b ^ 2 by rw [abs_mul_abs_self]; ring, show |(4 : ℝ)| = 4 by norm_num] at e4
  rw [show b ^ 2 - 4 * a * c = b * b - 4 * a * c by ring]
  exact e4

theorem fin_div_zero_zero : (Flt.fin rd 0 : Flt rd) / Flt.fin rd 0 = ⟨.nan⟩ := by
  show Flt.rnd rd (Dbl.fin 0 / Dbl.fin 0) = _
  simp [Flt.rnd, Dbl.zero_div_zero]

/-- The second member of the pair. -/
theorem second_solves (h : Rounds u rd) (hu : u ≤ 1 / 1000) (ha : a ≠ 0) (hx : x ≠ 0) (hs : Solves a b c (33 * u) x) {t : ℝ}
    (ht : Flt.fin rd c / (Flt.fin rd a * Flt.fin rd x) = Flt.fin rd t) : Solves a b c (45 * u) t := by
  have hu0 := h.nonneg
  have hu1 : u < 1 := by linarith
  have r1 := h.rel hu1 (a * x)
  have hne : rd (a * x) ≠ 0 := r1.ne hu1 (mul_ne_zero ha hx)
  rw [Flt.mul_fin, Flt.div_fin hne, Flt.fin_inj] at ht
  have r2 := h.after hu1 ((Rel.refl c).div hu1 r1)
  rw [ht] at r2
  have r3 := r2.near hu0 hu1 4 (by norm_num) (by linarith)
  have := (hs.other ha hx).near (by linarith) (by linarith) (by linarith) r3
  exact this.mono (by linarith)

theorem not_div_zero {x t : ℝ} (h : (Flt.fin rd x : Flt rd) / Flt.fin rd 0 = Flt.fin rd t) : False := by
  have h1 : Flt.rnd rd (Dbl.fin x / Dbl.fin 0) = Flt.fin rd t := h
  obtain ⟨y, hy⟩ := rnd_stored ⟨t, h1⟩
  rcases lt_trichotomy x 0 with hx | hx | hx
  · rw [Dbl.neg_div_zero hx] at hy; simp at hy
  · rw [hx, Dbl.zero_div_zero] at hy; simp at hy
  · rw [Dbl.pos_div_zero hx] at hy; simp at hy

theorem not_div_zero_mul {x t : ℝ} (h0 : rd 0 = 0) {p : Flt rd} (h : (Flt.fin rd x : Flt rd) / (Flt.fin rd 0 * p) = Flt.fin rd t) :
    False := by
  obtain ⟨d⟩ := p
  cases d with
  | fin y =>
    have : (Flt.fin rd 0 : Flt rd) * ⟨.fin y⟩ = Flt.fin rd 0 := by
      show (Flt.fin rd 0 : Flt rd) * Flt.fin rd y = _
      rw [Flt.mul_fin, zero_mul, h0]
    rw [this] at h
    exact not_div_zero h
  | nan => exact absurd (congrArg Flt.val h) (by rintro ⟨⟩)
  | pinf =>
    have : (Flt.fin rd 0 : Flt rd) * ⟨.pinf⟩ = ⟨.nan⟩ := by
      show Flt.rnd rd (Dbl.infMul 0) = _
      simp [Dbl.infMul, Flt.rnd]
    rw [this] at h
    exact absurd (congrArg Flt.val h) (by rintro ⟨⟩)
  | ninf =>
    have : (Flt.fin rd 0 : Flt rd) * ⟨.ninf⟩ = ⟨.nan⟩ := by
      show Flt.rnd rd (Dbl.infMul (-0)) = _
      simp [Dbl.infMul, Flt.rnd]
    rw [this] at h
    exact absurd (congrArg Flt.val h) (by rintro ⟨⟩)

/-- Both members of the pair that Paraboloid, Sphere and Quadric compute solve the equation, up to 45 roundings of its terms, also
where the discriminant nearly vanishes. -/
theorem rootPair_solves (h : Rounds u rd) (hu : u ≤ 1 / 1000) (ha : a ≠ 0) {D t : ℝ}
    (eD : D = rd (rd (b * b) - rd (rd (rd 4 * a) * c))) (hD : 0 ≤ D)
    (ht : (Surface.rootPair (Flt.fin rd a) (Flt.fin rd b) (Flt.fin rd c) (Flt.fin rd D)).1 = Flt.fin rd t ∨
      (Surface.rootPair (Flt.fin rd a) (Flt.fin rd b) (Flt.fin rd c) (Flt.fin rd D)).2 = Flt.fin rd t) :
    Solves a b c (45 * u) t := by
  have hu0 := h.nonneg
  have hu1 : u < 1 := by linarith
  have hd := disc_near h hu a b c
  rw [← eD] at hd
  have e2 : (2 : Flt rd) = Flt.fin rd (rd 2) := by simpa using Flt.ofNat_fin (rd := rd) 2
  have s0 := Real.sqrt_nonneg D
  have rs := h.rel hu1 (Real.sqrt D)
  unfold Surface.rootPair at ht
  rw [flt_zero h, Flt.gt_fin, Flt.sqrt_fin hD, e2] at ht
  by_cases hb : 0 < b
  · simp only [hb, decide_true, if_true, Flt.neg_fin, Flt.sub_fin, Flt.mul_fin] at ht
    have r1 := (h.after hu1 (((Rel.refl b).mono hu0 hu1 (show 0 ≤ 1 by norm_num)).add hu1 rs hb.le s0)).neg
    have r1' : Rel u 2 (rd (-b - rd (Real.sqrt D))) (-b - Real.sqrt D) := by
      have := h.after hu1 (((Rel.refl b).mono hu0 hu1 (show 0 ≤ 1 by norm_num)).add hu1 rs hb.le s0).neg
      rw [show -(b + rd (Real.sqrt D)) = -b - rd (Real.sqrt D) by ring, show -(b + Real.sqrt D) = -b - Real.sqrt D by ring] at this
      exact this
    have r2 := h.after hu1 ((h.rel hu1 2).mul hu1 (Rel.refl a))
    have hne : rd (rd 2 * a) ≠ 0 := r2.ne hu1 (mul_ne_zero two_ne_zero ha)
    rw [Flt.div_fin hne] at ht
    have r3 := h.after hu1 (r1'.div hu1 r2)
    have r4 := r3.near hu0 hu1 10 (by norm_num) (by linarith)
    have sv := solves_formula (b := b) (c := c) (K := 10 * u) ha hD (by linarith) hd (Or.inl rfl) (by linarith)
    rw [one_mul] at sv
    have s1 := (sv.near (by linarith) (by linarith) (by linarith) r4).mono (show _ ≤ 33 * u by linarith)
    have hx : rd (rd (-b - rd (Real.sqrt D)) / rd (rd 2 * a)) ≠ 0 :=
      r3.ne hu1 (div_ne_zero (by linarith) (mul_ne_zero two_ne_zero ha))
    rcases ht with ht | ht
    · rw [Flt.fin_inj] at ht
      rw [← ht]
      exact s1.mono (by linarith)
    · exact second_solves h hu ha hx s1 ht
  · simp only [hb, decide_false, Bool.false_eq_true, if_false, Flt.neg_fin, Flt.add_fin, Flt.mul_fin] at ht
    have hb' : 0 ≤ -b := by linarith
    have r1 := h.after hu1 (((Rel.refl (-b)).mono hu0 hu1 (show 0 ≤ 1 by norm_num)).add hu1 rs hb' s0)
    have r2 := h.after hu1 ((h.rel hu1 2).mul hu1 (Rel.refl c))
    by_cases hz : -b + Real.sqrt D = 0
    · have hb0 : b = 0 := by linarith
      have hs0 : Real.sqrt D = 0 := by linarith
      have hD0 : D = 0 := le_antisymm (by rwa [← Real.sqrt_eq_zero']) hD
      have hc : c = 0 := by
        by_contra hc
        have e : D = rd (0 - rd (rd (rd 4 * a) * c)) := by rw [eD, hb0, mul_zero, h.zero]
        have q1 := h.after hu1 ((h.after hu1 ((h.rel hu1 4).mul hu1 (Rel.refl a))).mul hu1 (Rel.refl c))
        have q2 := h.after hu1 q1.neg
        rw [← zero_sub, ← e, hD0] at q2
        exact q2.ne hu1 (by simp [ha, hc]) rfl
      have hden : rd (-b + rd (Real.sqrt D)) = 0 := by rw [hb0, hs0, h.zero]; simp [h.zero]
      rw [hden, hc, mul_zero, h.zero, fin_div_zero_zero] at ht
      rcases ht with ht | ht
      · exact absurd (congrArg Flt.val ht) (by simp [Flt.fin])
      · have e3 : (Flt.fin rd 0 : Flt rd) / (Flt.fin rd a * ⟨.nan⟩) = ⟨.nan⟩ := by
          show Flt.rnd rd (Dbl.fin 0 / (Flt.rnd rd (Dbl.fin a * Dbl.nan)).val) = _
          rfl
        rw [e3] at ht
        exact absurd (congrArg Flt.val ht) (by simp [Flt.fin])
    · have hne : rd (-b + rd (Real.sqrt D)) ≠ 0 := r1.ne hu1 hz
      rw [Flt.div_fin hne] at ht
      have r3 := h.after hu1 (r2.div hu1 r1)
      have r4 := r3.near hu0 hu1 10 (by norm_num) (by linarith)
      by_cases hc : c = 0
      · subst hc
        have hx0 : rd (rd (rd 2 * 0) / rd (-b + rd (Real.sqrt D))) = 0 := by simp [h.zero]
        rw [hx0] at ht
        rcases ht with ht | ht
        · rw [Flt.fin_inj] at ht
          rw [← ht]
          simp [Solves]
        · rw [Flt.mul_fin, mul_zero, h.zero, fin_div_zero_zero] at ht
          exact absurd (congrArg Flt.val ht) (by simp [Flt.fin])
      · have sv := solves_formula (b := b) (c := c) (K := 10 * u) ha hD (by linarith) hd (Or.inr rfl) (by linarith)
        have ey : -b - -1 * Real.sqrt D = -b + Real.sqrt D := by ring
        rw [ey] at sv
        have so := sv.other ha (div_ne_zero hz (mul_ne_zero two_ne_zero ha))
        have ez : c / (a * ((-b + Real.sqrt D) / (2 * a))) = 2 * c / (-b + Real.sqrt D) := by field_simp
        rw [ez] at so
        have s1 := (so.near (by linarith) (by linarith) (by linarith) r4).mono (show _ ≤ 33 * u by linarith)
        have hx : rd (rd (rd 2 * c) / rd (-b + rd (Real.sqrt D))) ≠ 0 :=
          r3.ne hu1 (div_ne_zero (mul_ne_zero two_ne_zero hc) hz)
        rcases ht with ht | ht
        · rw [Flt.fin_inj] at ht
          rw [← ht]
          exact s1.mono (by linarith)
        · exact second_solves h hu ha hx s1 ht

/-- The same if the leading coefficient vanishes. -/
theorem rootPair_linear (h : Rounds u rd) (hu : u ≤ 1 / 1000) {D t : ℝ} (eD : D = rd (rd (b * b) - rd (rd (rd 4 * 0) * c))) (hD : 0 ≤ D)
    (ht : (Surface.rootPair (Flt.fin rd 0) (Flt.fin rd b) (Flt.fin rd c) (Flt.fin rd D)).1 = Flt.fin rd t ∨
      (Surface.rootPair (Flt.fin rd 0) (Flt.fin rd b) (Flt.fin rd c) (Flt.fin rd D)).2 = Flt.fin rd t) :
    Solves 0 b c (45 * u) t := by
  have hu0 := h.nonneg
  have hu1 : u < 1 := by linarith
  have e2 : (2 : Flt rd) = Flt.fin rd (rd 2) := by simpa using Flt.ofNat_fin (rd := rd) 2
  unfold Surface.rootPair at ht
  rcases ht with ht | ht
  swap
  · exact (not_div_zero_mul h.zero ht).elim
  rw [flt_zero h, Flt.gt_fin, Flt.sqrt_fin hD, e2] at ht
  by_cases hb : 0 < b
  · simp only [hb, decide_true, if_true, Flt.neg_fin, Flt.sub_fin, Flt.mul_fin, mul_zero, h.zero] at ht
    exact (not_div_zero ht).elim
  · simp only [hb, decide_false, Bool.false_eq_true, if_false, Flt.neg_fin, Flt.add_fin, Flt.mul_fin] at ht
    have hb' : 0 ≤ -b := by linarith
    have rD : Rel u 2 D (b * b) := by
      rw [mul_zero, h.zero, zero_mul, h.zero, sub_zero] at eD
      rw [eD]
      exact h.after hu1 (h.rel hu1 _)
    have rs := rD.sqrt hu0 hu1 (mul_self_nonneg b)
    rw [show Real.sqrt (b * b) = -b by rw [Real.sqrt_mul_self_eq_abs, abs_of_nonpos (by linarith)]] at rs
    have r1 := h.after hu1 (((Rel.refl (-b)).mono hu0 hu1 (show 0 ≤ 3 by norm_num)).add hu1 (h.after hu1 rs) hb' hb')
    have r2 := h.after hu1 ((h.rel hu1 2).mul hu1 (Rel.refl c))
    by_cases hb0 : b = 0
    · subst hb0
      have : D = 0 := by obtain ⟨θ, e, -⟩ := rD; simpa using e
      subst this
      simp only [Real.sqrt_zero, h.zero, neg_zero, add_zero] at ht
      exact (not_div_zero ht).elim
    · have hne := r1.ne hu1 (show -b + -b ≠ 0 by intro h0; exact hb0 (by linarith))
      rw [Flt.div_fin hne, Flt.fin_inj] at ht
      have r3 := h.after hu1 (r2.div hu1 r1)
      rw [ht, show 2 * c / (-b + -b) = -c / b by field_simp; ring] at r3
      have r4 := r3.near hu0 hu1 14 (by norm_num) (by linarith)
      have sv : Solves 0 b c 0 (-c / b) := by
        unfold Solves
        rw [show 0 * (-c / b) ^ 2 + b * (-c / b) + c = 0 by field_simp; ring]
        simp
      exact (sv.near (le_refl _) (by linarith) (by linarith) r4).mono (by linarith)

/-- The same for the coefficients of which `a`, `b`, `c` are the computed values. -/
theorem Solves.coefs {A B C MB MC : ℝ} {i : ℕ} (hu0 : 0 ≤ u) (hu : u ≤ 1 / 1000) (hi : i ≤ 10) {MA : ℝ} (hA : Err u i a A MA)
    (hB : Err u i b B MB) (hC : Err u i c C MC) (h : Solves a b c (45 * u) x) :
    |A * x ^ 2 + B * x + C| ≤ 66 * u * (MA * x ^ 2 + MB * |x| + MC) := by
  have hu1 : u < 1 := by linarith
  have hi' : 2 * (i : ℝ) ≤ 20 := by
    have : (i : ℝ) ≤ 10 := by exact_mod_cast hi
    linarith
  have a1 := hA.close hu0 hu1 20 hi' (by linarith)
  have b1 := hB.close hu0 hu1 20 hi' (by linarith)
  have c1 := hC.close hu0 hu1 20 hi' (by linarith)
  have A0 := hA.M0
  have B0 := hB.M0
  have C0 := hC.M0
  have size : ∀ {p P M : ℝ}, |P| ≤ M → |p - P| ≤ 20 * u * M → |p| ≤ 102 / 100 * M := by
    intro p P M h1 h2
    have := abs_sub_abs_le_abs_sub p P
    nlinarith [(abs_nonneg P).trans h1]
  have a2 := size hA.1 a1
  have b2 := size hB.1 b1
  have c2 := size hC.1 c1
  have X0 := abs_nonneg x
  have e : A * x ^ 2 + B * x + C = (a * x ^ 2 + b * x + c) - ((a - A) * x ^ 2 + (b - B) * x + (c - C)) := by ring
  rw [e]
  have k1 := abs_sub (a * x ^ 2 + b * x + c) ((a - A) * x ^ 2 + (b - B) * x + (c - C))
  have k2 : |(a - A) * x ^ 2 + (b - B) * x + (c - C)| ≤ 20 * u * (MA * x ^ 2 + MB * |x| + MC) := by
    refine (abs_add_le _ _).trans ?_
    have := abs_add_le ((a - A) * x ^ 2) ((b - B) * x)
    rw [abs_mul, abs_mul, abs_of_nonneg (sq_nonneg x)] at this
    have g1 := mul_le_mul_of_nonneg_right a1 (sq_nonneg x)
    have g2 := mul_le_mul_of_nonneg_right b1 X0
    linarith
  have k3 : |a| * x ^ 2 + |b| * |x| + |c| ≤ 102 / 100 * (MA * x ^ 2 + MB * |x| + MC) := by
    have g1 := mul_le_mul_of_nonneg_right a2 (sq_nonneg x)
    have g2 := mul_le_mul_of_nonneg_right b2 X0
    linarith
  have k4 := mul_le_mul_of_nonneg_left k3 (show 0 ≤ 45 * u by linarith)
  unfold Solves at h
  have m0 : 0 ≤ MA * x ^ 2 + MB * |x| + MC := by positivity
  have := mul_nonneg hu0 m0
  linarith

end quadratic

/-! ## Surfaces -/

section surfaces
variable {u : ℝ} {rd : ℝ → ℝ}

theorem pick_max {a b : Flt rd} {t : ℝ} (h : Arith.max a b = Flt.fin rd t) : a = Flt.fin rd t ∨ b = Flt.fin rd t := by
  unfold Arith.max at h
  split_ifs at h
  · exact Or.inr h
  · exact Or.inl h
theorem pick_min {a b : Flt rd} {t : ℝ} (h : Arith.min a b = Flt.fin rd t) : a = Flt.fin rd t ∨ b = Flt.fin rd t := by
  unfold Arith.min at h
  split_ifs at h
  · exact Or.inr h
  · exact Or.inl h

theorem root_time {D t : ℝ} {p : Flt rd × Flt rd} {dt : Flt rd} {w : Bool}
    (ht : (if decide (D < 0) = true then (false, dt) else (true, if w = true then Arith.max p.1 p.2 else Arith.min p.1 p.2)) =
      (true, Flt.fin rd t)) : 0 ≤ D ∧ (p.1 = Flt.fin rd t ∨ p.2 = Flt.fin rd t) := by
  split_ifs at ht with h1 h2
  · simp at ht
  · exact ⟨not_lt.1 (by simpa using h1), pick_max (Prod.mk.inj ht).2⟩
  · exact ⟨not_lt.1 (by simpa using h1), pick_min (Prod.mk.inj ht).2⟩

/-- A ray that lands at a stored point did so after a stored time. -/
theorem landing_time {s : Surface (Flt rd)} {ct : CoordTransform (Flt rd)} {c : Option (Coating (Flt rd))} {niter : ℕ} {ray : Ray (Flt rd)}
    (hf : ray.failed = false) {r v q : V3 ℝ} (hr : ct.forward ray.r = r.flt rd) (hv : ct.forwardVel ray.v = v.flt rd)
    (hok : (ray.intersect s ct c niter).failed = false) (hq : (ray.intersect s ct c niter).r = q.flt rd) :
    ∃ t : ℝ, s.timeToIntersect (r.flt rd) (v.flt rd) 0 niter = (true, Flt.fin rd t) ∧
      r.flt rd + (v.flt rd).smulR (Flt.fin rd t) = q.flt rd := by
  unfold Ray.intersect at hok hq
  simp only [hf, hr, hv, Bool.false_eq_true, if_false] at hok hq
  generalize ht : s.timeToIntersect (r.flt rd) (v.flt rd) 0 niter = tt at hok hq ⊢
  obtain ⟨ok, dt⟩ := tt
  cases ok with
  | false => simp [Ray.markFailed] at hok
  | true =>
    simp only at hq
    have sx : Stored (Flt.fin rd r.x + Flt.fin rd v.x * dt) := ⟨q.x, congrArg V3.x hq⟩
    obtain ⟨t, rfl⟩ := sx.add.2.mul.2
    exact ⟨t, rfl, hq⟩

theorem ne_zero_sq {v : V3 ℝ} (hv : v ≠ ⟨0, 0, 0⟩) : 0 < v.z * v.z + (v.x * v.x + v.y * v.y) := by
  by_contra hn
  have h1 := mul_self_nonneg v.x
  have h2 := mul_self_nonneg v.y
  have h3 := mul_self_nonneg v.z
  have e1 : v.x = 0 := mul_self_eq_zero.1 (by linarith)
  have e2 : v.y = 0 := mul_self_eq_zero.1 (by linarith)
  have e3 : v.z = 0 := mul_self_eq_zero.1 (by linarith)
  exact hv (by ext <;> simp [e1, e2, e3])

/-- The time that `Sphere` computes. -/
theorem sphere_time (h : Rounds u rd) (hu : u ≤ 1 / 1000) {R t : ℝ} {r v : V3 ℝ} (hv : v ≠ ⟨0, 0, 0⟩) {dt : Flt rd}
    (ht : Surface.sphereTime (Flt.fin rd R) (r.flt rd) (v.flt rd) dt = (true, Flt.fin rd t)) :
    |nrm (r + v.smulR t - ⟨0, 0, R⟩) ^ 2 - R ^ 2| ≤ 66 * u * ((|t| * nrm v + nrm (r - ⟨0, 0, R⟩)) ^ 2 + R ^ 2) := by
  have hu0 := h.nonneg
  have hu1 : u < 1 := by linarith
  have e2 : (2 : Flt rd) = Flt.fin rd (rd 2) := by simpa using Flt.ofNat_fin (rd := rd) 2
  have e4 : (4 : Flt rd) = Flt.fin rd (rd 4) := by simpa using Flt.ofNat_fin (rd := rd) 4
  simp only [Surface.sphereTime, V3.flt, V3.map, e2, e4, flt_zero h, Flt.mul_fin, Flt.add_fin, Flt.sub_fin, Flt.lt_fin] at ht
  -- the computed coefficients
  have ez := (h.rel hu1 (r.z - R)).err hu0 hu1
  have ea : Rel u 3 (rd (rd (v.z * v.z) + rd (rd (v.x * v.x) + rd (v.y * v.y)))) (v.z * v.z + (v.x * v.x + v.y * v.y)) := by
    have k1 := (h.rel hu1 (v.x * v.x)).add hu1 (h.rel hu1 (v.y * v.y)) (mul_self_nonneg _) (mul_self_nonneg _)
    have k2 := (h.rel hu1 (v.z * v.z)).mono hu0 hu1 (show 1 ≤ 2 by norm_num)
    exact h.after hu1 (k2.add hu1 (h.after hu1 k1) (mul_self_nonneg _) (add_nonneg (mul_self_nonneg _) (mul_self_nonneg _)))
  have e2' := (h.rel hu1 2).err hu0 hu1
  have mm : ∀ x y : ℝ, Err u 1 (rd (x * y)) (x * y) (|x| * |y|) := fun x y => h.errMul hu1 (Err.exact x) (Err.exact y)
  have eb := h.errAdd hu1 (h.errMul hu1 (h.errMul hu1 e2' (Err.exact v.z)) ez)
    (h.errMul hu1 e2' (h.errAdd hu1 (mm v.x r.x) (mm v.y r.y)))
  have ec := h.errAdd hu1 (h.errSub hu1 (h.errMul hu1 ez ez) ((mm R R).mono hu0 hu1 (show 1 ≤ 1 + 1 + 1 by norm_num)))
    ((h.errAdd hu1 (mm r.x r.x) (mm r.y r.y)).mono hu0 hu1 (show 1 + 1 ≤ 1 + 1 + 1 + 1 by norm_num))
  have ha := ea.ne hu1 (ne_zero_sq hv).ne'
  have ea' := ea.err hu0 hu1
  obtain ⟨hD, hpick⟩ := root_time ht
  · have hsol := rootPair_solves (t := t) h hu ha rfl hD hpick
    have key := hsol.coefs hu0 hu (i := 5) (by norm_num) (ea'.mono hu0 hu1 (by norm_num)) eb ec
    have lhs : (v.z * v.z + (v.x * v.x + v.y * v.y)) * t ^ 2 + (2 * v.z * (r.z - R) + 2 * (v.x * r.x + v.y * r.y)) * t +
        ((r.z - R) * (r.z - R) - R * R + (r.x * r.x + r.y * r.y)) = nrm (r + v.smulR t - ⟨0, 0, R⟩) ^ 2 - R ^ 2 := by
      rw [nrm_sq]; simp only [V3.add_x, V3.add_y, V3.add_z, V3.sub_x, V3.sub_y, V3.sub_z, V3.smulR]; ring
    rw [lhs] at key
    refine key.trans (mul_le_mul_of_nonneg_left ?_ (by linarith))
    have cs := absDot_le v (r - ⟨0, 0, R⟩)
    simp only [V3.sub_x, V3.sub_y, V3.sub_z, sub_zero, abs_mul] at cs
    have n1 := nrm_sq v
    have n2 := nrm_sq (r - ⟨0, 0, R⟩)
    simp only [V3.sub_x, V3.sub_y, V3.sub_z, sub_zero] at n2
    rw [abs_of_pos (ne_zero_sq hv), abs_two, abs_mul_abs_self, abs_mul_abs_self, abs_mul_abs_self, abs_mul_abs_self]
    have := mul_le_mul_of_nonneg_left cs (abs_nonneg t)
    have ts := sq_abs t
    have : (v.z * v.z + (v.x * v.x + v.y * v.y)) * t ^ 2 = (|t| * nrm v) ^ 2 := by rw [mul_pow, n1, ts]; ring
    nlinarith

/-- The computed landing point and the exact one after the computed time. -/
theorem landing_point (h : Rounds u rd) (hu : u ≤ 1 / 1000) {r v q : V3 ℝ} {t : ℝ}
    (hq : r.flt rd + (v.flt rd).smulR (Flt.fin rd t) = q.flt rd) :
    nrm (q - (r + v.smulR t)) ≤ u * nrm r + 5 * u * (|t| * nrm v) ∧ |t| * nrm v ≤ 101 / 100 * (nrm (q - r) + u * nrm r) := by
  have hu0 := h.nonneg
  obtain ⟨q', e, k⟩ := advance_near h hu r v (dt := t) (s := t) (by rw [sub_self, abs_zero]; positivity)
  have : q' = q := V3.flt_inj (e.symm.trans hq)
  subst this
  refine ⟨k, ?_⟩
  have k1 : nrm (r + v.smulR t - r) = |t| * nrm v := by rw [← nrm_smulR]; congr 1; ext <;> simp
  have k2 := nrm_via (r + v.smulR t) q' r
  rw [k1, nrm_sub_comm (r + v.smulR t) q'] at k2
  have R0 := nrm_nonneg r
  have T0 : 0 ≤ |t| * nrm v := mul_nonneg (abs_nonneg t) (nrm_nonneg v)
  have N0 := nrm_nonneg (q' - r)
  have g1 := mul_le_mul_of_nonneg_right hu T0
  have g2 := mul_nonneg hu0 R0
  nlinarith

theorem sphere_scale {nr N A T d e x y : ℝ} (hu0 : 0 ≤ u) (hu : u ≤ 1 / 1000) (r0 : 0 ≤ nr) (N0 : 0 ≤ N) (A0 : 0 ≤ A) (T0 : 0 ≤ T)
    (d0 : 0 ≤ d) (d1 : d ≤ nr + A) (e0 : 0 ≤ e) (x0 : 0 ≤ x) (y0 : 0 ≤ y) (p1 : x ≤ T + d) (f1 : y ≤ e + x) (f2 : x ≤ e + y)
    (k1 : |x ^ 2 - A ^ 2| ≤ 66 * u * ((T + d) ^ 2 + A ^ 2)) (k2 : e ≤ u * nr + 5 * u * T) (k3 : T ≤ 101 / 100 * (N + u * nr)) :
    |y ^ 2 - A ^ 2| ≤ 150 * u * (nr + A + N) ^ 2 := by
  have unr : u * nr ≤ 1 / 1000 * nr := mul_le_mul_of_nonneg_right hu r0
  generalize hS : nr + A + N = S
  have S0 : 0 ≤ S := by linarith
  have t1 : T + d ≤ 101 / 100 * S := by linarith
  have e1 : e ≤ 506 / 100 * u * S := by
    have a1 : nr + 5 * T ≤ 506 / 100 * S := by linarith
    have := mul_le_mul_of_nonneg_left a1 hu0
    linarith
  have e2 : e ≤ 1 / 100 * S := by
    have := mul_le_mul_of_nonneg_right hu S0
    linarith
  have x1 : x ≤ 101 / 100 * S := p1.trans t1
  have td : (T + d) ^ 2 + A ^ 2 ≤ 203 / 100 * S ^ 2 := by
    have b1 : (T + d) ^ 2 ≤ (101 / 100 * S) ^ 2 := pow_le_pow_left₀ (by linarith) t1 2
    have b2 : A ^ 2 ≤ S ^ 2 := pow_le_pow_left₀ A0 (by linarith) 2
    nlinarith
  have m1 : 66 * u * ((T + d) ^ 2 + A ^ 2) ≤ 66 * u * (203 / 100 * S ^ 2) := mul_le_mul_of_nonneg_left td (by linarith)
  have m2 : |y ^ 2 - x ^ 2| ≤ 12 * u * S ^ 2 := by
    have b1 : |y - x| ≤ e := by rw [abs_le]; constructor <;> linarith
    have b2 : y + x ≤ 203 / 100 * S := by linarith
    rw [show y ^ 2 - x ^ 2 = (y - x) * (y + x) by ring, abs_mul, abs_of_nonneg (add_nonneg y0 x0)]
    have b3 := mul_le_mul (b1.trans e1) b2 (add_nonneg y0 x0) (by positivity)
    have := mul_nonneg hu0 (sq_nonneg S)
    nlinarith
  have m3 := abs_sub_le (y ^ 2) (x ^ 2) (A ^ 2)
  have := mul_nonneg hu0 (sq_nonneg S)
  linarith

/-- **C118** (`Sphere`).  A ray that is not reported as missing the sphere lands on it: the square of its distance from the centre is
that of the radius up to 150 roundings of the square of the lengths involved, also for grazing incidence. -/
theorem C118_sphere (h : Rounds u rd) (hu : u ≤ 1 / 1000) (R : ℝ) (ct : CoordTransform (Flt rd)) (c : Option (Coating (Flt rd)))
    (niter : ℕ) (ray : Ray (Flt rd)) (hf : ray.failed = false) {r v q : V3 ℝ} (hr : ct.forward ray.r = r.flt rd)
    (hv : ct.forwardVel ray.v = v.flt rd) (hv0 : v ≠ ⟨0, 0, 0⟩)
    (hok : (ray.intersect (Surface.sphere (Flt.fin rd R)) ct c niter).failed = false)
    (hq : (ray.intersect (Surface.sphere (Flt.fin rd R)) ct c niter).r = q.flt rd) :
    |nrm (q - ⟨0, 0, R⟩) ^ 2 - R ^ 2| ≤ 150 * u * (nrm r + |R| + nrm (q - r)) ^ 2 := by
  have hu0 := h.nonneg
  obtain ⟨t, ht, hp⟩ := landing_time hf hr hv hok hq
  have k1 := sphere_time h hu hv0 ht
  obtain ⟨k2, k3⟩ := landing_point h hu hp
  have p1 : nrm (r + v.smulR t - ⟨0, 0, R⟩) ≤ |t| * nrm v + nrm (r - ⟨0, 0, R⟩) := by
    have := nrm_add (v.smulR t) (r - ⟨0, 0, R⟩)
    rw [nrm_smulR] at this
    refine le_trans (le_of_eq ?_) this
    congr 1; ext <;> simp <;> ring
  generalize r + v.smulR t = P at *
  have R0 := nrm_nonneg r
  have N0 := nrm_nonneg (q - r)
  have A0 := abs_nonneg R
  have T0 : 0 ≤ |t| * nrm v := mul_nonneg (abs_nonneg t) (nrm_nonneg v)
  have cR : nrm (⟨0, 0, R⟩ : V3 ℝ) = |R| := by simp [nrm, V3.normSq, V3.dot, Real.sqrt_mul_self_eq_abs]
  have d1 : nrm (r - ⟨0, 0, R⟩) ≤ nrm r + |R| := by have := nrm_sub r ⟨0, 0, R⟩; rwa [cR] at this
  have d0 := nrm_nonneg (r - ⟨0, 0, R⟩)
  have f1 := nrm_via q P ⟨0, 0, R⟩
  have f2 := nrm_via P q ⟨0, 0, R⟩
  rw [nrm_sub_comm P q] at f2
  have f0 := nrm_nonneg (q - P)
  have g0 := nrm_nonneg (P - ⟨0, 0, R⟩)
  have g1 := nrm_nonneg (q - ⟨0, 0, R⟩)
  rw [← sq_abs R] at k1 ⊢
  exact sphere_scale hu0 hu R0 N0 A0 T0 d0 d1 f0 g0 g1 p1 f1 f2 k1 k2 k3

/-! ### Misses -/

theorem first_of_if {b : Bool} {x y : Flt rd} : (if b = true then (false, x) else (true, y)).1 = !b := by cases b <;> rfl

/-- `Sphere` reports a miss when a number `D` is negative; `D` is four times the speed squared times the square of the radius less that of
the distance of the line from the centre, up to roundings. -/
theorem sphere_disc (h : Rounds u rd) (hu : u ≤ 1 / 1000) (R : ℝ) (r v : V3 ℝ) (dt : Flt rd) (niter : ℕ) : ∃ D : ℝ,
    ((Surface.sphere (Flt.fin rd R)).timeToIntersect (r.flt rd) (v.flt rd) dt niter).1 = !decide (D < 0) ∧
    |D - (4 * V3.dot v (r - ⟨0, 0, R⟩) ^ 2 - 4 * nrm v ^ 2 * (nrm (r - ⟨0, 0, R⟩) ^ 2 - R ^ 2))| ≤
      4 * nrm v ^ 2 * (30 * u * (2 * nrm (r - ⟨0, 0, R⟩) ^ 2 + R ^ 2)) := by
  have hu0 := h.nonneg
  have hu1 : u < 1 := by linarith
  have e2 : (2 : Flt rd) = Flt.fin rd (rd 2) := by simpa using Flt.ofNat_fin (rd := rd) 2
  have e4 : (4 : Flt rd) = Flt.fin rd (rd 4) := by simpa using Flt.ofNat_fin (rd := rd) 4
  simp only [Surface.sphere, Surface.sphereTime, V3.flt, V3.map, e2, e4, flt_zero h, Flt.mul_fin, Flt.add_fin, Flt.sub_fin, Flt.lt_fin]
  have ez := (h.rel hu1 (r.z - R)).err hu0 hu1
  have mm : ∀ x y : ℝ, Err u 1 (rd (x * y)) (x * y) (|x| * |y|) := fun x y => h.errMul hu1 (Err.exact x) (Err.exact y)
  have ea := h.errAdd hu1 ((mm v.z v.z).mono hu0 hu1 (show 1 ≤ 2 by norm_num)) (h.errAdd hu1 (mm v.x v.x) (mm v.y v.y))
  have e2' := (h.rel hu1 2).err hu0 hu1
  have eb := h.errAdd hu1 (h.errMul hu1 (h.errMul hu1 e2' (Err.exact v.z)) ez)
    (h.errMul hu1 e2' (h.errAdd hu1 (mm v.x r.x) (mm v.y r.y)))
  have ec := h.errAdd hu1 (h.errSub hu1 (h.errMul hu1 ez ez) ((mm R R).mono hu0 hu1 (show 1 ≤ 1 + 1 + 1 by norm_num)))
    ((h.errAdd hu1 (mm r.x r.x) (mm r.y r.y)).mono hu0 hu1 (show 1 + 1 ≤ 1 + 1 + 1 + 1 by norm_num))
  have ebb := h.errMul hu1 eb eb
  have eac := h.errMul hu1 (h.errMul hu1 ((h.rel hu1 4).err hu0 hu1) ea) ec
  have eD := h.errSub hu1 ebb eac
  have k := eD.close hu0 hu1 30 (by norm_num) (by linarith)
  have fit : ∀ {D e1 m1 e2 m2 : ℝ} {b : Bool}, |D - e1| ≤ m1 → (b = !decide (D < 0)) → e1 = e2 → m1 ≤ m2 →
      ∃ D : ℝ, b = !decide (D < 0) ∧ |D - e2| ≤ m2 := fun {D} {_} {_} {_} {_} {_} h1 h2 h3 h4 => ⟨D, h2, by rw [← h3]; exact h1.trans h4⟩
  refine fit k ?_ ?_ ?_
  rotate_left
  · rw [nrm_sq, nrm_sq]
    simp only [V3.dot, V3.sub_x, V3.sub_y, V3.sub_z]
    ring
  · have cs := absDot_le v (r - ⟨0, 0, R⟩)
    simp only [V3.sub_x, V3.sub_y, V3.sub_z, sub_zero, abs_mul] at cs
    have n1 := nrm_sq v
    have n2 := nrm_sq (r - ⟨0, 0, R⟩)
    simp only [V3.sub_x, V3.sub_y, V3.sub_z, sub_zero] at n2
    rw [abs_two, abs_mul_abs_self, abs_mul_abs_self, abs_mul_abs_self, abs_mul_abs_self, abs_mul_abs_self, abs_mul_abs_self,
      abs_mul_abs_self, abs_of_nonneg (show (0 : ℝ) ≤ 4 by norm_num)]
    have q2 : (r.z - R) * (r.z - R) + R * R + (r.x * r.x + r.y * r.y) = nrm (r - ⟨0, 0, R⟩) ^ 2 + R ^ 2 := by rw [n2]; ring
    have q3 : v.z * v.z + (v.x * v.x + v.y * v.y) = nrm v ^ 2 := by rw [n1]; ring
    have q4 : 2 * |v.z| * |r.z - R| + 2 * (|v.x| * |r.x| + |v.y| * |r.y|) ≤ 2 * (nrm v * nrm (r - ⟨0, 0, R⟩)) := by linarith
    have q5 := mul_le_mul q4 q4 (by positivity) (mul_nonneg (by norm_num) (mul_nonneg (nrm_nonneg v) (nrm_nonneg (r - ⟨0, 0, R⟩))))
    rw [q2, q3]
    have q6 := mul_le_mul_of_nonneg_left q5 (show 0 ≤ 30 * u by linarith)
    linarith
  · exact first_of_if

theorem line_sq (r v c : V3 ℝ) (τ : ℝ) :
    nrm (r + v.smulR τ - c) ^ 2 = nrm v ^ 2 * τ ^ 2 + 2 * V3.dot v (r - c) * τ + nrm (r - c) ^ 2 := by
  rw [nrm_sq, nrm_sq, nrm_sq]
  simp only [V3.dot, V3.add_x, V3.add_y, V3.add_z, V3.sub_x, V3.sub_y, V3.sub_z, V3.smulR]; ring

/-- **C118** (misses).  A line that is reported as missing the sphere does not enter it by more than roundings. -/
theorem C118_sphere_miss (h : Rounds u rd) (hu : u ≤ 1 / 1000) (R : ℝ) {r v : V3 ℝ} (hv0 : v ≠ ⟨0, 0, 0⟩) (dt : Flt rd) (niter : ℕ)
    (hmiss : ((Surface.sphere (Flt.fin rd R)).timeToIntersect (r.flt rd) (v.flt rd) dt niter).1 = false) (τ : ℝ) :
    R ^ 2 - 30 * u * (2 * nrm (r - ⟨0, 0, R⟩) ^ 2 + R ^ 2) ≤ nrm (r + v.smulR τ - ⟨0, 0, R⟩) ^ 2 := by
  obtain ⟨D, e, k⟩ := sphere_disc h hu R r v dt niter
  rw [hmiss] at e
  have hD : D < 0 := by simpa using e.symm
  rw [line_sq]
  have vp := ne_zero_sq hv0
  rw [show v.z * v.z + (v.x * v.x + v.y * v.y) = nrm v ^ 2 by rw [nrm_sq]; ring] at vp
  have kD := (abs_le.1 k).1
  generalize nrm v = V at *
  generalize nrm (r - ⟨0, 0, R⟩) = d at *
  generalize V3.dot v (r - ⟨0, 0, R⟩) = B at *
  have q8 : 0 ≤ (V ^ 2 * τ + B) ^ 2 := sq_nonneg _
  have q9 : 0 ≤ V ^ 2 * (V ^ 2 * τ ^ 2 + 2 * B * τ + d ^ 2 - R ^ 2 + 30 * u * (2 * d ^ 2 + R ^ 2)) := by linarith
  have := nonneg_of_mul_nonneg_right q9 vp
  linarith

/-- **C118** (misses, converse).  A line that keeps clear of the sphere by more than roundings is reported as missing it, so that a line
reported as hitting comes as near as that. -/
theorem C118_sphere_clear (h : Rounds u rd) (hu : u ≤ 1 / 1000) (R : ℝ) {r v : V3 ℝ} (hv0 : v ≠ ⟨0, 0, 0⟩) (dt : Flt rd) (niter : ℕ)
    (hclear : ∀ τ : ℝ, R ^ 2 + 30 * u * (2 * nrm (r - ⟨0, 0, R⟩) ^ 2 + R ^ 2) < nrm (r + v.smulR τ - ⟨0, 0, R⟩) ^ 2) :
    ((Surface.sphere (Flt.fin rd R)).timeToIntersect (r.flt rd) (v.flt rd) dt niter).1 = false := by
  obtain ⟨D, e, k⟩ := sphere_disc h hu R r v dt niter
  rw [e]
  have vp := ne_zero_sq hv0
  rw [show v.z * v.z + (v.x * v.x + v.y * v.y) = nrm v ^ 2 by rw [nrm_sq]; ring] at vp
  have hc := hclear (-V3.dot v (r - ⟨0, 0, R⟩) / nrm v ^ 2)
  rw [line_sq] at hc
  have kD := (abs_le.1 k).2
  generalize nrm v = V at *
  generalize nrm (r - ⟨0, 0, R⟩) = d at *
  generalize V3.dot v (r - ⟨0, 0, R⟩) = B at *
  have q := mul_lt_mul_of_pos_left hc vp
  have V0 : V ≠ 0 := by rintro rfl; simp at vp
  have e2 : V ^ 2 * (V ^ 2 * (-B / V ^ 2) ^ 2 + 2 * B * (-B / V ^ 2) + d ^ 2) = V ^ 2 * d ^ 2 - B ^ 2 := by
    field_simp
    ring
  rw [e2] at q
  have : D < 0 := by linarith
  simpa using this

/-- The distance from the sphere. -/
theorem C118_sphere_distance (h : Rounds u rd) (hu : u ≤ 1 / 1000) {R : ℝ} (hR : R ≠ 0) (ct : CoordTransform (Flt rd))
    (c : Option (Coating (Flt rd))) (niter : ℕ) (ray : Ray (Flt rd)) (hf : ray.failed = false) {r v q : V3 ℝ}
    (hr : ct.forward ray.r = r.flt rd) (hv : ct.forwardVel ray.v = v.flt rd) (hv0 : v ≠ ⟨0, 0, 0⟩)
    (hok : (ray.intersect (Surface.sphere (Flt.fin rd R)) ct c niter).failed = false)
    (hq : (ray.intersect (Surface.sphere (Flt.fin rd R)) ct c niter).r = q.flt rd) :
    abs (nrm (q - ⟨0, 0, R⟩) - |R|) ≤ 150 * u * ((nrm r + |R| + nrm (q - r)) ^ 2 / |R|) := by
  have k := C118_sphere h hu R ct c niter ray hf hr hv hv0 hok hq
  have Rp := abs_pos.2 hR
  have N0 := nrm_nonneg (q - ⟨0, 0, R⟩)
  rw [← sq_abs R, show nrm (q - ⟨0, 0, R⟩) ^ 2 - |R| ^ 2 = (nrm (q - ⟨0, 0, R⟩) - |R|) * (nrm (q - ⟨0, 0, R⟩) + |R|) by ring, abs_mul,
    abs_of_nonneg (add_nonneg N0 Rp.le)] at k
  rw [← mul_div_assoc, le_div_iff₀ Rp]
  have := mul_nonneg (abs_nonneg (nrm (q - ⟨0, 0, R⟩) - |R|)) N0
  linarith

/-! ### The other surfaces -/

theorem abs_coord_le (v : V3 ℝ) : |v.x| ≤ nrm v ∧ |v.y| ≤ nrm v ∧ |v.z| ≤ nrm v := by
  have h := nrm_sq v
  have h0 := nrm_nonneg v
  refine ⟨abs_le_of_sq_le_sq ?_ h0, abs_le_of_sq_le_sq ?_ h0, abs_le_of_sq_le_sq ?_ h0⟩ <;>
    nlinarith [sq_nonneg v.x, sq_nonneg v.y, sq_nonneg v.z]

/-- Lengths of the way to the landing point. -/
theorem travel {nr N T e : ℝ} (hu0 : 0 ≤ u) (hu : u ≤ 1 / 1000) (r0 : 0 ≤ nr) (N0 : 0 ≤ N) (k2 : e ≤ u * nr + 5 * u * T)
    (k3 : T ≤ 101 / 100 * (N + u * nr)) :
    T + nr ≤ 101 / 100 * (nr + N) ∧ e ≤ 506 / 100 * u * (nr + N) ∧ e ≤ 1 / 100 * (nr + N) := by
  have unr : u * nr ≤ 1 / 1000 * nr := mul_le_mul_of_nonneg_right hu r0
  have e1 : e ≤ 506 / 100 * u * (nr + N) := by
    have a1 : nr + 5 * T ≤ 506 / 100 * (nr + N) := by linarith
    have := mul_le_mul_of_nonneg_left a1 hu0
    linarith
  have := mul_le_mul_of_nonneg_right hu (add_nonneg r0 N0)
  exact ⟨by linarith, e1, by linarith⟩

/-- Two near points have nearly the same value of a quadratic form. -/
theorem form_near (p q : V3 ℝ) (k : ℝ) :
    |(q.x ^ 2 + q.y ^ 2 + k * q.z ^ 2) - (p.x ^ 2 + p.y ^ 2 + k * p.z ^ 2)| ≤ (1 + |k|) * (nrm (q - p) * (nrm (q - p) + 2 * nrm p)) := by
  have e : (q.x ^ 2 + q.y ^ 2 + k * q.z ^ 2) - (p.x ^ 2 + p.y ^ 2 + k * p.z ^ 2) =
      (q - p).x * (q + p).x + (q - p).y * (q + p).y + k * ((q - p).z * (q + p).z) := by
    simp only [V3.sub_x, V3.sub_y, V3.sub_z, V3.add_x, V3.add_y, V3.add_z]; ring
  have t := abs_add_three ((q - p).x * (q + p).x) ((q - p).y * (q + p).y) (k * ((q - p).z * (q + p).z))
  rw [abs_mul k] at t
  have d := absDot_le (q - p) (q + p)
  have n : nrm (q + p) ≤ nrm (q - p) + 2 * nrm p := by
    have a1 := nrm_add (q - p) (p + p)
    have a2 := nrm_add p p
    have : q - p + (p + p) = q + p := by ext <;> simp
    rw [this] at a1
    linarith
  have g := mul_le_mul_of_nonneg_left n (nrm_nonneg (q - p))
  rw [e]
  have z0 := abs_nonneg ((q - p).z * (q + p).z)
  have x0 := abs_nonneg ((q - p).x * (q + p).x)
  have y0 := abs_nonneg ((q - p).y * (q + p).y)
  have dz : |(q - p).z * (q + p).z| ≤ nrm (q - p) * (nrm (q - p) + 2 * nrm p) := by linarith
  have dk := mul_le_mul_of_nonneg_left dz (abs_nonneg k)
  linarith

/-- The time that `Tilted` computes. -/
theorem tilted_time (h : Rounds u rd) (hu : u ≤ 1 / 1000) {tx ty t : ℝ} {r v : V3 ℝ} {dt : Flt rd} {n : ℕ}
    (ht : (Surface.tilted (Flt.fin rd tx) (Flt.fin rd ty)).timeToIntersect (r.flt rd) (v.flt rd) dt n = (true, Flt.fin rd t)) :
    |(r + v.smulR t).z - (r + v.smulR t).x * tx - (r + v.smulR t).y * ty| ≤
      66 * u * ((1 + |tx| + |ty|) * (|t| * nrm v + nrm r)) := by
  have hu0 := h.nonneg
  have hu1 : u < 1 := by linarith
  simp only [Surface.tilted, V3.flt, V3.map, flt_zero h, Flt.mul_fin, Flt.add_fin, Flt.sub_fin, Flt.eq_fin] at ht
  split_ifs at ht with h0
  · simp at ht
  rw [decide_eq_true_iff] at h0
  have ht' := (Prod.mk.inj ht).2
  rw [Flt.div_fin h0, Flt.fin_inj] at ht'
  have mm : ∀ x y : ℝ, Err u 1 (rd (x * y)) (x * y) (|x| * |y|) := fun x y => h.errMul hu1 (Err.exact x) (Err.exact y)
  have en := h.errSub hu1 (h.errSub hu1 ((Err.exact r.z).mono hu0 hu1 (show 0 ≤ 1 by norm_num)) (mm r.x tx))
    ((mm r.y ty).mono hu0 hu1 (show 1 ≤ 1 + 1 by norm_num))
  have ed := h.errSub hu1 (h.errAdd hu1 (mm v.x tx) (mm v.y ty)) ((Err.exact v.z).mono hu0 hu1 (show 0 ≤ 1 + 1 by norm_num))
  generalize rd (rd (r.z - rd (r.x * tx)) - rd (r.y * ty)) = num at *
  generalize rd (rd (rd (v.x * tx) + rd (v.y * ty)) - v.z) = den at *
  have r4 := (h.rel hu1 (num / den)).near hu0 hu1 2 (by norm_num) (by linarith)
  rw [ht'] at r4
  have sv : Solves 0 (-den) num 0 (num / den) := by
    unfold Solves
    rw [show 0 * (num / den) ^ 2 + -den * (num / den) + num = 0 by field_simp; ring]
    simp
  have s1 := (sv.near (le_refl _) (by linarith) (by linarith) r4).mono (show _ ≤ 45 * u by linarith)
  have key := s1.coefs hu0 hu (i := 3) (by norm_num) ((Err.exact 0).mono hu0 hu1 (by norm_num)) ed.neg en
  have lhs : 0 * t ^ 2 + -(v.x * tx + v.y * ty - v.z) * t + (r.z - r.x * tx - r.y * ty) =
      (r + v.smulR t).z - (r + v.smulR t).x * tx - (r + v.smulR t).y * ty := by
    simp only [V3.add_x, V3.add_y, V3.add_z, V3.smulR]; ring
  rw [lhs] at key
  refine key.trans (mul_le_mul_of_nonneg_left ?_ (by linarith))
  obtain ⟨v1, v2, v3⟩ := abs_coord_le v
  obtain ⟨r1, r2, r3⟩ := abs_coord_le r
  have a1 := mul_le_mul_of_nonneg_right v1 (abs_nonneg tx)
  have a2 := mul_le_mul_of_nonneg_right v2 (abs_nonneg ty)
  have a3 := mul_le_mul_of_nonneg_right r1 (abs_nonneg tx)
  have a4 := mul_le_mul_of_nonneg_right r2 (abs_nonneg ty)
  have a5 : |v.x| * |tx| + |v.y| * |ty| + |v.z| ≤ (1 + |tx| + |ty|) * nrm v := by linarith
  have a6 := mul_le_mul_of_nonneg_right a5 (abs_nonneg t)
  rw [abs_zero, zero_mul]
  linarith

/-- **C118** (`Tilted`). -/
theorem C118_tilted (h : Rounds u rd) (hu : u ≤ 1 / 1000) (tx ty : ℝ) (ct : CoordTransform (Flt rd)) (c : Option (Coating (Flt rd)))
    (niter : ℕ) (ray : Ray (Flt rd)) (hf : ray.failed = false) {r v q : V3 ℝ} (hr : ct.forward ray.r = r.flt rd)
    (hv : ct.forwardVel ray.v = v.flt rd)
    (hok : (ray.intersect (Surface.tilted (Flt.fin rd tx) (Flt.fin rd ty)) ct c niter).failed = false)
    (hq : (ray.intersect (Surface.tilted (Flt.fin rd tx) (Flt.fin rd ty)) ct c niter).r = q.flt rd) :
    |q.z - (q.x * tx + q.y * ty)| ≤ 75 * u * ((1 + |tx| + |ty|) * (nrm r + nrm (q - r))) := by
  have hu0 := h.nonneg
  obtain ⟨t, ht, hp⟩ := landing_time hf hr hv hok hq
  have k1 := tilted_time h hu ht
  obtain ⟨k2, k3⟩ := landing_point h hu hp
  obtain ⟨w1, w2, -⟩ := travel hu0 hu (nrm_nonneg r) (nrm_nonneg (q - r)) k2 k3
  generalize r + v.smulR t = P at *
  obtain ⟨d1, d2, d3⟩ := abs_coord_le (q - P)
  have e : q.z - (q.x * tx + q.y * ty) = (P.z - P.x * tx - P.y * ty) + ((q - P).z - (q - P).x * tx - (q - P).y * ty) := by
    simp only [V3.sub_x, V3.sub_y, V3.sub_z]; ring
  have a1 := mul_le_mul_of_nonneg_right d1 (abs_nonneg tx)
  have a2 := mul_le_mul_of_nonneg_right d2 (abs_nonneg ty)
  have a3 : |(q - P).z - (q - P).x * tx - (q - P).y * ty| ≤ (1 + |tx| + |ty|) * nrm (q - P) := by
    have b1 := abs_sub ((q - P).z - (q - P).x * tx) ((q - P).y * ty)
    have b2 := abs_sub (q - P).z ((q - P).x * tx)
    rw [abs_mul] at b1 b2
    linarith
  have a0 : 0 ≤ 1 + |tx| + |ty| := by positivity
  have a4 := mul_le_mul_of_nonneg_left w2 a0
  have a5 := mul_le_mul_of_nonneg_left w1 a0
  have a6 := mul_le_mul_of_nonneg_left a5 (show 0 ≤ 66 * u by linarith)
  have a7 : 0 ≤ u * ((1 + |tx| + |ty|) * (nrm r + nrm (q - r))) :=
    mul_nonneg hu0 (mul_nonneg a0 (add_nonneg (nrm_nonneg _) (nrm_nonneg _)))
  rw [e]
  refine (abs_add_le _ _).trans ?_
  linarith

/-- The time that `Paraboloid` computes. -/
theorem paraboloid_time (h : Rounds u rd) (hu : u ≤ 1 / 1000) {R t : ℝ} (hR : R ≠ 0) {r v : V3 ℝ} {dt : Flt rd}
    (ht : Surface.paraboloidTime (Flt.fin rd R) (r.flt rd) (v.flt rd) dt = (true, Flt.fin rd t)) :
    |((r + v.smulR t).x ^ 2 + (r + v.smulR t).y ^ 2) / (2 * R) - (r + v.smulR t).z| ≤
      66 * u * ((|t| * nrm v + nrm r) ^ 2 / (2 * |R|) + (|t| * nrm v + nrm r)) := by
  have hu0 := h.nonneg
  have hu1 : u < 1 := by linarith
  have e2 : (2 : Flt rd) = Flt.fin rd (rd 2) := by simpa using Flt.ofNat_fin (rd := rd) 2
  have e4 : (4 : Flt rd) = Flt.fin rd (rd 4) := by simpa using Flt.ofNat_fin (rd := rd) 4
  have n2 : rd 2 ≠ 0 := (h.rel hu1 2).ne hu1 two_ne_zero
  simp only [Surface.paraboloidTime, V3.flt, V3.map, e2, e4, flt_zero h, flt_one, Flt.mul_fin, Flt.add_fin, Flt.sub_fin, Flt.lt_fin,
    Flt.div_fin n2, Flt.div_fin hR, Flt.eq_fin, Flt.neg_fin] at ht
  have rk : Rel u 4 (rd (rd (rd 1 / rd 2) / R)) (1 / 2 / R) :=
    h.after hu1 ((h.after hu1 ((h.rel hu1 1).div hu1 (h.rel hu1 2))).div hu1 (Rel.refl R))
  have rk1 : Rel u 2 (rd (rd 1 / R)) (1 / R) := h.after hu1 ((h.rel hu1 1).div hu1 (Rel.refl R))
  have mm : ∀ x y : ℝ, Err u 1 (rd (x * y)) (x * y) (|x| * |y|) := fun x y => h.errMul hu1 (Err.exact x) (Err.exact y)
  have ea := h.errMul hu1 (h.errAdd hu1 (mm v.x v.x) (mm v.y v.y)) (rk.err hu0 hu1)
  have eb := h.errSub hu1 (h.errMul hu1 (h.errAdd hu1 (mm r.x v.x) (mm r.y v.y)) (rk1.err hu0 hu1))
    ((Err.exact v.z).mono hu0 hu1 (show 0 ≤ 1 + 1 + 2 + 1 by norm_num))
  have ec := h.errSub hu1 (h.errMul hu1 (h.errAdd hu1 (mm r.x r.x) (mm r.y r.y)) (rk.err hu0 hu1))
    ((Err.exact r.z).mono hu0 hu1 (show 0 ≤ 1 + 1 + 4 + 1 by norm_num))
  have sol : Solves (rd (rd (rd (v.x * v.x) + rd (v.y * v.y)) * rd (rd (rd 1 / rd 2) / R)))
      (rd (rd (rd (rd (r.x * v.x) + rd (r.y * v.y)) * rd (rd 1 / R)) - v.z))
      (rd (rd (rd (rd (r.x * r.x) + rd (r.y * r.y)) * rd (rd (rd 1 / rd 2) / R)) - r.z)) (45 * u) t := by
    split_ifs at ht with h0 h1
    · rw [decide_eq_true_iff] at h0
      rw [h0]
      have ht' := (Prod.mk.inj ht).2
      generalize rd (rd (rd (rd (r.x * v.x) + rd (r.y * v.y)) * rd (rd 1 / R)) - v.z) = b at *
      generalize rd (rd (rd (rd (r.x * r.x) + rd (r.y * r.y)) * rd (rd (rd 1 / rd 2) / R)) - r.z) = c at *
      by_cases hb : b = 0
      · rw [hb] at ht'
        exact (not_div_zero ht').elim
      rw [Flt.div_fin hb, Flt.fin_inj] at ht'
      have r4 := (h.rel hu1 (-c / b)).near hu0 hu1 2 (by norm_num) (by linarith)
      rw [ht'] at r4
      have sv : Solves 0 b c 0 (-c / b) := by
        unfold Solves
        rw [show 0 * (-c / b) ^ 2 + b * (-c / b) + c = 0 by field_simp; ring]
        simp
      exact (sv.near (le_refl _) (by linarith) (by linarith) r4).mono (by linarith)
    · simp at ht
    · rw [decide_eq_true_iff] at h0 h1
      refine rootPair_solves (t := t) h hu h0 rfl (not_lt.1 h1) ?_
      have ht' := (Prod.mk.inj ht).2
      exact pick_max ht'
    · rw [decide_eq_true_iff] at h0 h1
      refine rootPair_solves (t := t) h hu h0 rfl (not_lt.1 h1) ?_
      have ht' := (Prod.mk.inj ht).2
      exact pick_min ht'
  have key := sol.coefs hu0 hu (i := 8) (by norm_num) (ea.mono hu0 hu1 (by norm_num)) (eb.mono hu0 hu1 (by norm_num)) ec
  have lhs : (v.x * v.x + v.y * v.y) * (1 / 2 / R) * t ^ 2 + ((r.x * v.x + r.y * v.y) * (1 / R) - v.z) * t +
      ((r.x * r.x + r.y * r.y) * (1 / 2 / R) - r.z) =
      ((r + v.smulR t).x ^ 2 + (r + v.smulR t).y ^ 2) / (2 * R) - (r + v.smulR t).z := by
    simp only [V3.add_x, V3.add_y, V3.add_z, V3.smulR]; field_simp; ring
  rw [lhs] at key
  refine key.trans (mul_le_mul_of_nonneg_left ?_ (by linarith))
  have cs := absDot_le r v
  simp only [abs_mul] at cs
  have m1 := nrm_sq v
  have m2 := nrm_sq r
  obtain ⟨-, -, v3⟩ := abs_coord_le v
  obtain ⟨-, -, r3⟩ := abs_coord_le r
  rw [abs_mul_abs_self, abs_mul_abs_self, abs_mul_abs_self, abs_mul_abs_self]
  have eR : |1 / R| = 2 * |1 / 2 / R| := by
    rw [show 1 / R = 2 * (1 / 2 / R) by field_simp, abs_mul, abs_two]
  have eK : ∀ x : ℝ, x / (2 * |R|) = x * |1 / 2 / R| := by
    intro x
    rw [abs_div, abs_div, abs_one, abs_two]
    have := abs_pos.2 hR
    field_simp
  rw [eR, eK]
  have K0 := abs_nonneg (1 / 2 / R)
  generalize |1 / 2 / R| = κ at *
  have z1 := mul_self_nonneg v.z
  have z2 := mul_self_nonneg r.z
  have c1 : v.x * v.x + v.y * v.y ≤ nrm v ^ 2 := by linarith
  have c2 : r.x * r.x + r.y * r.y ≤ nrm r ^ 2 := by linarith
  have c3 : |r.x| * |v.x| + |r.y| * |v.y| ≤ nrm r * nrm v := by
    have := mul_nonneg (abs_nonneg r.z) (abs_nonneg v.z)
    linarith
  have T0 := abs_nonneg t
  have f1 := mul_le_mul_of_nonneg_right (mul_le_mul_of_nonneg_right c1 K0) (sq_nonneg t)
  have f2 := mul_le_mul_of_nonneg_right c2 K0
  have f3 := mul_le_mul_of_nonneg_right (mul_le_mul_of_nonneg_right c3 (mul_nonneg two_pos.le K0)) T0
  have f4 := mul_le_mul_of_nonneg_right v3 T0
  have ts := sq_abs t
  have : (|t| * nrm v + nrm r) ^ 2 * κ = nrm v ^ 2 * κ * t ^ 2 + nrm r * nrm v * (2 * κ) * |t| + nrm r ^ 2 * κ := by
    rw [← ts]; ring
  linarith

/-- **C118** (`Paraboloid`). -/
theorem C118_paraboloid (h : Rounds u rd) (hu : u ≤ 1 / 1000) {R : ℝ} (hR : R ≠ 0) (ct : CoordTransform (Flt rd))
    (c : Option (Coating (Flt rd))) (niter : ℕ) (ray : Ray (Flt rd)) (hf : ray.failed = false) {r v q : V3 ℝ}
    (hr : ct.forward ray.r = r.flt rd) (hv : ct.forwardVel ray.v = v.flt rd)
    (hok : (ray.intersect (Surface.paraboloid (Flt.fin rd R)) ct c niter).failed = false)
    (hq : (ray.intersect (Surface.paraboloid (Flt.fin rd R)) ct c niter).r = q.flt rd) :
    |q.z - (q.x ^ 2 + q.y ^ 2) / (2 * R)| ≤ 80 * u * ((nrm r + nrm (q - r)) ^ 2 / (2 * |R|) + (nrm r + nrm (q - r))) := by
  have hu0 := h.nonneg
  obtain ⟨t, ht, hp⟩ := landing_time hf hr hv hok hq
  have k1 := paraboloid_time h hu hR ht
  obtain ⟨k2, k3⟩ := landing_point h hu hp
  obtain ⟨w1, w2, w3⟩ := travel hu0 hu (nrm_nonneg r) (nrm_nonneg (q - r)) k2 k3
  have pP : nrm (r + v.smulR t) ≤ |t| * nrm v + nrm r := by
    have := nrm_add r (v.smulR t)
    rw [nrm_smulR] at this
    linarith
  generalize r + v.smulR t = P at *
  obtain ⟨-, -, d3⟩ := abs_coord_le (q - P)
  have fn := form_near P q 0
  rw [zero_mul, zero_mul, add_zero, add_zero, abs_zero, add_zero, one_mul] at fn
  have e0 := nrm_nonneg (q - P)
  have P0 := nrm_nonneg P
  have W0 : 0 ≤ |t| * nrm v + nrm r := P0.trans pP
  generalize |t| * nrm v + nrm r = W at *
  have S0 : 0 ≤ nrm r + nrm (q - r) := add_nonneg (nrm_nonneg _) (nrm_nonneg _)
  generalize nrm r + nrm (q - r) = S at *
  generalize nrm (q - P) = e at *
  have ie : q.z - (q.x ^ 2 + q.y ^ 2) / (2 * R) =
      (q - P).z - ((q.x ^ 2 + q.y ^ 2 - (P.x ^ 2 + P.y ^ 2)) / (2 * R) + ((P.x ^ 2 + P.y ^ 2) / (2 * R) - P.z)) := by
    simp only [V3.sub_z]; ring
  have a1 := abs_sub (q - P).z ((q.x ^ 2 + q.y ^ 2 - (P.x ^ 2 + P.y ^ 2)) / (2 * R) + ((P.x ^ 2 + P.y ^ 2) / (2 * R) - P.z))
  have a2 := abs_add_le ((q.x ^ 2 + q.y ^ 2 - (P.x ^ 2 + P.y ^ 2)) / (2 * R)) ((P.x ^ 2 + P.y ^ 2) / (2 * R) - P.z)
  rw [abs_div, abs_mul, abs_two] at a2
  have Rp : 0 < 2 * |R| := by have := abs_pos.2 hR; linarith
  have b1 : e * (e + 2 * nrm P) ≤ 9 * u * S ^ 2 * (7 / 6) := by
    have c1 : e + 2 * nrm P ≤ 203 / 100 * S := by linarith
    have c2 := mul_le_mul w2 c1 (by linarith) (by positivity)
    have := mul_nonneg hu0 (sq_nonneg S)
    nlinarith
  have b2 : W ^ 2 ≤ 1021 / 1000 * S ^ 2 := by
    have := pow_le_pow_left₀ W0 w1 2
    nlinarith [sq_nonneg S]
  have b3 := div_le_div_of_nonneg_right (fn.trans b1) Rp.le
  have b4 := div_le_div_of_nonneg_right b2 Rp.le
  have b5 : 66 * u * (W ^ 2 / (2 * |R|) + W) ≤ 66 * u * (1021 / 1000 * S ^ 2 / (2 * |R|) + 101 / 100 * S) :=
    mul_le_mul_of_nonneg_left (add_le_add b4 w1) (by linarith)
  have g1 : 9 * u * S ^ 2 * (7 / 6) / (2 * |R|) = 21 / 2 * (u * (S ^ 2 / (2 * |R|))) := by ring
  have g2 : 1021 / 1000 * S ^ 2 / (2 * |R|) = 1021 / 1000 * (S ^ 2 / (2 * |R|)) := by ring
  rw [g1] at b3
  rw [g2] at b5
  rw [ie]
  have z1 : 0 ≤ u * (S ^ 2 / (2 * |R|)) := by positivity
  have z2 : 0 ≤ u * S := mul_nonneg hu0 S0
  nlinarith

/-- The time that `Quadric` computes. -/
theorem quadric_time (h : Rounds u rd) (hu : u ≤ 1 / 1000) (h1 : rd 1 = 1) {R κ t : ℝ} (hκ : κ + 1 ≠ 0) {r v : V3 ℝ} {dt : Flt rd}
    (ht : Surface.quadricTime (Flt.fin rd R) (Flt.fin rd κ) (r.flt rd) (v.flt rd) dt = (true, Flt.fin rd t)) :
    |((r + v.smulR t).x ^ 2 + (r + v.smulR t).y ^ 2) * (1 / (κ + 1)) + (r + v.smulR t).z ^ 2 - 2 * (R / (κ + 1)) * (r + v.smulR t).z| ≤
      66 * u * ((|t| * nrm v + nrm r + |R / (κ + 1)|) ^ 2 + (R / (κ + 1)) ^ 2 + (|t| * nrm v + nrm r) ^ 2 * |1 / (κ + 1)|) := by
  have hu0 := h.nonneg
  have hu1 : u < 1 := by linarith
  have e2 : (2 : Flt rd) = Flt.fin rd (rd 2) := by simpa using Flt.ofNat_fin (rd := rd) 2
  have e4 : (4 : Flt rd) = Flt.fin rd (rd 4) := by simpa using Flt.ofNat_fin (rd := rd) 4
  have rk := h.rel hu1 (κ + 1)
  have nk : rd (κ + 1) ≠ 0 := rk.ne hu1 hκ
  simp only [Surface.quadricTime, V3.flt, V3.map, e2, e4, flt_zero h, flt_one, h1, Flt.mul_fin, Flt.add_fin, Flt.sub_fin, Flt.lt_fin,
    Flt.div_fin nk] at ht
  have rinv : Rel u 2 (rd (1 / rd (κ + 1))) (1 / (κ + 1)) := h.after hu1 ((Rel.refl 1).div hu1 rk)
  have einv := rinv.err hu0 hu1
  have mm : ∀ x y : ℝ, Err u 1 (rd (x * y)) (x * y) (|x| * |y|) := fun x y => h.errMul hu1 (Err.exact x) (Err.exact y)
  have eRk := (h.after hu1 ((Rel.refl R).div hu1 rk)).err hu0 hu1
  have ez := h.errSub hu1 ((Err.exact r.z).mono hu0 hu1 (show 0 ≤ 0 + 1 + 1 by norm_num)) eRk
  have ea1 := h.errMul hu1 (h.errAdd hu1 (mm v.x v.x) (mm v.y v.y)) einv
  have ea := h.errAdd hu1 ((mm v.z v.z).mono hu0 hu1 (show 1 ≤ 1 + 1 + 2 + 1 by norm_num)) ea1
  have eb1 := h.errMul hu1 (Err.exact v.z) ez
  have eb2 := h.errMul hu1 (h.errAdd hu1 (mm v.x r.x) (mm v.y r.y)) einv
  have eb := h.errMul hu1 ((h.rel hu1 2).err hu0 hu1) (h.errAdd hu1 (eb1.mono hu0 hu1 (show _ ≤ 1 + 1 + 2 + 1 by norm_num)) eb2)
  have ec1 := h.errMul hu1 ez ez
  have ec2 := h.errDiv hu1 (h.errDiv hu1 (mm R R) rk) rk
  have ec3 := h.errMul hu1 (h.errAdd hu1 (mm r.x r.x) (mm r.y r.y)) einv
  have ec12 := h.errSub hu1 ec1 (ec2.mono hu0 hu1 (show _ ≤ 0 + 1 + 1 + 1 + (0 + 1 + 1 + 1) + 1 by norm_num))
  have ec := h.errAdd hu1 ec12 (ec3.mono hu0 hu1 (show _ ≤ 0 + 1 + 1 + 1 + (0 + 1 + 1 + 1) + 1 + 1 by norm_num))
  have sol : ∀ {a b c D : ℝ} (_ : D = rd (rd (b * b) - rd (rd (rd 4 * a) * c))) (_ : 0 ≤ D)
      (_ : (Surface.rootPair (Flt.fin rd a) (Flt.fin rd b) (Flt.fin rd c) (Flt.fin rd D)).1 = Flt.fin rd t ∨
        (Surface.rootPair (Flt.fin rd a) (Flt.fin rd b) (Flt.fin rd c) (Flt.fin rd D)).2 = Flt.fin rd t), Solves a b c (45 * u) t := by
    intro a b c D eD hD hp
    by_cases ha : a = 0
    · subst ha
      exact rootPair_linear h hu eD hD hp
    · exact rootPair_solves h hu ha eD hD hp
  have hsol : Solves (rd (rd (v.z * v.z) + rd (rd (rd (v.x * v.x) + rd (v.y * v.y)) * rd (1 / rd (κ + 1)))))
      (rd (rd 2 * rd (rd (v.z * rd (r.z - rd (R / rd (κ + 1)))) + rd (rd (rd (v.x * r.x) + rd (v.y * r.y)) * rd (1 / rd (κ + 1))))))
      (rd (rd (rd (rd (r.z - rd (R / rd (κ + 1))) * rd (r.z - rd (R / rd (κ + 1)))) - rd (rd (rd (R * R) / rd (κ + 1)) / rd (κ + 1))) +
        rd (rd (rd (r.x * r.x) + rd (r.y * r.y)) * rd (1 / rd (κ + 1))))) (45 * u) t := by
    split_ifs at ht with d0 d1
    · simp at ht
    · rw [decide_eq_true_iff] at d0
      exact sol rfl (not_lt.1 d0) (Or.inl (Prod.mk.inj ht).2)
    · rw [decide_eq_true_iff] at d0
      exact sol rfl (not_lt.1 d0) (Or.inr (Prod.mk.inj ht).2)
  have key := hsol.coefs hu0 hu (i := 10) (by norm_num) (ea.mono hu0 hu1 (by norm_num)) (eb.mono hu0 hu1 (by norm_num))
    (ec.mono hu0 hu1 (by norm_num))
  have lhs : (v.z * v.z + (v.x * v.x + v.y * v.y) * (1 / (κ + 1))) * t ^ 2 +
      2 * (v.z * (r.z - R / (κ + 1)) + (v.x * r.x + v.y * r.y) * (1 / (κ + 1))) * t +
      ((r.z - R / (κ + 1)) * (r.z - R / (κ + 1)) - R * R / (κ + 1) / (κ + 1) + (r.x * r.x + r.y * r.y) * (1 / (κ + 1))) =
      ((r + v.smulR t).x ^ 2 + (r + v.smulR t).y ^ 2) * (1 / (κ + 1)) + (r + v.smulR t).z ^ 2 -
        2 * (R / (κ + 1)) * (r + v.smulR t).z := by
    simp only [V3.add_x, V3.add_y, V3.add_z, V3.smulR]; field_simp; ring
  rw [lhs] at key
  refine key.trans (mul_le_mul_of_nonneg_left ?_ (by linarith))
  have cs := absDot_le v r
  simp only [abs_mul] at cs
  have m1 := nrm_sq v
  have m2 := nrm_sq r
  obtain ⟨-, -, v3⟩ := abs_coord_le v
  obtain ⟨-, -, r3⟩ := abs_coord_le r
  have eR : |R| * |R| / |κ + 1| / |κ + 1| = (R / (κ + 1)) ^ 2 := by
    rw [abs_mul_abs_self, div_div, abs_mul_abs_self, div_pow]; ring
  rw [eR, abs_mul_abs_self, abs_mul_abs_self, abs_mul_abs_self, abs_mul_abs_self, abs_mul_abs_self, abs_two]
  have K0 := abs_nonneg (1 / (κ + 1))
  have G0 := abs_nonneg (R / (κ + 1))
  generalize |1 / (κ + 1)| = k at *
  generalize |R / (κ + 1)| = g at *
  have z1 := mul_self_nonneg v.z
  have z2 := mul_self_nonneg r.z
  have x1 := mul_self_nonneg v.x
  have x2 := mul_self_nonneg v.y
  have c1 : v.x * v.x + v.y * v.y ≤ nrm v ^ 2 := by linarith
  have c2 : r.x * r.x + r.y * r.y ≤ nrm r ^ 2 := by linarith
  have c3 : |v.x| * |r.x| + |v.y| * |r.y| ≤ nrm v * nrm r := by
    have := mul_nonneg (abs_nonneg v.z) (abs_nonneg r.z)
    linarith
  have c4 : v.z * v.z ≤ nrm v ^ 2 := by linarith
  have T0 := abs_nonneg t
  have V0 := nrm_nonneg v
  have c5 : |v.z| * (|r.z| + g) ≤ nrm v * (nrm r + g) := mul_le_mul v3 (by linarith) (add_nonneg (abs_nonneg _) G0) V0
  have c6 : (|r.z| + g) * (|r.z| + g) ≤ (nrm r + g) * (nrm r + g) :=
    mul_le_mul (by linarith) (by linarith) (add_nonneg (abs_nonneg _) G0) (add_nonneg (nrm_nonneg r) G0)
  have f0 := mul_le_mul_of_nonneg_right c4 (sq_nonneg t)
  have f1 := mul_le_mul_of_nonneg_right (mul_le_mul_of_nonneg_right c1 K0) (sq_nonneg t)
  have f2 := mul_le_mul_of_nonneg_right c2 K0
  have f3 := mul_le_mul_of_nonneg_right (mul_le_mul_of_nonneg_right c3 K0) T0
  have f4 := mul_le_mul_of_nonneg_right c5 T0
  have ts := sq_abs t
  have i1 : (|t| * nrm v + nrm r) ^ 2 * k = nrm v ^ 2 * k * t ^ 2 + 2 * (nrm v * nrm r * k * |t|) + nrm r ^ 2 * k := by
    rw [← ts]; ring
  have i2 : (|t| * nrm v + nrm r + g) ^ 2 = nrm v ^ 2 * t ^ 2 + 2 * (nrm v * (nrm r + g) * |t|) + (nrm r + g) * (nrm r + g) := by
    rw [← ts]; ring
  rw [i1, i2]
  linarith

theorem quadric_scale {S W e g k p F E G : ℝ} (hu0 : 0 ≤ u) (S0 : 0 ≤ S) (W0 : 0 ≤ W) (e0 : 0 ≤ e) (g0 : 0 ≤ g) (k0 : 0 < k)
    (w1 : W ≤ 101 / 100 * S) (w2 : e ≤ 506 / 100 * u * S) (w3 : e ≤ 1 / 100 * S) (p1 : p ≤ W)
    (f1 : |F| ≤ 66 * u * ((W + g) ^ 2 + g ^ 2 + W ^ 2 * (1 / k))) (g1 : |G| ≤ (1 + k) * (e * (e + 2 * p)) + 2 * (k * g) * e)
    (h1 : |E| ≤ k * |F| + |G|) : |E| ≤ 210 * u * (S ^ 2 + k * S ^ 2 + k * g ^ 2) := by
  have uS := mul_nonneg hu0 (sq_nonneg S)
  have b1 : e * (e + 2 * p) ≤ 21 / 2 * (u * S ^ 2) := by
    have c1 : e + 2 * p ≤ 203 / 100 * S := by linarith
    have c2 := mul_le_mul_of_nonneg_left c1 e0
    have c3 := mul_le_mul_of_nonneg_right w2 S0
    nlinarith
  have b2 : W ^ 2 ≤ 1021 / 1000 * S ^ 2 := by
    have := pow_le_pow_left₀ W0 w1 2
    nlinarith [sq_nonneg S]
  have b3 : (W + g) ^ 2 ≤ 2 * W ^ 2 + 2 * g ^ 2 := by nlinarith [sq_nonneg (W - g)]
  have b4 : 2 * g * e ≤ 506 / 100 * (u * (S ^ 2 + g ^ 2)) := by
    have c1 := mul_le_mul_of_nonneg_left w2 g0
    have c2 : 2 * (g * S) ≤ S ^ 2 + g ^ 2 := by nlinarith [sq_nonneg (S - g)]
    have := mul_le_mul_of_nonneg_left c2 hu0
    linarith
  have b5 : k * |F| ≤ k * (66 * u * (2 * (1021 / 1000 * S ^ 2) + 3 * g ^ 2)) + 66 * u * (1021 / 1000 * S ^ 2) := by
    have c1 := mul_le_mul_of_nonneg_left f1 k0.le
    have c2 : k * (66 * u * ((W + g) ^ 2 + g ^ 2 + W ^ 2 * (1 / k))) = k * (66 * u * ((W + g) ^ 2 + g ^ 2)) + 66 * u * W ^ 2 := by
      field_simp
    have c3 : k * (66 * u * ((W + g) ^ 2 + g ^ 2)) ≤ k * (66 * u * (2 * (1021 / 1000 * S ^ 2) + 3 * g ^ 2)) :=
      mul_le_mul_of_nonneg_left (mul_le_mul_of_nonneg_left (by linarith) (by linarith)) k0.le
    have c4 : 66 * u * W ^ 2 ≤ 66 * u * (1021 / 1000 * S ^ 2) := mul_le_mul_of_nonneg_left b2 (by linarith)
    linarith
  have b6 := mul_le_mul_of_nonneg_left b1 (show 0 ≤ 1 + k by linarith)
  have b7 := mul_le_mul_of_nonneg_left b4 k0.le
  have z1 := mul_nonneg k0.le uS
  have z2 := mul_nonneg k0.le (mul_nonneg hu0 (sq_nonneg g))
  linarith

/-- **C118** (`Quadric`).  Here `rd 1 = 1`: the number one is stored as it is.  The error grows as the conic constant approaches -1. -/
theorem C118_quadric (h : Rounds u rd) (hu : u ≤ 1 / 1000) (h1 : rd 1 = 1) (R : ℝ) {κ : ℝ} (hκ : κ + 1 ≠ 0) (ct : CoordTransform (Flt rd))
    (c : Option (Coating (Flt rd))) (niter : ℕ) (ray : Ray (Flt rd)) (hf : ray.failed = false) {r v q : V3 ℝ}
    (hr : ct.forward ray.r = r.flt rd) (hv : ct.forwardVel ray.v = v.flt rd)
    (hok : (ray.intersect (Surface.quadric (Flt.fin rd R) (Flt.fin rd κ)) ct c niter).failed = false)
    (hq : (ray.intersect (Surface.quadric (Flt.fin rd R) (Flt.fin rd κ)) ct c niter).r = q.flt rd) :
    |q.x ^ 2 + q.y ^ 2 + (κ + 1) * q.z ^ 2 - 2 * R * q.z| ≤
      210 * u * ((nrm r + nrm (q - r)) ^ 2 + |κ + 1| * (nrm r + nrm (q - r)) ^ 2 + R ^ 2 / |κ + 1|) := by
  have hu0 := h.nonneg
  obtain ⟨t, ht, hp⟩ := landing_time hf hr hv hok hq
  have k1 := quadric_time h hu h1 hκ ht
  obtain ⟨k2, k3⟩ := landing_point h hu hp
  obtain ⟨w1, w2, w3⟩ := travel hu0 hu (nrm_nonneg r) (nrm_nonneg (q - r)) k2 k3
  have pP : nrm (r + v.smulR t) ≤ |t| * nrm v + nrm r := by
    have := nrm_add r (v.smulR t)
    rw [nrm_smulR] at this
    linarith
  generalize r + v.smulR t = P at *
  obtain ⟨-, -, d3⟩ := abs_coord_le (q - P)
  have fn := form_near P q (κ + 1)
  have kp := abs_pos.2 hκ
  have S0 : 0 ≤ nrm r + nrm (q - r) := add_nonneg (nrm_nonneg _) (nrm_nonneg _)
  have eR : |κ + 1| * |R / (κ + 1)| = |R| := by rw [abs_div]; field_simp
  have eR2 : R ^ 2 / |κ + 1| = |κ + 1| * |R / (κ + 1)| ^ 2 := by rw [abs_div, div_pow, sq_abs]; field_simp
  rw [eR2]
  rw [abs_div 1, abs_one, ← sq_abs (R / (κ + 1))] at k1
  refine quadric_scale (G := q.x ^ 2 + q.y ^ 2 + (κ + 1) * q.z ^ 2 - (P.x ^ 2 + P.y ^ 2 + (κ + 1) * P.z ^ 2) - 2 * R * (q - P).z)
    hu0 S0 ((nrm_nonneg P).trans pP) (nrm_nonneg (q - P)) (abs_nonneg _) kp w1 w2 w3 pP k1 ?_ ?_
  · refine (abs_sub _ _).trans (add_le_add fn ?_)
    rw [eR, abs_mul, abs_mul, abs_two]
    exact mul_le_mul_of_nonneg_left d3 (by positivity)
  · rw [← abs_mul]
    refine le_trans (le_of_eq ?_) (abs_add_le _ _)
    congr 1
    simp only [V3.sub_z]
    field_simp
    ring

end surfaces

/-! ## Surfaces met by iteration -/

section iterated
variable {u : ℝ} {rd : ℝ → ℝ}

/-- The surfaces that are met by iteration: the time is the result of Newton's loop from some start, or a failure. -/
def Iterated (s : Surface (Flt rd)) : Prop := ∀ r v dt n, (s.timeToIntersect r v dt n).1 = false ∨
  ∃ dt', s.timeToIntersect r v dt n = Surface.newton s.sag s.normal r v dt' n

theorem iterated_asphere (R κ : Flt rd) (cs : List (Flt rd)) : Iterated (Surface.asphere R κ cs) := by
  intro r v dt n
  rcases h : Surface.quadricTime R κ r v dt with ⟨_ | _, t⟩
  · left; simp [Surface.asphere, h]
  · exact Or.inr ⟨t, by simp only [Surface.asphere, h]⟩
theorem iterated_polynomial (p : Surface.PolyData (Flt rd)) : Iterated (Surface.polynomial p) := fun _ _ dt _ => Or.inr ⟨dt, rfl⟩
theorem iterated_bicubic (T : Surface.Table (Flt rd)) : Iterated (Surface.bicubic T) := fun _ _ dt _ => Or.inr ⟨dt, rfl⟩
theorem iterated_sum (ss : List (Surface (Flt rd))) : Iterated (Surface.sum ss) := by
  intro r v dt n
  cases ss with
  | nil => exact Or.inl rfl
  | cons s ss =>
    rcases h : s.timeToIntersect r v dt n with ⟨_ | _, t⟩
    · left; simp [Surface.sum, Surface.sumTime, h]
    · exact Or.inr ⟨t, by simp only [Surface.sum, Surface.sumTime, h]⟩

/-- **C118** (surfaces met by iteration).  The height of the landing point is that which `sag` returns for it, up to the tolerance of the
iteration. -/
theorem C118_iterated (h : Rounds u rd) (hu : u ≤ 1 / 1000) {s : Surface (Flt rd)} (hs : Iterated s) (ct : CoordTransform (Flt rd))
    (c : Option (Coating (Flt rd))) (niter : ℕ) (ray : Ray (Flt rd)) (hf : ray.failed = false) {r v q : V3 ℝ}
    (hr : ct.forward ray.r = r.flt rd) (hv : ct.forwardVel ray.v = v.flt rd)
    (hok : (ray.intersect s ct c niter).failed = false) (hq : (ray.intersect s ct c niter).r = q.flt rd) :
    ∃ z : ℝ, s.sag (Flt.fin rd q.x) (Flt.fin rd q.y) = Flt.fin rd z ∧ |q.z - z| ≤ (1 + 3 * u) / 10 ^ 12 := by
  have hu0 := h.nonneg
  obtain ⟨t, ht, hp⟩ := landing_time hf hr hv hok hq
  rcases hs (r.flt rd) (v.flt rd) 0 niter with h1 | ⟨dt', h1⟩
  · rw [ht] at h1; simp at h1
  rw [h1] at ht
  unfold Surface.newton at ht
  obtain ⟨h2, h3⟩ := Prod.mk.inj ht
  rw [h3, hp] at h2
  have hx : (q.flt rd).x = Flt.fin rd q.x := rfl
  have hy : (q.flt rd).y = Flt.fin rd q.y := rfl
  have hz : (q.flt rd).z = Flt.fin rd q.z := rfl
  rw [hx, hy, hz] at h2
  have fin : ∃ z : ℝ, s.sag (Flt.fin rd q.x) (Flt.fin rd q.y) = Flt.fin rd z := by
    generalize s.sag (Flt.fin rd q.x) (Flt.fin rd q.y) = w at h2
    obtain ⟨d⟩ := w
    cases d with
    | fin z => exact ⟨z, rfl⟩
    | nan => exact absurd h2 (by intro h4; cases h4)
    | pinf => exact absurd h2 (by intro h4; cases h4)
    | ninf => exact absurd h2 (by intro h4; cases h4)
  obtain ⟨z, hz'⟩ := fin
  refine ⟨z, hz', ?_⟩
  rw [hz', Flt.sub_fin] at h2
  have e : (Arith.const (1 / 10 ^ 12) : Flt rd) = Flt.fin rd (rd ((1 / 10 ^ 12 : ℚ) : ℝ)) := rfl
  rw [e, Flt.abs_fin, Flt.lt_fin, decide_eq_true_iff] at h2
  have k1 := h.err (z - q.z)
  have k2 := h.err ((1 / 10 ^ 12 : ℚ) : ℝ)
  have e2 : ((1 / 10 ^ 12 : ℚ) : ℝ) = 1 / 10 ^ 12 := by push_cast; ring
  rw [e2] at k2 h2
  have k3 := (abs_le.1 k2).2
  rw [abs_of_pos (show (0 : ℝ) < 1 / 10 ^ 12 by norm_num)] at k3
  have k4 := abs_sub_abs_le_abs_sub (z - q.z) (rd (z - q.z))
  rw [abs_sub_comm (z - q.z) (rd (z - q.z))] at k4
  rw [abs_sub_comm]
  have Z0 := abs_nonneg (z - q.z)
  have k5 : |z - q.z| * (1 - u) ≤ (1 + u) / 10 ^ 12 := by linarith
  have k6 : (1 + u) / 10 ^ 12 ≤ (1 + 3 * u) / 10 ^ 12 * (1 - u) := by
    have : 1 + u ≤ (1 + 3 * u) * (1 - u) := by nlinarith
    linarith
  have : 0 < 1 - u := by linarith
  exact le_of_mul_le_mul_right (k5.trans k6) this
end iterated

/-! ## Concrete cases -/

/-- Integers below `2^53`, times powers of two, are double-precision numbers. -/
theorem rd53_dyadic (n e : ℤ) (hn : |n| < 2 ^ 53) : rd53 (n * 2 ^ e) = n * 2 ^ e := by
  by_cases h0 : n = 0
  · subst h0; simpa using rd53_rounds.zero
  have hp : (0 : ℝ) < |(n : ℝ)| := abs_pos.2 (by exact_mod_cast h0)
  have ha : |(n : ℝ) * 2 ^ e| = |(n : ℝ)| * 2 ^ e := by rw [abs_mul, abs_of_pos (show (0 : ℝ) < 2 ^ e by positivity)]
  have hl : Int.log 2 |(n : ℝ) * 2 ^ e| ≤ 52 + e := by
    have h1 : |(n : ℝ) * 2 ^ e| < (2 : ℕ) ^ (53 + e : ℤ) := by
      have : ((|n| : ℤ) : ℝ) < ((2 ^ 53 : ℤ) : ℝ) := by exact_mod_cast hn
      rw [Int.cast_abs] at this
      rw [ha, zpow_add₀ (by norm_num)]
      norm_num at this ⊢
      exact mul_lt_mul_of_pos_right this (by positivity)
    have := (Int.lt_zpow_iff_log_lt (by norm_num) (by rw [ha]; positivity)).1 h1
    omega
  obtain ⟨m, hm⟩ : ∃ m : ℕ, Int.log 2 |(n : ℝ) * 2 ^ e| - 52 = e - (m : ℤ) := ⟨(52 + e - Int.log 2 |(n : ℝ) * 2 ^ e|).toNat, by omega⟩
  rw [rd53, hm, zpow_sub₀ (by norm_num), zpow_natCast]
  have : (n : ℝ) * 2 ^ e / (2 ^ e / 2 ^ m) = ((n * 2 ^ m : ℤ) : ℝ) := by push_cast; field_simp
  rw [this, round_intCast]
  push_cast
  field_simp
theorem rd53_int (n : ℤ) (hn : |n| < 2 ^ 53) : rd53 (n : ℝ) = n := by simpa using rd53_dyadic n 0 hn
theorem rd53_nat (n : ℕ) (hn : n < 2 ^ 53) : rd53 (n : ℝ) = n := by
  have := rd53_int n (by rw [abs_of_nonneg (by omega)]; omega)
  simpa using this
theorem rd53_negNat (n : ℕ) (hn : n < 2 ^ 53) : rd53 (-(n : ℝ)) = -n := by
  have := rd53_int (-n) (by rw [abs_neg, abs_of_nonneg (by omega)]; omega)
  simpa using this

/-- The frame in which surfaces are given. -/
noncomputable def hereT : CoordTransform (Flt rd53) :=
  ⟨CoordSys.std _, CoordSys.std _, V3.flt rd53 ⟨0, 0, 0⟩, M3.flt rd53 ⟨1, 0, 0, 0, 1, 0, 0, 0, 1⟩⟩

theorem hereT_forward (x y z : ℤ) (hx : |x| < 2 ^ 53) (hy : |y| < 2 ^ 53) (hz : |z| < 2 ^ 53) :
    hereT.forward (V3.flt rd53 ⟨x, y, z⟩) = V3.flt rd53 ⟨x, y, z⟩ ∧ hereT.forwardVel (V3.flt rd53 ⟨x, y, z⟩) = V3.flt rd53 ⟨x, y, z⟩ := by
  have h0 := rd53_rounds.zero
  have e1 := rd53_int x hx
  have e2 := rd53_int y hy
  have e3 := rd53_int z hz
  constructor <;>
  simp [hereT, CoordTransform.forward, CoordTransform.forwardVel, M3.mulVec, M3.tr, M3.flt, M3.map, V3.flt, V3.map, h0, e1, e2, e3]

/-- A ray upwards. -/
noncomputable def upRay (r : V3 ℝ) : Ray (Flt rd53) := ⟨r.flt rd53, V3.flt rd53 ⟨0, 0, 1⟩, 0, 1, 1, false, false⟩

theorem upRay_lands {s : Surface (Flt rd53)} (x y z : ℤ) (hx : |x| < 2 ^ 53) (hy : |y| < 2 ^ 53) (hz : |z + 2| < 2 ^ 53) (hz' : |z| < 2 ^ 53)
    (ht : s.timeToIntersect (V3.flt rd53 ⟨x, y, z⟩) (V3.flt rd53 ⟨0, 0, 1⟩) 0 0 = (true, Flt.fin rd53 2)) :
    hereT.forward (upRay ⟨x, y, z⟩).r = V3.flt rd53 ⟨x, y, z⟩ ∧ hereT.forwardVel (upRay ⟨x, y, z⟩).v = V3.flt rd53 ⟨0, 0, 1⟩ ∧
    ((upRay ⟨x, y, z⟩).intersect s hereT none 0).failed = false ∧
    ((upRay ⟨x, y, z⟩).intersect s hereT none 0).r = V3.flt rd53 ⟨x, y, z + 2⟩ := by
  have f := hereT_forward x y z hx hy hz'
  have g := hereT_forward 0 0 1 (by norm_num) (by norm_num) (by norm_num)
  push_cast at g
  have e : (upRay ⟨x, y, z⟩).intersect s hereT none 0 =
      { upRay ⟨x, y, z⟩ with r := V3.flt rd53 ⟨x, y, z⟩ + (V3.flt rd53 ⟨0, 0, 1⟩).smulR (Flt.fin rd53 2), t := 0 + Flt.fin rd53 2 } := by
    unfold Ray.intersect
    simp only [upRay, f.1, g.2, ht, Bool.false_eq_true, if_false]
  rw [e]
  refine ⟨f.1, g.2, rfl, ?_⟩
  have i2 : rd53 2 = 2 := by exact_mod_cast rd53_nat 2 (by norm_num)
  have h0 := rd53_rounds.zero
  have e3 := rd53_int (z + 2) hz
  push_cast at e3
  ext <;> simp [V3.flt, V3.map, V3.smulR, h0, i2, rd53_int x hx, rd53_int y hy, e3]

section
theorem lit53 {n : ℕ} (hn : n < 2 ^ 53) : (OfNat.ofNat n : Flt rd53) = Flt.fin rd53 n := by rw [Flt.ofNat_fin, rd53_nat n hn]

/-- A ray that starts at `(0, 0, -2)` upwards lands on the sphere of radius 2 at its vertex. -/
example : |nrm ((⟨0, 0, 0⟩ : V3 ℝ) - ⟨0, 0, 2⟩) ^ 2 - 2 ^ 2| ≤
    150 * 2 ^ (-53 : ℤ) * (nrm ⟨0, 0, -2⟩ + |2| + nrm ((⟨0, 0, 0⟩ : V3 ℝ) - ⟨0, 0, -2⟩)) ^ 2 := by
  have h0 := rd53_rounds.zero
  have e2 : (2 : Flt rd53) = Flt.fin rd53 2 := by exact_mod_cast lit53 (n := 2) (by norm_num)
  have e4 : (4 : Flt rd53) = Flt.fin rd53 4 := by exact_mod_cast lit53 (n := 4) (by norm_num)
  have i : ∀ n : ℕ, n < 100 → rd53 (n : ℝ) = n := fun n hn => rd53_nat n (by omega)
  have j : ∀ n : ℕ, n < 100 → rd53 (-(n : ℝ)) = -n := fun n hn => rd53_negNat n (by omega)
  have i1 := rd53_one
  have i2 : rd53 2 = 2 := by exact_mod_cast i 2 (by norm_num)
  have i4 : rd53 4 = 4 := by exact_mod_cast i 4 (by norm_num)
  have i8 : rd53 8 = 8 := by exact_mod_cast i 8 (by norm_num)
  have i12 : rd53 12 = 12 := by exact_mod_cast i 12 (by norm_num)
  have i16 : rd53 16 = 16 := by exact_mod_cast i 16 (by norm_num)
  have i24 : rd53 24 = 24 := by exact_mod_cast i 24 (by norm_num)
  have i48 : rd53 48 = 48 := by exact_mod_cast i 48 (by norm_num)
  have i64 : rd53 64 = 64 := by exact_mod_cast i 64 (by norm_num)
  have i6 : rd53 6 = 6 := by exact_mod_cast i 6 (by norm_num)
  have j4 : rd53 (-4) = -4 := by exact_mod_cast j 4 (by norm_num)
  have j8 : rd53 (-8) = -8 := by exact_mod_cast j 8 (by norm_num)
  have ht : Surface.sphereTime (Flt.fin rd53 2) (V3.flt rd53 ⟨0, 0, -2⟩) (V3.flt rd53 ⟨0, 0, 1⟩) 0 = (true, Flt.fin rd53 2) := by
    have s16 : Real.sqrt 16 = 4 := by rw [show (16 : ℝ) = 4 ^ 2 by norm_num]; exact Real.sqrt_sq (by norm_num)
    simp only [Surface.sphereTime, Surface.rootPair, V3.flt, V3.map, e2, e4, flt_zero rd53_rounds, Flt.mul_fin, Flt.add_fin, Flt.sub_fin,
      Flt.lt_fin, Flt.gt_fin, Flt.neg_fin]
    norm_num [h0, i1, i2, i4, i8, i12, i16, i24, i48, i64, i6, j4, j8, Flt.sqrt_fin, s16, Flt.add_fin, Flt.div_fin, Flt.mul_fin, Arith.min]
  have L := upRay_lands (s := Surface.sphere (Flt.fin rd53 2)) 0 0 (-2) (by norm_num) (by norm_num) (by norm_num) (by norm_num)
    (by push_cast; exact ht)
  norm_num only [Int.cast_zero, Int.cast_neg, Int.cast_ofNat] at L
  exact C118_sphere rd53_rounds (by norm_num [zpow_neg]) 2 hereT none 0 _ rfl L.1 L.2.1 (by simp) L.2.2.1 L.2.2.2

/-- ... and on the ellipsoid with conic constant 1. -/
example : |(0 : ℝ) ^ 2 + 0 ^ 2 + (1 + 1) * 0 ^ 2 - 2 * 2 * 0| ≤ 210 * 2 ^ (-53 : ℤ) *
    ((nrm ⟨0, 0, -2⟩ + nrm ((⟨0, 0, 0⟩ : V3 ℝ) - ⟨0, 0, -2⟩)) ^ 2 + |1 + 1| * (nrm ⟨0, 0, -2⟩ + nrm ((⟨0, 0, 0⟩ : V3 ℝ) - ⟨0, 0, -2⟩)) ^ 2 +
      2 ^ 2 / |1 + 1|) := by
  have h0 := rd53_rounds.zero
  have e2 : (2 : Flt rd53) = Flt.fin rd53 2 := by exact_mod_cast lit53 (n := 2) (by norm_num)
  have e4 : (4 : Flt rd53) = Flt.fin rd53 4 := by exact_mod_cast lit53 (n := 4) (by norm_num)
  have e1 : (1 : Flt rd53) = Flt.fin rd53 1 := by exact_mod_cast lit53 (n := 1) (by norm_num)
  have i : ∀ n : ℕ, n < 100 → rd53 (n : ℝ) = n := fun n hn => rd53_nat n (by omega)
  have j : ∀ n : ℕ, n < 100 → rd53 (-(n : ℝ)) = -n := fun n hn => rd53_negNat n (by omega)
  have i1 := rd53_one
  have i2 : rd53 2 = 2 := by exact_mod_cast i 2 (by norm_num)
  have i4 : rd53 4 = 4 := by exact_mod_cast i 4 (by norm_num)
  have i8 : rd53 8 = 8 := by exact_mod_cast i 8 (by norm_num)
  have i9 : rd53 9 = 9 := by exact_mod_cast i 9 (by norm_num)
  have i16 : rd53 16 = 16 := by exact_mod_cast i 16 (by norm_num)
  have i32 : rd53 32 = 32 := by exact_mod_cast i 32 (by norm_num)
  have i36 : rd53 36 = 36 := by exact_mod_cast i 36 (by norm_num)
  have j3 : rd53 (-3) = -3 := by exact_mod_cast j 3 (by norm_num)
  have j6 : rd53 (-6) = -6 := by exact_mod_cast j 6 (by norm_num)
  have ht : Surface.quadricTime (Flt.fin rd53 2) (Flt.fin rd53 1) (V3.flt rd53 ⟨0, 0, -2⟩) (V3.flt rd53 ⟨0, 0, 1⟩) 0 =
      (true, Flt.fin rd53 2) := by
    have s4 : Real.sqrt 4 = 2 := by rw [show (4 : ℝ) = 2 ^ 2 by norm_num]; exact Real.sqrt_sq (by norm_num)
    have k2 : rd53 (1 + 1) = 2 := by norm_num [i2]
    simp only [Surface.quadricTime, Surface.rootPair, V3.flt, V3.map, e2, e4, e1, flt_zero rd53_rounds, Flt.mul_fin, Flt.add_fin, Flt.sub_fin,
      Flt.lt_fin, Flt.gt_fin, Flt.neg_fin, k2, Flt.div_fin (two_ne_zero (α := ℝ))]
    norm_num [h0, i1, i2, i4, i8, i9, i16, i32, i36, j3, j6, Flt.sqrt_fin, s4, Flt.add_fin, Flt.div_fin, Flt.mul_fin, Flt.abs_fin, Flt.lt_fin]
  have L := upRay_lands (s := Surface.quadric (Flt.fin rd53 2) (Flt.fin rd53 1)) 0 0 (-2) (by norm_num) (by norm_num) (by norm_num)
    (by norm_num) (by push_cast; exact ht)
  norm_num only [Int.cast_zero, Int.cast_neg, Int.cast_ofNat] at L
  exact C118_quadric rd53_rounds (by norm_num [zpow_neg]) rd53_one 2 (κ := 1) (by norm_num) hereT none 0 _ rfl L.1 L.2.1 L.2.2.1 L.2.2.2

/-- A ray from `(2, 0, -1)` upwards lands on the paraboloid `z = (x² + y²) / 4`. -/
example : |(1 : ℝ) - (2 ^ 2 + 0 ^ 2) / (2 * 2)| ≤ 80 * 2 ^ (-53 : ℤ) *
    ((nrm ⟨2, 0, -1⟩ + nrm ((⟨2, 0, 1⟩ : V3 ℝ) - ⟨2, 0, -1⟩)) ^ 2 / (2 * |2|) + (nrm ⟨2, 0, -1⟩ + nrm ((⟨2, 0, 1⟩ : V3 ℝ) - ⟨2, 0, -1⟩))) := by
  have h0 := rd53_rounds.zero
  have e2 : (2 : Flt rd53) = Flt.fin rd53 2 := by exact_mod_cast lit53 (n := 2) (by norm_num)
  have e4 : (4 : Flt rd53) = Flt.fin rd53 4 := by exact_mod_cast lit53 (n := 4) (by norm_num)
  have e1 : (1 : Flt rd53) = Flt.fin rd53 1 := by exact_mod_cast lit53 (n := 1) (by norm_num)
  have i1 := rd53_one
  have i2 : rd53 2 = 2 := by exact_mod_cast rd53_nat 2 (by norm_num)
  have i4 : rd53 4 = 4 := by exact_mod_cast rd53_nat 4 (by norm_num)
  have j1 : rd53 (-1) = -1 := by exact_mod_cast rd53_negNat 1 (by norm_num)
  have j2 : rd53 (-2) = -2 := by exact_mod_cast rd53_negNat 2 (by norm_num)
  have hh : rd53 (1 / 2) = 1 / 2 := by have := rd53_dyadic 1 (-1) (by norm_num); norm_num at this ⊢; exact this
  have hq : rd53 (1 / 4) = 1 / 4 := by have := rd53_dyadic 1 (-2) (by norm_num); norm_num [zpow_neg] at this ⊢; exact this
  have ht : Surface.paraboloidTime (Flt.fin rd53 2) (V3.flt rd53 ⟨2, 0, -1⟩) (V3.flt rd53 ⟨0, 0, 1⟩) 0 = (true, Flt.fin rd53 2) := by
    simp only [Surface.paraboloidTime, V3.flt, V3.map, e2, e4, e1, flt_zero rd53_rounds, Flt.mul_fin, Flt.add_fin, Flt.sub_fin,
      Flt.lt_fin, Flt.neg_fin, Flt.eq_fin, Flt.div_fin (two_ne_zero (α := ℝ))]
    norm_num [h0, i1, i2, i4, j1, j2, hh, hq, Flt.div_fin]
  have L := upRay_lands (s := Surface.paraboloid (Flt.fin rd53 2)) 2 0 (-1) (by norm_num) (by norm_num) (by norm_num) (by norm_num)
    (by push_cast; exact ht)
  norm_num only [Int.cast_zero, Int.cast_neg, Int.cast_ofNat, Int.cast_one] at L
  exact C118_paraboloid rd53_rounds (by norm_num [zpow_neg]) (R := 2) (by norm_num) hereT none 0 _ rfl L.1 L.2.1 L.2.2.1 L.2.2.2

/-- A ray from `(1, 0, -1)` upwards lands on the plane `z = x`. -/
example : |(1 : ℝ) - (1 * 1 + 0 * 0)| ≤ 75 * 2 ^ (-53 : ℤ) *
    ((1 + |1| + |0|) * (nrm ⟨1, 0, -1⟩ + nrm ((⟨1, 0, 1⟩ : V3 ℝ) - ⟨1, 0, -1⟩))) := by
  have h0 := rd53_rounds.zero
  have i1 := rd53_one
  have i2 : rd53 2 = 2 := by exact_mod_cast rd53_nat 2 (by norm_num)
  have j1 : rd53 (-1) = -1 := by exact_mod_cast rd53_negNat 1 (by norm_num)
  have j2 : rd53 (-2) = -2 := by exact_mod_cast rd53_negNat 2 (by norm_num)
  have ht : (Surface.tilted (Flt.fin rd53 1) (Flt.fin rd53 0)).timeToIntersect (V3.flt rd53 ⟨1, 0, -1⟩) (V3.flt rd53 ⟨0, 0, 1⟩) 0 0 =
      (true, Flt.fin rd53 2) := by
    simp only [Surface.tilted, V3.flt, V3.map, flt_zero rd53_rounds, Flt.mul_fin, Flt.add_fin, Flt.sub_fin, Flt.eq_fin]
    norm_num [h0, i1, i2, j1, j2, Flt.div_fin]
  have L := upRay_lands (s := Surface.tilted (Flt.fin rd53 1) (Flt.fin rd53 0)) 1 0 (-1) (by norm_num) (by norm_num) (by norm_num)
    (by norm_num) (by push_cast; exact ht)
  norm_num only [Int.cast_zero, Int.cast_neg, Int.cast_ofNat, Int.cast_one] at L
  exact C118_tilted rd53_rounds (by norm_num [zpow_neg]) 1 0 hereT none 0 _ rfl L.1 L.2.1 L.2.2.1 L.2.2.2

/-- A ray from `(1, 0, -2)` upwards lands on a sum of two planes, after no pass of the loop. -/
example : ∃ z : ℝ, (Surface.sum [Surface.plane, Surface.plane]).sag (Flt.fin rd53 1) (Flt.fin rd53 0) = Flt.fin rd53 z ∧
    |0 - z| ≤ (1 + 3 * 2 ^ (-53 : ℤ)) / 10 ^ 12 := by
  have h0 := rd53_rounds.zero
  have i1 := rd53_one
  have i2 : rd53 2 = 2 := by exact_mod_cast rd53_nat 2 (by norm_num)
  have ht : (Surface.sum [Surface.plane, Surface.plane]).timeToIntersect (V3.flt rd53 ⟨1, 0, -2⟩) (V3.flt rd53 ⟨0, 0, 1⟩) 0 0 =
      (true, Flt.fin rd53 2) := by
    have e : (Arith.const (1 / 10 ^ 12) : Flt rd53) = Flt.fin rd53 (rd53 ((1 / 10 ^ 12 : ℚ) : ℝ)) := rfl
    have pos : 0 < rd53 ((1 / 10 ^ 12 : ℚ) : ℝ) := by
      have k := (abs_le.1 (rd53_rounds.err ((1 / 10 ^ 12 : ℚ) : ℝ))).1
      have : (0 : ℝ) < ((1 / 10 ^ 12 : ℚ) : ℝ) := by push_cast; norm_num
      rw [abs_of_pos this] at k
      have u1 : (2 : ℝ) ^ (-53 : ℤ) < 1 := by norm_num [zpow_neg]
      nlinarith
    have e0 : (0 : Flt rd53) = Flt.fin rd53 0 := flt_zero rd53_rounds
    have e1 : (1 : Flt rd53) = Flt.fin rd53 1 := by exact_mod_cast lit53 (n := 1) (by norm_num)
    have dv : (Flt.fin rd53 2 : Flt rd53) / Flt.fin rd53 1 = Flt.fin rd53 2 := by rw [Flt.div_fin one_ne_zero, div_one, i2]
    simp only [Surface.sum, Surface.sumTime, Surface.plane, Surface.newton, Surface.newtonIter, Surface.sumSag, V3.flt, V3.map, e, e0,
      Flt.eq_fin, Flt.neg_fin, neg_neg]
    norm_num [dv, h0, i2, V3.smulR, Flt.abs_fin, Flt.lt_fin, Flt.add_fin, Flt.mul_fin, Flt.sub_fin]
    norm_num at pos
    exact pos
  have L := upRay_lands (s := Surface.sum [Surface.plane, Surface.plane]) 1 0 (-2) (by norm_num) (by norm_num) (by norm_num)
    (by norm_num) (by push_cast; exact ht)
  norm_num only [Int.cast_zero, Int.cast_neg, Int.cast_ofNat, Int.cast_one] at L
  exact C118_iterated rd53_rounds (by norm_num [zpow_neg]) (iterated_sum _) hereT none 0 _ rfl L.1 L.2.1 L.2.2.1 L.2.2.2

/-- A vertical line two away from the axis keeps clear of the unit sphere and is reported as missing it. -/
example (dt : Flt rd53) : ((Surface.sphere (Flt.fin rd53 1)).timeToIntersect (V3.flt rd53 ⟨2, 0, 0⟩) (V3.flt rd53 ⟨0, 0, 1⟩) dt 0).1 = false := by
  refine C118_sphere_clear rd53_rounds (by norm_num [zpow_neg]) 1 (by simp) dt 0 fun τ => ?_
  rw [nrm_sq, nrm_sq]
  simp only [V3.add_x, V3.add_y, V3.add_z, V3.sub_x, V3.sub_y, V3.sub_z, V3.smulR]
  norm_num [zpow_neg]
  nlinarith [sq_nonneg (τ - 1)]
end

end Batoid.Props
