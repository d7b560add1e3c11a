import Verif.Props.RoundFrames
import Verif.Ops
import Mathlib.Algebra.Order.Ring.Pow

/-!
# Relative errors and stored numbers

Lemmas for C113 to C115: a calculus of relative errors (`Rel`), and which operations give a finite number only on finite ones.
-/

namespace Batoid.Props
open Batoid

/-! ## Relative errors -/

section rel
variable {u : ℝ} {rd : ℝ → ℝ} {k l : ℕ} {a b c d : ℝ}

/-- `a` is `b` up to `k` relative errors. -/
def Rel (u : ℝ) (k : ℕ) (a b : ℝ) : Prop := ∃ θ, a = b * θ ∧ (1 - u) ^ k ≤ θ ∧ θ * (1 - u) ^ k ≤ 1

theorem gpos (hu : u < 1) (k : ℕ) : 0 < (1 - u) ^ k := pow_pos (by linarith) k
theorem gle (hu0 : 0 ≤ u) (hu : u < 1) (k : ℕ) : (1 - u) ^ k ≤ 1 := pow_le_one₀ (by linarith) (by linarith)

theorem Rel.refl (a : ℝ) : Rel u 0 a a := ⟨1, by simp, by simp, by simp⟩

theorem Rel.mono (hu0 : 0 ≤ u) (hu : u < 1) (h : Rel u k a b) (hkl : k ≤ l) : Rel u l a b := by
  obtain ⟨θ, e, h1, h2⟩ := h
  have hp : (1 - u) ^ l ≤ (1 - u) ^ k := pow_le_pow_of_le_one (by linarith) (by linarith) hkl
  have h0 : 0 ≤ θ := (gpos hu k).le.trans h1
  exact ⟨θ, e, hp.trans h1, (mul_le_mul_of_nonneg_left hp h0).trans h2⟩

theorem Rounds.rel (h : Rounds u rd) (hu : u < 1) (x : ℝ) : Rel u 1 (rd x) x := by
  have hu0 := h.nonneg
  by_cases hx : x = 0
  · subst hx
    exact ⟨1, by rw [h.zero]; simp, by simpa using hu0, by simpa using hu0⟩
  · have h1 := h.err x
    have e : |rd x / x - 1| ≤ u := by
      rw [show rd x / x - 1 = (rd x - x) / x by field_simp, abs_div, div_le_iff₀ (abs_pos.2 hx)]
      exact h1
    rw [abs_le] at e
    exact ⟨rd x / x, by field_simp, by rw [pow_one]; linarith, by rw [pow_one]; nlinarith⟩

theorem Rel.trans (hu : u < 1) (h1 : Rel u k a b) (h2 : Rel u l b c) : Rel u (k + l) a c := by
  obtain ⟨θ, rfl, p1, p2⟩ := h1
  obtain ⟨τ, rfl, q1, q2⟩ := h2
  have g1 := gpos hu k
  have g2 := gpos hu l
  refine ⟨τ * θ, by ring, ?_, ?_⟩
  · rw [pow_add, mul_comm]
    exact mul_le_mul q1 p1 g1.le (g2.le.trans q1)
  · rw [pow_add]
    calc τ * θ * ((1 - u) ^ k * (1 - u) ^ l) = (τ * (1 - u) ^ l) * (θ * (1 - u) ^ k) := by ring
      _ ≤ 1 * 1 := mul_le_mul q2 p2 (mul_nonneg (g1.le.trans p1) g1.le) (by norm_num)
      _ = 1 := by norm_num

theorem Rounds.after (h : Rounds u rd) (hu : u < 1) (h1 : Rel u k a b) : Rel u (k + 1) (rd a) b := by
  have := (h.rel hu a).trans hu h1
  rwa [add_comm] at this

theorem Rel.mul (hu : u < 1) (h1 : Rel u k a b) (h2 : Rel u l c d) : Rel u (k + l) (a * c) (b * d) := by
  obtain ⟨θ, rfl, p1, p2⟩ := h1
  obtain ⟨τ, rfl, q1, q2⟩ := h2
  have g1 := gpos hu k
  have g2 := gpos hu l
  refine ⟨θ * τ, by ring, ?_, ?_⟩
  · rw [pow_add]
    exact mul_le_mul p1 q1 g2.le (g1.le.trans p1)
  · rw [pow_add]
    calc θ * τ * ((1 - u) ^ k * (1 - u) ^ l) = (θ * (1 - u) ^ k) * (τ * (1 - u) ^ l) := by ring
      _ ≤ 1 * 1 := mul_le_mul p2 q2 (mul_nonneg (g2.le.trans q1) g2.le) (by norm_num)
      _ = 1 := by norm_num

theorem Rel.neg (h : Rel u k a b) : Rel u k (-a) (-b) := by
  obtain ⟨θ, rfl, p⟩ := h
  exact ⟨θ, by ring, p⟩

theorem Rel.inv (hu : u < 1) (h : Rel u k a b) : Rel u k a⁻¹ b⁻¹ := by
  obtain ⟨θ, rfl, p1, p2⟩ := h
  have g1 := gpos hu k
  have h0 : 0 < θ := g1.trans_le p1
  refine ⟨θ⁻¹, by rw [mul_inv], ?_, ?_⟩
  · rw [le_inv_comm₀ g1 h0]
    rw [← one_div, le_div_iff₀ g1]
    exact p2
  · rw [inv_mul_le_iff₀ h0, mul_one]; exact p1

theorem Rel.div (hu : u < 1) (h1 : Rel u k a b) (h2 : Rel u l c d) : Rel u (k + l) (a / c) (b / d) := by
  rw [div_eq_mul_inv, div_eq_mul_inv]
  exact h1.mul hu (h2.inv hu)

theorem Rel.add (hu : u < 1) (h1 : Rel u k a b) (h2 : Rel u k c d) (hb : 0 ≤ b) (hd : 0 ≤ d) : Rel u k (a + c) (b + d) := by
  obtain ⟨θ, rfl, p1, p2⟩ := h1
  obtain ⟨τ, rfl, q1, q2⟩ := h2
  have g1 := gpos hu k
  rcases (add_nonneg hb hd).eq_or_lt with h0 | h0
  · have e1 : b = 0 := by linarith
    have e2 : d = 0 := by linarith
    exact ⟨θ, by simp [e1, e2], p1, p2⟩
  · refine ⟨(b * θ + d * τ) / (b + d), by field_simp, ?_, ?_⟩
    · rw [le_div_iff₀ h0]
      nlinarith
    · rw [div_mul_eq_mul_div, div_le_iff₀ h0]
      nlinarith

theorem Rel.nonneg (hu : u < 1) (h : Rel u k a b) (hb : 0 ≤ b) : 0 ≤ a := by
  obtain ⟨θ, rfl, p1, p2⟩ := h
  exact mul_nonneg hb ((gpos hu k).le.trans p1)
theorem Rel.pos (hu : u < 1) (h : Rel u k a b) (hb : 0 < b) : 0 < a := by
  obtain ⟨θ, rfl, p1, p2⟩ := h
  exact mul_pos hb ((gpos hu k).trans_le p1)
theorem Rel.ne (hu : u < 1) (h : Rel u k a b) (hb : b ≠ 0) : a ≠ 0 := by
  obtain ⟨θ, rfl, p1, p2⟩ := h
  exact mul_ne_zero hb ((gpos hu k).trans_le p1).ne'

theorem Rel.sqrt (hu0 : 0 ≤ u) (hu : u < 1) (h : Rel u k a b) (hb : 0 ≤ b) : Rel u k (Real.sqrt a) (Real.sqrt b) := by
  obtain ⟨θ, rfl, p1, p2⟩ := h
  have g1 := gpos hu k
  have g2 := gle hu0 hu k
  have h0 : 0 ≤ θ := g1.le.trans p1
  refine ⟨Real.sqrt θ, Real.sqrt_mul hb θ, ?_, ?_⟩
  · exact Real.le_sqrt_of_sq_le (by nlinarith)
  · have : Real.sqrt θ ≤ 1 / (1 - u) ^ k := by
      rw [Real.sqrt_le_left (by positivity), div_pow, le_div_iff₀ (by positivity)]
      nlinarith
    rwa [le_div_iff₀ g1] at this

/-- In plain terms. -/
theorem Rel.close (hu0 : 0 ≤ u) (hu : u < 1) (hk : k * u ≤ 1 / 2) (h : Rel u k a b) : |a - b| ≤ 2 * (k * u) * |b| := by
  obtain ⟨θ, rfl, p1, p2⟩ := h
  have hb : 1 - k * u ≤ (1 - u) ^ k := by
    have := one_add_mul_le_pow (a := -u) (by linarith) k
    have e : (1 + -u) ^ k = (1 - u) ^ k := by ring_nf
    rw [e] at this
    linarith
  have h0 : 0 ≤ θ := (gpos hu k).le.trans p1
  have h1 : θ * (1 - k * u) ≤ 1 := (mul_le_mul_of_nonneg_left hb h0).trans p2
  have hku : 0 ≤ k * u := mul_nonneg (Nat.cast_nonneg _) hu0
  rw [show b * θ - b = b * (θ - 1) by ring, abs_mul, mul_comm]
  refine mul_le_mul_of_nonneg_right ?_ (abs_nonneg _)
  rw [abs_le]
  constructor <;> nlinarith

theorem Rel.near (hu0 : 0 ≤ u) (hu : u < 1) (K : ℝ) (h : Rel u k a b) (hK : 2 * (k : ℝ) = K) (hKu : K * u ≤ 1) :
    |a - b| ≤ K * u * |b| := by
  subst hK
  have := h.close hu0 hu (by linarith)
  linarith

end rel

/-! ## Stored numbers -/

section stored
variable {rd : ℝ → ℝ}

/-- A number, not NaN nor infinite. -/
def Stored (a : Flt rd) : Prop := ∃ r, a = Flt.fin rd r

theorem stored_fin (r : ℝ) : Stored (Flt.fin rd r) := ⟨r, rfl⟩

theorem rnd_stored {d : Dbl} (h : Stored (Flt.rnd rd d)) : ∃ r, d = .fin r := by
  obtain ⟨r, h⟩ := h
  cases d with
  | fin s => exact ⟨s, rfl⟩
  | nan => exact absurd (congrArg Flt.val h) (by simp [Flt.rnd, Flt.fin])
  | pinf => exact absurd (congrArg Flt.val h) (by simp [Flt.rnd, Flt.fin])
  | ninf => exact absurd (congrArg Flt.val h) (by simp [Flt.rnd, Flt.fin])

theorem stored_of_val {a : Flt rd} {r : ℝ} (h : a.val = .fin r) : Stored a := ⟨r, by cases a; simp_all [Flt.fin]⟩

theorem infMul_ne (a b : ℝ) : Dbl.infMul a ≠ .fin b := by
  unfold Dbl.infMul; split_ifs <;> simp

theorem Stored.neg {a : Flt rd} (h : Stored (-a)) : Stored a := by
  obtain ⟨r, h⟩ := h
  have h : Dbl.neg a.val = .fin r := congrArg Flt.val h
  generalize hx : a.val = x at h
  cases x with
  | fin s => exact stored_of_val hx
  | _ => simp [Dbl.neg] at h

theorem Stored.add {a b : Flt rd} (h : Stored (a + b)) : Stored a ∧ Stored b := by
  obtain ⟨r, h⟩ := rnd_stored (d := a.val + b.val) h
  have h : Dbl.add a.val b.val = .fin r := h
  generalize hx : a.val = x at h
  generalize hy : b.val = y at h
  cases x <;> cases y <;> simp [Dbl.add] at h
  exact ⟨stored_of_val hx, stored_of_val hy⟩

theorem Stored.sub {a b : Flt rd} (h : Stored (a - b)) : Stored a ∧ Stored b := by
  obtain ⟨r, h⟩ := rnd_stored (d := a.val - b.val) h
  have h : Dbl.add a.val (Dbl.neg b.val) = .fin r := h
  generalize hx : a.val = x at h
  generalize hy : b.val = y at h
  cases x <;> cases y <;> simp [Dbl.add, Dbl.neg] at h
  exact ⟨stored_of_val hx, stored_of_val hy⟩

theorem Stored.mul {a b : Flt rd} (h : Stored (a * b)) : Stored a ∧ Stored b := by
  obtain ⟨r, h⟩ := rnd_stored (d := a.val * b.val) h
  have h : Dbl.mul a.val b.val = .fin r := h
  generalize hx : a.val = x at h
  generalize hy : b.val = y at h
  cases x <;> cases y <;> simp [Dbl.mul, infMul_ne] at h
  exact ⟨stored_of_val hx, stored_of_val hy⟩

theorem Stored.div {a b : Flt rd} (h : Stored (a / b)) : Stored a := by
  obtain ⟨r, h⟩ := rnd_stored (d := a.val / b.val) h
  have h : Dbl.div a.val b.val = .fin r := h
  generalize hx : a.val = x at h
  generalize hy : b.val = y at h
  cases x with
  | fin s => exact stored_of_val hx
  | _ => cases y <;> simp [Dbl.div] at h <;> (split_ifs at h)

theorem V3.stored {v : V3 (Flt rd)} (hx : Stored v.x) (hy : Stored v.y) (hz : Stored v.z) : ∃ w : V3 ℝ, v = w.flt rd := by
  obtain ⟨x, hx⟩ := hx
  obtain ⟨y, hy⟩ := hy
  obtain ⟨z, hz⟩ := hz
  exact ⟨⟨x, y, z⟩, by ext <;> simp [V3.flt, V3.map, hx, hy, hz]⟩

theorem lit_fin (n : ℕ) : (OfNat.ofNat n : Flt rd) = Flt.fin rd (rd (n : ℝ)) := Flt.ofNat_fin n

end stored

end Batoid.Props
