import Verif.Props.RoundRays

/-!
# Property C116: refraction in arithmetic with rounding
-/

namespace Batoid.Props
open Batoid

section lemmas
variable {u η : ℝ} {rd : ℝ → ℝ}

theorem nrm_cross (a b : V3 ℝ) : nrm (V3.cross a b) ≤ nrm a * nrm b := by
  refine nrm_le (mul_nonneg (nrm_nonneg _) (nrm_nonneg _)) ?_
  rw [mul_pow, nrm_sq, nrm_sq]
  simp only [V3.cross]
  nlinarith [sq_nonneg (a.x * b.x + a.y * b.y + a.z * b.z)]

/-- The length of `eta nv - f m` for numbers near those of Snell's law. -/
theorem refract_len {eta α c f : ℝ} {nv m : V3 ℝ} (hu0 : 0 ≤ u) (hu : u ≤ 1 / 1000) (he0 : 0 ≤ eta) (he : eta ≤ 203 / 100)
    (hη0 : 0 ≤ η) (h1 : |α - V3.dot nv m| ≤ 14 * u) (h2 : |nrm m ^ 2 - 1| ≤ η + 9 * u)
    (h3 : |nrm nv ^ 2 - 1| ≤ 28 * u) (hc : |c ^ 2 - (1 - eta ^ 2 * (1 - α ^ 2))| ≤ 40 * u) (hc0 : 0 ≤ c) (hc1 : c ≤ 12 / 10)
    (hf : |f - (eta * α + c)| ≤ 10 * u) (hf1 : |f| ≤ 34 / 10) :
    |nrm (V3.smul eta nv - V3.smul f m) - 1| ≤ 500 * u + 12 * η := by
  have e : nrm (V3.smul eta nv - V3.smul f m) ^ 2 - 1 = (c ^ 2 - (1 - eta ^ 2 * (1 - α ^ 2))) + 2 * c * (f - (eta * α + c)) +
      (f - (eta * α + c)) ^ 2 + eta ^ 2 * (nrm nv ^ 2 - 1) + 2 * eta * f * (α - V3.dot nv m) + f ^ 2 * (nrm m ^ 2 - 1) := by
    rw [nrm_sq, nrm_sq, nrm_sq]
    simp only [V3.dot, V3.smul, V3.sub_x, V3.sub_y, V3.sub_z]
    ring
  have key : |nrm (V3.smul eta nv - V3.smul f m) ^ 2 - 1| ≤ 500 * u + 12 * η := by
    rw [e]
    have t1 : |2 * c * (f - (eta * α + c))| ≤ 24 * u := by
      rw [abs_mul, abs_of_nonneg (show 0 ≤ 2 * c by linarith)]
      have := mul_le_mul (show 2 * c ≤ 24 / 10 by linarith) hf (abs_nonneg _) (by norm_num)
      linarith
    have t2 : |(f - (eta * α + c)) ^ 2| ≤ u := by
      rw [abs_of_nonneg (sq_nonneg _), ← sq_abs]
      have := pow_le_pow_left₀ (abs_nonneg _) hf 2
      nlinarith
    have t3 : |eta ^ 2 * (nrm nv ^ 2 - 1)| ≤ 116 * u := by
      rw [abs_mul, abs_of_nonneg (sq_nonneg _)]
      have := mul_le_mul (show eta ^ 2 ≤ 413 / 100 by nlinarith) h3 (abs_nonneg _) (by norm_num)
      linarith
    have t4 : |2 * eta * f * (α - V3.dot nv m)| ≤ 194 * u := by
      rw [abs_mul, abs_mul, abs_of_nonneg (show 0 ≤ 2 * eta by linarith)]
      have := mul_le_mul (mul_le_mul (show 2 * eta ≤ 406 / 100 by linarith) hf1 (abs_nonneg _) (by norm_num)) h1 (abs_nonneg _)
        (by norm_num)
      linarith
    have t5 : |f ^ 2 * (nrm m ^ 2 - 1)| ≤ 12 * (η + 9 * u) := by
      rw [abs_mul, abs_of_nonneg (sq_nonneg _)]
      have := pow_le_pow_left₀ (abs_nonneg _) hf1 2
      rw [sq_abs] at this
      have := mul_le_mul (show f ^ 2 ≤ 12 by linarith) h2 (abs_nonneg _) (by norm_num)
      linarith
    rw [abs_le] at *
    constructor <;> linarith
  have P0 := nrm_nonneg (V3.smul eta nv - V3.smul f m)
  generalize nrm (V3.smul eta nv - V3.smul f m) = P at *
  have : |P - 1| * (P + 1) = |P ^ 2 - 1| := by
    rw [show P ^ 2 - 1 = (P - 1) * (P + 1) by ring, abs_mul, abs_of_nonneg (show 0 ≤ P + 1 by linarith)]
  have := abs_nonneg (P - 1)
  nlinarith

theorem abs_chain {a b c e f : ℝ} (h1 : |a - b| ≤ e) (h2 : |b - c| ≤ f) : |a - c| ≤ e + f :=
  (abs_sub_le a b c).trans (add_le_add h1 h2)
theorem abs_shift {a b e B : ℝ} (h1 : |a - b| ≤ e) (h2 : |b| ≤ B) : |a| ≤ B + e := by
  have := abs_sub_abs_le_abs_sub a b
  linarith
theorem Rounds.within (h : Rounds u rd) {x y B : ℝ} (hy : y = rd x) (hx : |x| ≤ B) : |y - x| ≤ u * B := by
  rw [hy]
  exact (h.err x).trans (mul_le_mul_of_nonneg_left hx h.nonneg)

/-- The computed squared sine. -/
theorem snell_sine (h : Rounds u rd) (hu : u ≤ 1 / 1000) {eta α : ℝ} (he0 : 0 ≤ eta) (he : eta ≤ 203 / 100) (hα : |α| ≤ 104 / 100)
    {o a2 b e2 s : ℝ} (ho : o = rd 1) (ha2 : a2 = rd (α * α)) (hb : b = rd (o - a2)) (he2 : e2 = rd (eta * eta))
    (hs : s = rd (e2 * b)) : |o - 1| ≤ u ∧ |s - eta * eta * (1 - α * α)| ≤ 22 * u := by
  have hu0 := h.nonneg
  have A0 : 0 ≤ α * α := mul_self_nonneg α
  have A1 : α * α ≤ 109 / 100 := by rw [← abs_mul_abs_self]; nlinarith [abs_nonneg α]
  have E0 : 0 ≤ eta * eta := mul_self_nonneg eta
  have E1 : eta * eta ≤ 413 / 100 := by nlinarith
  have k1 : |o - 1| ≤ u * 1 := h.within ho (by simp)
  have k2 : |a2 - α * α| ≤ u * (109 / 100) := h.within ha2 (by rwa [abs_of_nonneg A0])
  have k0 : |o - a2 - (1 - α * α)| ≤ u * 1 + u * (109 / 100) := by
    rw [show o - a2 - (1 - α * α) = (o - 1) - (a2 - α * α) by ring]
    exact (abs_sub _ _).trans (add_le_add k1 k2)
  have B1 : |1 - α * α| ≤ 1 := abs_le.2 ⟨by linarith, by linarith⟩
  have k3 : |o - a2| ≤ 102 / 100 := (abs_shift k0 B1).trans (by linarith)
  have k5 : |b - (1 - α * α)| ≤ 32 / 10 * u := (abs_chain (h.within hb k3) k0).trans (by linarith)
  have k6 : |b| ≤ 102 / 100 := (abs_shift k5 B1).trans (by linarith)
  have E2 : |eta * eta| ≤ 413 / 100 := by rwa [abs_of_nonneg E0]
  have k7 : |e2 - eta * eta| ≤ u * (413 / 100) := h.within he2 E2
  have k8 : |e2| ≤ 414 / 100 := (abs_shift k7 E2).trans (by linarith)
  have k9 : |e2 * b| ≤ 43 / 10 := by
    rw [abs_mul]
    exact (mul_le_mul k8 k6 (abs_nonneg _) (by norm_num)).trans (by norm_num)
  have k10 : |s - e2 * b| ≤ u * (43 / 10) := h.within hs k9
  have k11 : |(e2 - eta * eta) * b| ≤ u * (413 / 100) * (102 / 100) := by
    rw [abs_mul]
    exact mul_le_mul k7 k6 (abs_nonneg _) (by positivity)
  have k12 : |eta * eta * (b - (1 - α * α))| ≤ 413 / 100 * (32 / 10 * u) := by
    rw [abs_mul]
    exact mul_le_mul E2 k5 (abs_nonneg _) (by norm_num)
  refine ⟨by linarith, ?_⟩
  have k13 : |e2 * b - eta * eta * (1 - α * α)| ≤ u * (413 / 100) * (102 / 100) + 413 / 100 * (32 / 10 * u) := by
    rw [show e2 * b - eta * eta * (1 - α * α) = (e2 - eta * eta) * b + eta * eta * (b - (1 - α * α)) by ring]
    exact (abs_add_le _ _).trans (add_le_add k11 k12)
  exact (abs_chain k10 k13).trans (by linarith)

/-- The computed cosine and factor of the normal. -/
theorem snell_factor (h : Rounds u rd) (hu : u ≤ 1 / 1000) {eta α : ℝ} (he0 : 0 ≤ eta) (he : eta ≤ 203 / 100) (hα : |α| ≤ 104 / 100)
    {o s : ℝ} (k1 : |o - 1| ≤ u) (k13 : |s - eta * eta * (1 - α * α)| ≤ 22 * u) (hle : s ≤ o) {q c t f : ℝ} (hq : q = rd (o - s))
    (hc : c = rd (Real.sqrt q)) (ht : t = rd (eta * α)) (hf : f = rd (t + c)) : 0 ≤ c ∧ c ≤ 12 / 10 ∧
      |c ^ 2 - (1 - eta ^ 2 * (1 - α ^ 2))| ≤ 40 * u ∧ |f - (eta * α + c)| ≤ 10 * u ∧ |f| ≤ 34 / 10 := by
  have hu0 := h.nonneg
  have hu1 : u < 1 := by linarith
  have A1 : α * α ≤ 109 / 100 := by rw [← abs_mul_abs_self]; nlinarith [abs_nonneg α]
  have E0 : 0 ≤ eta * eta := mul_self_nonneg eta
  have E1 : eta * eta ≤ 413 / 100 := by nlinarith
  have low : -(38 / 100) ≤ eta * eta * (1 - α * α) := by nlinarith
  have es : eta ^ 2 * (1 - α ^ 2) = eta * eta * (1 - α * α) := by ring
  rw [es]
  generalize eta * eta * (1 - α * α) = S at k13 low ⊢
  have k14 : 0 ≤ o - s := by linarith
  have q0 : 0 ≤ q := by
    have := h.rel hu1 (o - s)
    rw [← hq] at this
    exact this.nonneg hu1 k14
  have k0 : |o - s - (1 - S)| ≤ u + 22 * u := by
    rw [show o - s - (1 - S) = (o - 1) - (s - S) by ring]
    exact (abs_sub _ _).trans (add_le_add k1 k13)
  have k15 : |o - s| ≤ 142 / 100 := by
    rw [abs_of_nonneg k14]
    have := (abs_le.1 k0).2
    linarith
  have k17 : |q - (1 - S)| ≤ 25 * u := (abs_chain (h.within hq k15) k0).trans (by linarith)
  have k18 : q ≤ 141 / 100 := by
    have := (abs_le.1 k17).2
    linarith
  have rc := h.rel hu1 (Real.sqrt q)
  rw [← hc] at rc
  have c0 := rc.nonneg hu1 (Real.sqrt_nonneg q)
  have k19 := (rc.mul hu1 rc).near hu0 hu1 4 (by norm_num) (by linarith)
  rw [Real.mul_self_sqrt q0, abs_of_nonneg q0] at k19
  have k20 : |c * c - q| ≤ 6 * u := k19.trans (by nlinarith)
  have k22 : c ≤ 12 / 10 := by
    have := (abs_le.1 k20).2
    nlinarith
  have k23 : |eta * α| ≤ 212 / 100 := by
    rw [abs_mul, abs_of_nonneg he0]
    exact (mul_le_mul he hα (abs_nonneg _) (by norm_num)).trans (by norm_num)
  have k24 : |t - eta * α| ≤ u * (212 / 100) := h.within ht k23
  have k0' : |t + c - (eta * α + c)| ≤ u * (212 / 100) := by rwa [add_sub_add_right_eq_sub]
  have B2 : |eta * α + c| ≤ 332 / 100 := (abs_add_le _ _).trans (by rw [abs_of_nonneg c0]; linarith)
  have k25 : |t + c| ≤ 333 / 100 := (abs_shift k0' B2).trans (by linarith)
  have k27 : |f - (eta * α + c)| ≤ 10 * u := (abs_chain (h.within hf k25) k0').trans (by linarith)
  refine ⟨c0, k22, ?_, k27, (abs_shift k27 B2).trans (by linarith)⟩
  rw [sq]
  exact (abs_chain k20 k17).trans (by linarith)

/-- Vectors whose components are known to `k` relative errors. -/
theorem vec_of_rel (hu0 : 0 ≤ u) (hu1 : u < 1) {k : ℕ} {a b : V3 ℝ} {K : ℝ} (hx : Rel u k a.x b.x) (hy : Rel u k a.y b.y)
    (hz : Rel u k a.z b.z) (hK : 2 * (k : ℝ) = K) (hKu : K * u ≤ 1) : nrm (a - b) ≤ K * u * nrm b := by
  have K0 : 0 ≤ K * u := mul_nonneg (by rw [← hK]; positivity) hu0
  refine nrm_le (mul_nonneg K0 (nrm_nonneg _)) ?_
  have sq : ∀ {x y : ℝ}, Rel u k x y → (x - y) ^ 2 ≤ (K * u) ^ 2 * y ^ 2 := by
    intro x y hxy
    have := pow_le_pow_left₀ (abs_nonneg _) (hxy.near hu0 hu1 K hK hKu) 2
    rwa [sq_abs, mul_pow, sq_abs] at this
  have h1 := sq hx
  have h2 := sq hy
  have h3 := sq hz
  rw [mul_pow (K * u), nrm_sq]
  simp only [V3.sub_x, V3.sub_y, V3.sub_z]
  linarith

theorem len_le_of_sq {n : V3 ℝ} {e : ℝ} (h : |nrm n ^ 2 - 1| ≤ e) : nrm n ≤ 1 + e / 2 := by
  have := (abs_le.1 h).2
  have := (abs_nonneg _).trans h
  have := nrm_nonneg n
  nlinarith [sq_nonneg e]

/-- Turning the normal against the ray. -/
theorem orient_near (h : Rounds u rd) (hu : u ≤ 1 / 1000) {n nv : V3 ℝ} (hn : |nrm n ^ 2 - 1| ≤ η) (hη : η ≤ 1 / 100)
    (hv : |nrm nv ^ 2 - 1| ≤ 28 * u) : ∃ (σ α : ℝ) (m : V3 ℝ), Ray.orient (n.flt rd) (nv.flt rd) = (m.flt rd, Flt.fin rd α) ∧
      (σ = 1 ∨ σ = -1) ∧ α ≤ 0 ∧ nrm (m - V3.smul σ n) ≤ 4 * u * nrm n ∧ |nrm m ^ 2 - 1| ≤ η + 9 * u ∧
      |α - V3.dot nv m| ≤ 14 * u ∧ |α| ≤ 104 / 100 := by
  have hu0 := h.nonneg
  have hu1 : u < 1 := by linarith
  have η0 := (abs_nonneg _).trans hn
  have N0 := nrm_nonneg n
  have V0 := nrm_nonneg nv
  have N1 : nrm n ≤ 1005 / 1000 := (len_le_of_sq hn).trans (by linarith)
  have V1 : nrm nv ≤ 1014 / 1000 := (len_le_of_sq hv).trans (by linarith)
  have VN : nrm nv * nrm n ≤ 102 / 100 := (mul_le_mul V1 N1 N0 (by norm_num)).trans (by norm_num)
  obtain ⟨a, ha, ha'⟩ := h.dot (by linarith) nv n
  have a1 : |a - V3.dot nv n| ≤ 408 / 100 * u := ha'.trans (by nlinarith)
  have a2 : |a| ≤ 1025 / 1000 := (abs_shift a1 ((dot_le nv n).trans VN)).trans (by linarith)
  unfold Ray.orient
  simp only [ha, flt_zero h, Flt.gt_fin, decide_eq_true_eq]
  by_cases pos : 0 < a
  · have rk := h.rel hu1 (-1)
    have ck : (Arith.const (-1) : Flt rd) = Flt.fin rd (rd (-1)) := by rw [Flt.const_fin]; norm_num
    rw [if_pos pos, ck]
    have rα := h.after hu1 ((Rel.refl a).mul hu1 rk)
    have rx := h.after hu1 ((Rel.refl n.x).mul hu1 rk)
    have ry := h.after hu1 ((Rel.refl n.y).mul hu1 rk)
    have rz := h.after hu1 ((Rel.refl n.z).mul hu1 rk)
    have m1 : nrm ((⟨rd (n.x * rd (-1)), rd (n.y * rd (-1)), rd (n.z * rd (-1))⟩ : V3 ℝ) - V3.smul (-1) n) ≤ 4 * u * nrm n := by
      have := vec_of_rel hu0 hu1 (a := ⟨rd (n.x * rd (-1)), rd (n.y * rd (-1)), rd (n.z * rd (-1))⟩) (b := V3.smul (-1) n) (K := 4)
        (by simpa [V3.smul] using rx) (by simpa [V3.smul] using ry) (by simpa [V3.smul] using rz) (by norm_num) (by linarith)
      rwa [nrm_smul, abs_neg, abs_one, one_mul] at this
    refine ⟨-1, rd (a * rd (-1)), ⟨rd (n.x * rd (-1)), rd (n.y * rd (-1)), rd (n.z * rd (-1))⟩, ?_, Or.inr rfl, ?_, m1, ?_, ?_, ?_⟩
    · rfl
    · have := rα.neg.nonneg hu1 (show 0 ≤ -(a * -1) by linarith)
      linarith
    · generalize (⟨rd (n.x * rd (-1)), rd (n.y * rd (-1)), rd (n.z * rd (-1))⟩ : V3 ℝ) = m at m1 ⊢
      have g1 := nrm_close m (V3.smul (-1) n)
      have g2 := nrm_close (V3.smul (-1) n) m
      rw [nrm_sub_comm] at g2
      rw [nrm_smul, abs_neg, abs_one, one_mul] at g1 g2
      have M0 := nrm_nonneg m
      have uN : u * nrm n ≤ u * (1005 / 1000) := mul_le_mul_of_nonneg_left N1 hu0
      have d1 : |nrm m - nrm n| ≤ 4 * u * nrm n := abs_le.2 ⟨by linarith, by linarith⟩
      have d2 : |nrm m ^ 2 - nrm n ^ 2| ≤ 9 * u := by
        rw [show nrm m ^ 2 - nrm n ^ 2 = (nrm m - nrm n) * (nrm m + nrm n) by ring, abs_mul,
          abs_of_nonneg (show 0 ≤ nrm m + nrm n by linarith)]
        have := mul_le_mul (d1.trans (show 4 * u * nrm n ≤ 402 / 100 * u by linarith)) (show nrm m + nrm n ≤ 202 / 100 by linarith)
          (by linarith) (by linarith)
        linarith
      exact (abs_chain d2 hn).trans (by linarith)
    · generalize (⟨rd (n.x * rd (-1)), rd (n.y * rd (-1)), rd (n.z * rd (-1))⟩ : V3 ℝ) = m at m1 ⊢
      have g1 := rα.near hu0 hu1 4 (by norm_num) (by linarith)
      have g2 : |a * -1| = |a| := by rw [mul_neg_one, abs_neg]
      rw [g2] at g1
      have g3 : |rd (a * rd (-1)) - a * -1| ≤ 41 / 10 * u := g1.trans (by nlinarith)
      have g4 : |a * -1 - V3.dot nv (V3.smul (-1) n)| ≤ 408 / 100 * u := by
        rw [show a * -1 - V3.dot nv (V3.smul (-1) n) = -(a - V3.dot nv n) by simp only [V3.dot, V3.smul]; ring, abs_neg]
        exact a1
      have g5 : |V3.dot nv (V3.smul (-1) n) - V3.dot nv m| ≤ 41 / 10 * u := by
        rw [show V3.dot nv (V3.smul (-1) n) - V3.dot nv m = -(V3.dot nv (m - V3.smul (-1) n)) by
          simp only [V3.dot, V3.sub_x, V3.sub_y, V3.sub_z]; ring, abs_neg]
        refine (dot_le _ _).trans ?_
        have := mul_le_mul V1 (m1.trans (show 4 * u * nrm n ≤ 4 * u * (1005 / 1000) from
          mul_le_mul_of_nonneg_left N1 (by linarith))) (nrm_nonneg _) (by norm_num)
        linarith
      exact (abs_chain g3 (abs_chain g4 g5)).trans (by linarith)
    · have g1 := rα.near hu0 hu1 4 (by norm_num) (by linarith)
      have g2 : |a * -1| = |a| := by rw [mul_neg_one, abs_neg]
      rw [g2] at g1
      have g3 : |rd (a * rd (-1)) - a * -1| ≤ 41 / 10 * u := g1.trans (by nlinarith)
      exact (abs_shift g3 (g2.le.trans a2)).trans (by linarith)
  · rw [if_neg pos]
    refine ⟨1, a, n, rfl, Or.inl rfl, by linarith, ?_, by linarith, a1.trans (by linarith), a2.trans (by norm_num)⟩
    rw [show n - V3.smul 1 n = V3.smul 0 n by ext <;> simp [V3.smul], nrm_smul, abs_zero, zero_mul]
    positivity

/-- The computed refracted velocity `w`, in terms of stored numbers near those of Snell's law: the normal `m` is `n` or `-n`,
whichever is found to point against the ray. -/
structure SnellNear (u η n2 : ℝ) (n v w : V3 ℝ) (σ eta α c f : ℝ) (nv m : V3 ℝ) : Prop where
  sign : σ = 1 ∨ σ = -1
  side : α ≤ 0
  normal : nrm (m - V3.smul σ n) ≤ 4 * u * nrm n
  unit : |nrm m ^ 2 - 1| ≤ η + 9 * u
  speed : |nrm nv ^ 2 - 1| ≤ 28 * u
  aim : nrm (nv - V3.smul (1 / nrm v) v) ≤ 14 * u
  ratio0 : 0 ≤ eta
  ratio : eta ≤ 203 / 100
  tang : nrm (V3.smul eta nv - V3.smul (1 / (n2 * nrm v ^ 2)) v) ≤ 56 * u
  cosine : |α - V3.dot nv m| ≤ 14 * u
  out0 : 0 ≤ c
  out1 : c ≤ 12 / 10
  out : |c ^ 2 - (1 - eta ^ 2 * (1 - α ^ 2))| ≤ 40 * u
  fac : |f - (eta * α + c)| ≤ 10 * u
  fac1 : |f| ≤ 34 / 10
  result : nrm (V3.smul n2 w - (V3.smul eta nv - V3.smul f m)) ≤ 23 * u

/-- The index of the medium the ray is in, the direction of the ray and the ratio of the indices. -/
theorem incoming_near (h : Rounds u rd) (hu : u ≤ 1 / 1000) {v : V3 ℝ} (hv : 0 < nrm v) {n2 : ℝ} (h2 : 0 < n2)
    (hr : 1 / nrm v ≤ 2 * n2) : ∃ (n1 eta : ℝ) (nv : V3 ℝ), Ray.invSpeed (v.flt rd) = Flt.fin rd n1 ∧
      (v.flt rd).smulR (Flt.fin rd n1) = nv.flt rd ∧ rd (n1 / n2) = eta ∧ |nrm nv ^ 2 - 1| ≤ 28 * u ∧
      nrm (nv - V3.smul (1 / nrm v) v) ≤ 14 * u ∧ 0 ≤ eta ∧ eta ≤ 203 / 100 ∧
      nrm (V3.smul eta nv - V3.smul (1 / (n2 * nrm v ^ 2)) v) ≤ 56 * u := by
  have hu0 := h.nonneg
  have hu1 : u < 1 := by linarith
  have sx : 0 ≤ v.x * v.x := mul_self_nonneg _
  have sy : 0 ≤ v.y * v.y := mul_self_nonneg _
  have sz : 0 ≤ v.z * v.z := mul_self_nonneg _
  have len : v.x * v.x + v.y * v.y + v.z * v.z = nrm v ^ 2 := by rw [nrm_sq]; ring
  have r1 := h.after hu1 ((h.after hu1 ((h.rel hu1 (v.x * v.x)).add hu1 (h.rel hu1 (v.y * v.y)) sx sy)).add hu1
    ((h.rel hu1 (v.z * v.z)).mono hu0 hu1 (by norm_num)) (by linarith) sz)
  rw [len] at r1
  generalize hd : rd (rd (rd (v.x * v.x) + rd (v.y * v.y)) + rd (v.z * v.z)) = d at r1
  have dd : V3.dot (v.flt rd) (v.flt rd) = Flt.fin rd d := by rw [← hd]; rfl
  have d0 : 0 ≤ d := r1.nonneg hu1 (sq_nonneg _)
  have r2 := h.after hu1 (r1.sqrt hu0 hu1 (sq_nonneg _))
  rw [Real.sqrt_sq hv.le] at r2
  have r3 := h.after hu1 ((h.rel hu1 1).div hu1 r2)
  have q0 : rd (Real.sqrt d) ≠ 0 := r2.ne hu1 hv.ne'
  generalize hn1 : rd (rd 1 / rd (Real.sqrt d)) = n1 at r3
  have inv : Ray.invSpeed (v.flt rd) = Flt.fin rd n1 := by
    rw [Ray.invSpeed, dd, Flt.sqrt_fin d0, flt_one, Flt.div_fin q0, hn1]
  have rx := h.after hu1 ((Rel.refl v.x).mul hu1 r3)
  have ry := h.after hu1 ((Rel.refl v.y).mul hu1 r3)
  have rz := h.after hu1 ((Rel.refl v.z).mul hu1 r3)
  have reta := h.after hu1 (r3.div hu1 (Rel.refl n2))
  have i0 : 0 < 1 / nrm v / n2 := by positivity
  have i1 : 1 / nrm v / n2 ≤ 2 := by rwa [div_le_iff₀ h2]
  refine ⟨n1, rd (n1 / n2), ⟨rd (v.x * n1), rd (v.y * n1), rd (v.z * n1)⟩, inv, rfl, rfl, ?_, ?_, reta.nonneg hu1 i0.le, ?_, ?_⟩
  · refine unit_of_rel hu0 hu1 rx ry rz ?_ (by norm_num) (by linarith)
    have : v.x * (1 / nrm v) * (v.x * (1 / nrm v)) + v.y * (1 / nrm v) * (v.y * (1 / nrm v)) +
      v.z * (1 / nrm v) * (v.z * (1 / nrm v)) = (v.x * v.x + v.y * v.y + v.z * v.z) * (1 / nrm v) ^ 2 := by ring
    rw [this, len]
    field_simp
  · have := vec_of_rel hu0 hu1 (a := ⟨rd (v.x * n1), rd (v.y * n1), rd (v.z * n1)⟩) (b := V3.smul (1 / nrm v) v) (K := 14)
      (by simpa [V3.smul, mul_comm] using rx) (by simpa [V3.smul, mul_comm] using ry) (by simpa [V3.smul, mul_comm] using rz)
      (by norm_num) (by linarith)
    rw [nrm_smul, abs_of_pos (by positivity)] at this
    have e : 1 / nrm v * nrm v = 1 := by field_simp
    rw [e] at this
    linarith
  · have := reta.near hu0 hu1 14 (by norm_num) (by linarith)
    rw [abs_of_pos i0] at this
    have := (abs_le.1 this).2
    nlinarith
  · have ee : ∀ x : ℝ, 1 / nrm v / n2 * (x * (1 / nrm v)) = 1 / (n2 * nrm v ^ 2) * x := by
      intro x; field_simp
    have tx := reta.mul hu1 rx
    have ty := reta.mul hu1 ry
    have tz := reta.mul hu1 rz
    rw [ee] at tx ty tz
    have := vec_of_rel hu0 hu1 (a := V3.smul (rd (n1 / n2)) (⟨rd (v.x * n1), rd (v.y * n1), rd (v.z * n1)⟩ : V3 ℝ))
      (b := V3.smul (1 / (n2 * nrm v ^ 2)) v) (K := 28) tx ty tz (by norm_num) (by linarith)
    rw [nrm_smul, abs_of_pos (by positivity)] at this
    have e : 1 / (n2 * nrm v ^ 2) * nrm v = 1 / nrm v / n2 := by field_simp
    rw [e] at this
    nlinarith

/-- Forming the refracted velocity out of its parts. -/
theorem outgoing_near (h : Rounds u rd) (hu : u ≤ 1 / 1000) {eta f n2 : ℝ} {nv m w : V3 ℝ} (h2 : 0 < n2) (eta0 : 0 ≤ eta)
    (eta1 : eta ≤ 203 / 100) (f1 : |f| ≤ 34 / 10) (V1 : nrm nv ≤ 1014 / 1000) (M1 : nrm m ≤ 101 / 100)
    (hw : (⟨(V3.smul (Flt.fin rd eta) (nv.flt rd) - V3.smul (Flt.fin rd f) (m.flt rd)).x / Flt.fin rd n2,
      (V3.smul (Flt.fin rd eta) (nv.flt rd) - V3.smul (Flt.fin rd f) (m.flt rd)).y / Flt.fin rd n2,
      (V3.smul (Flt.fin rd eta) (nv.flt rd) - V3.smul (Flt.fin rd f) (m.flt rd)).z / Flt.fin rd n2⟩ : V3 (Flt rd)) = w.flt rd) :
    nrm (V3.smul n2 w - (V3.smul eta nv - V3.smul f m)) ≤ 23 * u := by
  have hu0 := h.nonneg
  have hu1 : u < 1 := by linarith
  obtain ⟨A, hA, hA'⟩ := h.smul eta nv
  obtain ⟨B, hB, hB'⟩ := h.smul f m
  obtain ⟨W, hW, hW'⟩ := h.sub A B
  rw [hA, hB, hW] at hw
  obtain ⟨w1, w2, w3⟩ := v3_flt hw
  simp only [V3.flt, V3.map_x, V3.map_y, V3.map_z, Flt.div_fin h2.ne', Flt.fin_inj] at w1 w2 w3
  have P1 : |eta| * nrm nv ≤ 206 / 100 := by
    rw [abs_of_nonneg eta0]
    exact (mul_le_mul eta1 V1 (nrm_nonneg _) (by norm_num)).trans (by norm_num)
  have P2 : |f| * nrm m ≤ 344 / 100 := (mul_le_mul f1 M1 (nrm_nonneg _) (by norm_num)).trans (by norm_num)
  have A1 : nrm (A - V3.smul eta nv) ≤ 206 / 100 * u := hA'.trans (by nlinarith)
  have B1 : nrm (B - V3.smul f m) ≤ 344 / 100 * u := hB'.trans (by nlinarith)
  have AB1 : nrm ((A - B) - (V3.smul eta nv - V3.smul f m)) ≤ 55 / 10 * u := by
    have e : (A - B) - (V3.smul eta nv - V3.smul f m) = (A - V3.smul eta nv) - (B - V3.smul f m) := by ext <;> simp <;> ring
    rw [e]
    exact (nrm_sub _ _).trans (by linarith)
  have AB2 : nrm (V3.smul eta nv - V3.smul f m) ≤ 55 / 10 := (nrm_sub _ _).trans (by rw [nrm_smul, nrm_smul]; linarith)
  generalize V3.smul eta nv - V3.smul f m = P at *
  have AB3 := nrm_close (A - B) P
  have W1 : nrm (W - (A - B)) ≤ 56 / 10 * u := hW'.trans (by nlinarith)
  have W2 := nrm_close W (A - B)
  have D : nrm (V3.smul n2 w - W) ≤ 2 * u * nrm W := by
    have key : ∀ {x y : ℝ}, rd (x / n2) = y → Rel u 1 (n2 * y) x := by
      intro x y e
      have := (Rel.refl (u := u) n2).mul hu1 (h.rel hu1 (x / n2))
      rw [e, mul_div_cancel₀ x h2.ne', zero_add] at this
      exact this
    exact vec_of_rel hu0 hu1 (a := V3.smul n2 w) (b := W) (key w1) (key w2) (key w3) (by norm_num) (by linarith)
  have g1 := nrm_via (V3.smul n2 w) W P
  have g2 := nrm_via W (A - B) P
  have g3 : nrm W ≤ 552 / 100 := by linarith
  have g4 := mul_le_mul_of_nonneg_left g3 hu0
  linarith

theorem refractDir_near (h : Rounds u rd) (hu : u ≤ 1 / 1000) {n v : V3 ℝ} (hn : |nrm n ^ 2 - 1| ≤ η) (hη : η ≤ 1 / 100)
    (hv : 0 < nrm v) {n2 : ℝ} (h2 : 0 < n2) (hr : 1 / nrm v ≤ 2 * n2) {w : V3 ℝ}
    (hw : Ray.refractDir (Flt.fin rd n2) (n.flt rd) (v.flt rd) = some (w.flt rd)) :
    ∃ (σ eta α c f : ℝ) (nv m : V3 ℝ), SnellNear u η n2 n v w σ eta α c f nv m := by
  have hu0 := h.nonneg
  have hu1 : u < 1 := by linarith
  obtain ⟨n1, eta, nv, inv, enV, heta, speed, aim, eta0, eta1, tang⟩ := incoming_near h hu hv h2 hr
  obtain ⟨σ, α, m, o1, o2, o3, o4, o5, o6, o7⟩ := orient_near h hu hn hη speed
  unfold Ray.refractDir at hw
  simp only [inv, enV, o1, Flt.div_fin h2.ne', heta, Flt.mul_fin, Flt.sub_fin, flt_one, Flt.gt_fin, decide_eq_true_eq] at hw
  obtain ⟨k1, k13⟩ := snell_sine h hu eta0 eta1 o7 rfl rfl rfl rfl rfl
  generalize rd (rd (eta * eta) * rd (rd 1 - rd (α * α))) = s at hw k13
  generalize rd 1 = o at hw k1
  by_cases hle : o < s
  · rw [if_pos hle] at hw; exact absurd hw (by simp)
  rw [if_neg hle] at hw
  have hle' : s ≤ o := not_lt.1 hle
  obtain ⟨c0, c1, c2, f1, f2⟩ := snell_factor h hu eta0 eta1 o7 k1 k13 hle' rfl rfl rfl rfl
  have q0' : 0 ≤ rd (o - s) := (h.rel hu1 (o - s)).nonneg hu1 (by linarith)
  rw [Flt.sqrt_fin q0', Flt.add_fin] at hw
  exact ⟨σ, eta, α, _, _, nv, m, o2, o3, o4, o5, speed, aim, eta0, eta1, tang, o6, c0, c1, c2, f1, f2,
    outgoing_near h hu h2 eta0 eta1 f2 ((len_le_of_sq speed).trans (by linarith)) ((len_le_of_sq o5).trans (by linarith))
      (Option.some.inj hw)⟩

end lemmas

section theorems
variable {u η δ : ℝ} {rd : ℝ → ℝ}

/-- C116, one refraction: the refracted velocity has the speed of light in the new medium, its part along the surface is that of
Snell's law, and it goes on through the surface, all up to rounding and to the error of the length of the normal. -/
theorem C116_direction (h : Rounds u rd) (hu : u ≤ 1 / 1000) {n v : V3 ℝ} (hn : |nrm n ^ 2 - 1| ≤ η) (hη : η ≤ 1 / 100)
    (hv : 0 < nrm v) {n2 : ℝ} (h2 : 0 < n2) (hr : 1 / nrm v ≤ 2 * n2) {w : V3 ℝ}
    (hw : Ray.refractDir (Flt.fin rd n2) (n.flt rd) (v.flt rd) = some (w.flt rd)) :
    |n2 * nrm w - 1| ≤ 525 * u + 12 * η ∧
    nrm (V3.cross (V3.smul n2 w) n - V3.cross (V3.smul (1 / (n2 * nrm v ^ 2)) v) n) ≤ 100 * u ∧
    (40 * u * nrm v < V3.dot v n → -(120 * u + 4 * η) ≤ n2 * V3.dot w n) ∧
    (V3.dot v n < -(40 * u * nrm v) → n2 * V3.dot w n ≤ 120 * u + 4 * η) := by
  have hu0 := h.nonneg
  have η0 := (abs_nonneg _).trans hn
  obtain ⟨σ, eta, α, c, f, nv, m, S⟩ := refractDir_near h hu hn hη hv h2 hr hw
  have N1 : nrm n ≤ 1005 / 1000 := (len_le_of_sq hn).trans (by linarith)
  have V1 : nrm nv ≤ 1014 / 1000 := (len_le_of_sq S.speed).trans (by linarith)
  have M1 : nrm m ≤ 101 / 100 := (len_le_of_sq S.unit).trans (by linarith)
  have N0 := nrm_nonneg n
  have m1 : nrm (m - V3.smul σ n) ≤ 402 / 100 * u := S.normal.trans (by nlinarith)
  have P0 : nrm (V3.smul eta nv - V3.smul f m) ≤ 55 / 10 := by
    refine (nrm_sub _ _).trans ?_
    rw [nrm_smul, nrm_smul, abs_of_nonneg S.ratio0]
    have := mul_le_mul S.ratio V1 (nrm_nonneg _) (by norm_num)
    have := mul_le_mul S.fac1 M1 (nrm_nonneg _) (by norm_num)
    linarith
  refine ⟨?_, ?_, ?_⟩
  · have k1 := refract_len hu0 hu S.ratio0 S.ratio η0 S.cosine S.unit S.speed S.out S.out0 S.out1 S.fac S.fac1
    have k2 := nrm_close (V3.smul n2 w) (V3.smul eta nv - V3.smul f m)
    have k3 := nrm_close (V3.smul eta nv - V3.smul f m) (V3.smul n2 w)
    rw [nrm_sub_comm (V3.smul eta nv - V3.smul f m)] at k3
    have k4 := S.result
    rw [nrm_smul, abs_of_pos h2] at k2 k3
    obtain ⟨k5, k6⟩ := abs_le.1 k1
    exact abs_le.2 ⟨by linarith, by linarith⟩
  · have e : V3.cross (V3.smul n2 w) n - V3.cross (V3.smul (1 / (n2 * nrm v ^ 2)) v) n =
        (V3.cross (V3.smul n2 w - (V3.smul eta nv - V3.smul f m)) n +
          V3.cross (V3.smul eta nv - V3.smul (1 / (n2 * nrm v ^ 2)) v) n) - V3.smul f (V3.cross (m - V3.smul σ n) n) := by
      generalize 1 / (n2 * nrm v ^ 2) = T
      ext <;> simp [V3.cross, V3.smul] <;> ring
    rw [e]
    refine (nrm_sub _ _).trans ?_
    have a1 := nrm_add (V3.cross (V3.smul n2 w - (V3.smul eta nv - V3.smul f m)) n)
      (V3.cross (V3.smul eta nv - V3.smul (1 / (n2 * nrm v ^ 2)) v) n)
    have a2 := (nrm_cross (V3.smul n2 w - (V3.smul eta nv - V3.smul f m)) n).trans
      (mul_le_mul S.result N1 N0 (by linarith))
    have a3 := (nrm_cross (V3.smul eta nv - V3.smul (1 / (n2 * nrm v ^ 2)) v) n).trans
      (mul_le_mul S.tang N1 N0 (by linarith))
    have a4 := (nrm_cross (m - V3.smul σ n) n).trans (mul_le_mul m1 N1 N0 (by linarith))
    have a5 := mul_le_mul S.fac1 a4 (nrm_nonneg _) (by norm_num)
    rw [nrm_smul]
    linarith
  · -- the component along the normal
    have thr : n2 * V3.dot w (V3.smul σ n) ≤ 120 * u + 4 * η := by
      have e : n2 * V3.dot w (V3.smul σ n) = V3.dot (V3.smul n2 w - (V3.smul eta nv - V3.smul f m)) (V3.smul σ n) -
          V3.dot (V3.smul eta nv - V3.smul f m) (m - V3.smul σ n) - eta * (α - V3.dot nv m) - f * (nrm m ^ 2 - 1) -
          (f - (eta * α + c)) - c := by
        rw [nrm_sq]
        simp only [V3.dot, V3.smul, V3.sub_x, V3.sub_y, V3.sub_z]; ring
      have s1 : |σ| = 1 := by rcases S.sign with e | e <;> rw [e] <;> simp
      have b1 : |V3.dot (V3.smul n2 w - (V3.smul eta nv - V3.smul f m)) (V3.smul σ n)| ≤ 23 * u * (1005 / 1000) := by
        refine (dot_le _ _).trans ?_
        rw [nrm_smul, s1, one_mul]
        exact mul_le_mul S.result N1 N0 (by linarith)
      have b2 := (dot_le (V3.smul eta nv - V3.smul f m) (m - V3.smul σ n)).trans
        (mul_le_mul P0 m1 (nrm_nonneg _) (by norm_num))
      have b3 : |eta * (α - V3.dot nv m)| ≤ 203 / 100 * (14 * u) := by
        rw [abs_mul, abs_of_nonneg S.ratio0]
        exact mul_le_mul S.ratio S.cosine (abs_nonneg _) (by norm_num)
      have b4 : |f * (nrm m ^ 2 - 1)| ≤ 34 / 10 * (η + 9 * u) := by
        rw [abs_mul]
        exact mul_le_mul S.fac1 S.unit (abs_nonneg _) (by norm_num)
      have b5 := S.out0
      rw [e]
      have c1 := (abs_le.1 b1).2
      have c2 := (abs_le.1 b2).1
      have c3 := (abs_le.1 b3).1
      have c4 := (abs_le.1 b4).1
      have c5 := (abs_le.1 S.fac).1
      linarith
    -- which way the normal was turned
    have turn : σ * V3.dot v n ≤ 40 * u * nrm v := by
      have e : σ * V3.dot v n = nrm v * (α - (α - V3.dot nv m) - V3.dot nv (m - V3.smul σ n) -
          V3.dot (nv - V3.smul (1 / nrm v) v) (V3.smul σ n)) := by
        have hv' := hv.ne'
        generalize nrm v = N at hv' ⊢
        simp only [V3.dot, V3.smul, V3.sub_x, V3.sub_y, V3.sub_z]
        field_simp
        ring
      have s1 : |σ| = 1 := by rcases S.sign with e | e <;> rw [e] <;> simp
      have b1 := (abs_le.1 S.cosine).1
      have b2 := (abs_le.1 ((dot_le nv (m - V3.smul σ n)).trans (mul_le_mul V1 m1 (nrm_nonneg _) (by norm_num)))).1
      have b3 : |V3.dot (nv - V3.smul (1 / nrm v) v) (V3.smul σ n)| ≤ 14 * u * (1005 / 1000) := by
        refine (dot_le _ _).trans ?_
        rw [nrm_smul, s1, one_mul]
        exact mul_le_mul S.aim N1 N0 (by linarith)
      have b4 := (abs_le.1 b3).1
      have b5 := S.side
      rw [e, mul_comm (40 * u)]
      exact mul_le_mul_of_nonneg_left (by linarith) hv.le
    have es : V3.dot w (V3.smul σ n) = σ * V3.dot w n := by simp only [V3.dot, V3.smul]; ring
    rw [es] at thr
    have uv : 0 ≤ 40 * u * nrm v := by positivity
    constructor
    · intro hp
      rcases S.sign with e | e <;> rw [e] at turn thr <;> linarith
    · intro hp
      rcases S.sign with e | e <;> rw [e] at turn thr <;> linarith

/-- A refracted velocity is stored only when what it was computed from is. -/
theorem refractDir_stored (h : Rounds u rd) {N V : V3 (Flt rd)} {n2 : Flt rd} {w : V3 ℝ}
    (hw : Ray.refractDir n2 N V = some (w.flt rd)) : ∃ n v : V3 ℝ, N = n.flt rd ∧ V = v.flt rd ∧ 0 < nrm v := by
  unfold Ray.refractDir at hw
  simp only at hw
  split_ifs at hw with hgt
  · obtain ⟨w1, w2, w3⟩ := v3_flt (Option.some.inj hw)
    have sx := (Stored.div ⟨w.x, w1⟩).sub
    have sy := (Stored.div ⟨w.y, w2⟩).sub
    have sz := (Stored.div ⟨w.z, w3⟩).sub
    have nx := sx.1.mul.2.mul
    have ny := sy.1.mul.2.mul
    have nz := sz.1.mul.2.mul
    obtain ⟨v, rfl⟩ := V3.stored nx.1 ny.1 nz.1
    have mx := sx.2.mul.2
    have my := sy.2.mul.2
    have mz := sz.2.mul.2
    obtain ⟨n, rfl⟩ : ∃ n : V3 ℝ, N = n.flt rd := by
      unfold Ray.orient at mx my mz
      simp only at mx my mz
      split_ifs at mx my mz with c1
      · exact V3.stored mx.mul.1 my.mul.1 mz.mul.1
      · exact V3.stored mx my mz
    refine ⟨n, v, rfl, rfl, ?_⟩
    rcases (nrm_nonneg v).lt_or_eq with h0 | h0
    · exact h0
    exfalso
    have e : v.x ^ 2 + v.y ^ 2 + v.z ^ 2 = 0 := by rw [← nrm_sq, ← h0]; ring
    have ex : v.x = 0 := by nlinarith [sq_nonneg v.x, sq_nonneg v.y, sq_nonneg v.z]
    have ey : v.y = 0 := by nlinarith [sq_nonneg v.x, sq_nonneg v.y, sq_nonneg v.z]
    have ez : v.z = 0 := by nlinarith [sq_nonneg v.x, sq_nonneg v.y, sq_nonneg v.z]
    have hs : Stored (Ray.invSpeed (v.flt rd)) := nx.2
    have hd : V3.dot (v.flt rd) (v.flt rd) = Flt.fin rd 0 := by
      change Flt.fin rd (rd (rd (rd (v.x * v.x) + rd (v.y * v.y)) + rd (v.z * v.z))) = _
      rw [ex, ey, ez]
      simp [h.zero]
    rw [Ray.invSpeed, hd, Flt.sqrt_fin le_rfl, Real.sqrt_zero, h.zero, flt_one] at hs
    obtain ⟨r, hr⟩ := rnd_stored (d := Dbl.div (Dbl.fin (rd 1)) (Dbl.fin 0)) hs
    rw [Dbl.div, if_pos rfl] at hr
    exact infMul_ne _ _ hr

/-- C116, the code's loop: a ray refracted by any surface with nearly unit normals, in any frames. -/
theorem C116_refract (h : Rounds u rd) (hu : u ≤ 1 / 1000) {s : Surface (Flt rd)} (hs : UnitNormals rd η s) (hη : η ≤ 1 / 100)
    (ct : CoordTransform (Flt rd)) (m2 : Medium (Flt rd)) (c : Option (Coating (Flt rd))) (niter : ℕ) (ray : Ray (Flt rd)) {n2 : ℝ}
    (hm : m2.getN ray.wavelength = Flt.fin rd n2) (h2 : 0 < n2) {w : V3 ℝ} (hw : (ray.refract s ct m2 c niter).v = w.flt rd)
    (hok : (ray.refract s ct m2 c niter).failed = false) :
    ∃ v n : V3 ℝ, ct.forwardVel ray.v = v.flt rd ∧
      s.normal (ray.refract s ct m2 c niter).r.x (ray.refract s ct m2 c niter).r.y = n.flt rd ∧ 0 < nrm v ∧
      (1 / nrm v ≤ 2 * n2 → |n2 * nrm w - 1| ≤ 525 * u + 12 * η ∧
        nrm (V3.cross (V3.smul n2 w) n - V3.cross (V3.smul (1 / (n2 * nrm v ^ 2)) v) n) ≤ 100 * u ∧
        (40 * u * nrm v < V3.dot v n → -(120 * u + 4 * η) ≤ n2 * V3.dot w n) ∧
        (V3.dot v n < -(40 * u * nrm v) → n2 * V3.dot w n ≤ 120 * u + 4 * η)) := by
  have hf : ray.failed = false := by
    by_contra hf
    rw [Bool.not_eq_false] at hf
    simp [Ray.refract, hf] at hok
  unfold Ray.refract at hw hok ⊢
  simp only [hf, Bool.false_eq_true, if_false, hm] at hw hok ⊢
  generalize ht : s.timeToIntersect (ct.forward ray.r) (ct.forwardVel ray.v) 0 niter = tt at hw hok ⊢
  obtain ⟨ok, dt⟩ := tt
  cases ok with
  | false => simp [Ray.markFailed] at hok
  | true =>
    simp only at hw hok ⊢
    generalize ct.forward ray.r + (ct.forwardVel ray.v).smulR dt = r' at hw hok ⊢
    generalize hN : s.normal r'.x r'.y = N at hw hok ⊢
    generalize ct.forwardVel ray.v = V at hw hok ⊢
    cases hR : Ray.refractDir (Flt.fin rd n2) N V with
    | none => rw [hR] at hok; exact absurd hok (by simp)
    | some W =>
      rw [hR] at hw
      simp only at hw
      subst hw
      obtain ⟨n, v, rfl, rfl, hv⟩ := refractDir_stored h hR
      exact ⟨v, n, rfl, hN, hv, fun hr => C116_direction h hu (hs _ _ _ hN) hη hv h2 hr hR⟩

/-- Operations do not unmark failures. -/
theorem onRay_alive {op : RayOp (Flt rd)} (hop : KeepsSpeed rd δ η op) {cs : CoordSys (Flt rd)} {ray : Ray (Flt rd)}
    (hok : (op.onRay cs ray).failed = false) : ray.failed = false := by
  by_contra hf
  rw [Bool.not_eq_false] at hf
  cases op with
  | intersect s cs' c n => simp [RayOp.onRay, Ray.intersect, hf] at hok
  | reflect s cs' c n => simp [RayOp.onRay, Ray.reflect, hf] at hok
  | obscure o => simp [RayOp.onRay, Ray.obscure, hf] at hok
  | toCoordSys c => simp [RayOp.onRay, Ray.forward, hf] at hok
  | propagate t => simp [RayOp.onRay, Ray.propagate, hf] at hok
  | _ => exact absurd hop id

theorem runAll_alive : ∀ (ops : List (RayOp (Flt rd))), (∀ op ∈ ops, KeepsSpeed rd δ η op) → ∀ (rv : RayVec (Flt rd)) {i : ℕ}
    {ray' : Ray (Flt rd)}, (RayOp.runAll rv ops).rays[i]? = some ray' → ray'.failed = false →
    ∃ ray, rv.rays[i]? = some ray ∧ ray.failed = false := by
  intro ops
  induction ops with
  | nil => intro _ rv i ray' h1 h2; exact ⟨ray', h1, h2⟩
  | cons op ops ih =>
    intro hops rv i ray' h1 h2
    obtain ⟨r1, e1, e2⟩ := ih (fun o ho => hops o (by simp [ho])) (op.run rv) h1 h2
    rw [RayOp.run_rays, List.getElem?_map] at e1
    obtain ⟨r0, e0, rfl⟩ := Option.map_eq_some_iff.1 e1
    exact ⟨r0, e0, onRay_alive (hops op (by simp)) e2⟩

/-- C116, along a trace: whatever happened before, a ray refracted into a medium and then carried on by any number of mirrors,
intersections, obscurations, changes of frame and propagations travels at the speed of light in that medium.  Each refraction sets the
speed anew, so errors do not add up from one lens to the next. -/
theorem C116_history (h : Rounds u rd) (hu : u ≤ 1 / 1000) (hη : η ≤ 1 / 100) (hη0 : 0 ≤ η) (hδ : δ ≤ 1 / 1000)
    (s : Surface (Flt rd)) (hs : UnitNormals rd η s) (m1 m2 : Medium (Flt rd)) (cs : Option (CoordSys (Flt rd)))
    (hcs : ∀ c ∈ cs, FrameOk rd δ c) (co : Option (Coating (Flt rd))) (niter : ℕ)
    (post : List (RayOp (Flt rd))) (hpost : ∀ op ∈ post, KeepsSpeed rd δ η op) (hn : post.length * (60 * u + 3 * δ + 4 * η) ≤ 1)
    (rv : RayVec (Flt rd)) (hf : FrameOk rd δ rv.coordSys) {i : ℕ} {ray ray' : Ray (Flt rd)} (hi : rv.rays[i]? = some ray)
    {n2 : ℝ} (hm : m2.getN ray.wavelength = Flt.fin rd n2) (h2 : 0 < n2)
    (hr : ∀ v : V3 ℝ, ray.v = v.flt rd → 1 / nrm v ≤ 19 / 10 * n2)
    (hi' : (RayOp.runAll rv (.refract s m1 m2 cs co niter :: post)).rays[i]? = some ray') (hok : ray'.failed = false) {w : V3 ℝ}
    (hw : ray'.v = w.flt rd) :
    |n2 * nrm w - 1| ≤ 525 * u + 12 * η + 4 * (post.length * (60 * u + 3 * δ + 4 * η)) := by
  have hu0 := h.nonneg
  have d0 : 0 ≤ δ := by
    obtain ⟨_, -, hn⟩ := hf
    exact nearly_nonneg hn
  change (RayOp.runAll ((RayOp.refract s m1 m2 cs co niter).run rv) post).rays[i]? = some ray' at hi'
  obtain ⟨mid, hmid, hmok⟩ := runAll_alive post hpost _ hi' hok
  have hfc : FrameOk rd δ (cs.getD rv.coordSys) := by
    cases cs with
    | none => exact hf
    | some c => exact hcs c rfl
  have hf' : FrameOk rd δ ((RayOp.refract s m1 m2 cs co niter).run rv).coordSys := hfc
  obtain ⟨w1, hw1, k1⟩ := C115_speed h hu (by linarith) hη0 (by linarith) post hpost _ hf' hn hmid hi' hw
  rw [RayOp.run_rays, List.getElem?_map, hi] at hmid
  have hmid' : Ray.refract s (CoordTransform.make rv.coordSys (cs.getD rv.coordSys)) m2 co niter ray = mid := Option.some.inj hmid
  subst hmid'
  obtain ⟨v, n, hv, -, hv0, k2⟩ := C116_refract h hu hs hη _ m2 co niter ray hm h2 hw1 hmok
  obtain ⟨v0, e0, k3⟩ := frame_speed h hu hf hfc (by linarith) hv
  have V0 := nrm_nonneg v0
  have r1 : 1 / nrm v ≤ 2 * n2 := by
    have r0 := hr v0 e0
    have b1 := (abs_le.1 k3).1
    have b2 : (25 * u + 3 * δ) * nrm v0 ≤ 28 / 1000 * nrm v0 := mul_le_mul_of_nonneg_right (by linarith) V0
    have b2' := (abs_le.1 k3).2
    have pos : 0 < nrm v0 := by
      rcases V0.lt_or_eq with h0 | h0
      · exact h0
      · rw [← h0] at b2' ; linarith
    rw [div_le_iff₀ pos] at r0
    rw [div_le_iff₀ hv0]
    have := mul_le_mul_of_nonneg_left (show 972 / 1000 * nrm v0 ≤ nrm v by linarith) h2.le
    nlinarith
  have k4 := (k2 r1).1
  have W0 := nrm_nonneg w1
  have E0 : 0 ≤ post.length * (60 * u + 3 * δ + 4 * η) := by positivity
  generalize post.length * (60 * u + 3 * δ + 4 * η) = E at *
  have k5 : |n2 * nrm w - n2 * nrm w1| ≤ 2 * E * (n2 * nrm w1) := by
    rw [← mul_sub, abs_mul, abs_of_pos h2]
    have := mul_le_mul_of_nonneg_left k1 h2.le
    linarith
  have k6 : n2 * nrm w1 ≤ 2 := by
    have := (abs_le.1 k4).2
    linarith
  have k7 := mul_le_mul_of_nonneg_left k6 (show 0 ≤ 2 * E by linarith)
  exact (abs_chain (k5.trans k7) k4).trans (by linarith)

end theorems

/-! ## Concrete cases -/

theorem rd53_one : rd53 1 = 1 := by
  have h0 : Int.log 2 |(1:ℝ)| = 0 := by rw [abs_one, Int.log_one_right]
  rw [rd53, h0]
  have : (1 : ℝ) / 2 ^ ((0:ℤ) - 52) = ((2 ^ 52 : ℤ) : ℝ) := by norm_num [zpow_neg]
  rw [this, round_intCast]
  norm_num [zpow_neg]
theorem rd53_neg_one : rd53 (-1) = -1 := by
  have h0 : Int.log 2 |(-1:ℝ)| = 0 := by rw [abs_neg, abs_one, Int.log_one_right]
  rw [rd53, h0]
  have : (-1 : ℝ) / 2 ^ ((0:ℤ) - 52) = ((-2 ^ 52 : ℤ) : ℝ) := by norm_num [zpow_neg]
  rw [this, round_intCast]
  norm_num [zpow_neg]

/-- The hypotheses of C114 hold at every point of a paraboloid: its normal is always stored. -/
example {R : ℝ} (hR : R ≠ 0) (x y : ℝ) : ∃ n : V3 ℝ, Surface.normal (Surface.paraboloid (Flt.fin rd53 R)) (Flt.fin rd53 x) (Flt.fin rd53 y) =
    n.flt rd53 ∧ |nrm n ^ 2 - 1| ≤ 64 * 2 ^ (-53 : ℤ) := by
  have h := rd53_rounds
  have hu : (2 : ℝ) ^ (-53 : ℤ) ≤ 1 / 1000 := by norm_num [zpow_neg]
  have hu0 := h.nonneg
  have hu1 : (2 : ℝ) ^ (-53 : ℤ) < 1 := by norm_num [zpow_neg]
  suffices hs : ∃ n : V3 ℝ, Surface.normal (Surface.paraboloid (Flt.fin rd53 R)) (Flt.fin rd53 x) (Flt.fin rd53 y) = n.flt rd53 by
    obtain ⟨n, hn⟩ := hs
    exact ⟨n, hn, C114_paraboloid h hu R _ _ _ hn⟩
  change ∃ n : V3 ℝ, Surface.paraboloidNormal (Flt.fin rd53 R) (Flt.fin rd53 x) (Flt.fin rd53 y) = _
  unfold Surface.paraboloidNormal
  split_ifs with h0
  · exact ⟨⟨0, 0, 1⟩, by rw [flt_zero h, flt_one, rd53_one]; rfl⟩
  · simp only
    have ri := h.after hu1 ((h.rel hu1 1).div hu1 (Rel.refl R))
    have rq := h.after hu1 ((h.rel hu1 (x * x)).add hu1 (h.rel hu1 (y * y)) (mul_self_nonneg _) (mul_self_nonneg _))
    have q0 : 0 ≤ x * x + y * y := add_nonneg (mul_self_nonneg _) (mul_self_nonneg _)
    have rp := h.after hu1 ((h.after hu1 (rq.mul hu1 ri)).mul hu1 ri)
    have p0 : 0 ≤ (x * x + y * y) * (1 / R) * (1 / R) := by
      rw [mul_assoc]; exact mul_nonneg q0 (mul_self_nonneg _)
    have r1 := h.after hu1 (((h.rel hu1 1).mono hu0 hu1 (show 1 ≤ 2 + 2 + 1 + 2 + 1 by norm_num)).add hu1
      (rp.mono hu0 hu1 (by norm_num)) (by norm_num) p0)
    have pos : 0 < 1 + (x * x + y * y) * (1 / R) * (1 / R) := by linarith
    have rs := h.after hu1 (r1.sqrt hu0 hu1 pos.le)
    have sp := Real.sqrt_pos.2 pos
    rw [flt_one, Flt.mul_fin, Flt.mul_fin, Flt.add_fin, Flt.div_fin hR, Flt.mul_fin, Flt.mul_fin, Flt.add_fin,
      Flt.sqrt_fin (r1.nonneg hu1 pos.le), Flt.div_fin (rs.ne hu1 sp.ne'), Flt.neg_fin, Flt.mul_fin, Flt.mul_fin, Flt.neg_fin,
      Flt.mul_fin, Flt.mul_fin]
    exact ⟨⟨_, _, _⟩, rfl⟩

/-- The hypotheses of C116 hold: light entering glass head on, in double precision. -/
example : ∃ w : V3 ℝ, Ray.refractDir (Flt.fin rd53 (3 / 2)) ((⟨0, 0, 1⟩ : V3 ℝ).flt rd53) ((⟨0, 0, -1⟩ : V3 ℝ).flt rd53) = some (w.flt rd53) ∧
    |3 / 2 * nrm w - 1| ≤ 600 * 2 ^ (-53 : ℤ) := by
  have h := rd53_rounds
  have hz := h.zero
  have hu : (2 : ℝ) ^ (-53 : ℤ) ≤ 1 / 1000 := by norm_num [zpow_neg]
  have inv : Ray.invSpeed ((⟨0, 0, -1⟩ : V3 ℝ).flt rd53) = Flt.fin rd53 1 := by
    have hd : V3.dot ((⟨0, 0, -1⟩ : V3 ℝ).flt rd53) ((⟨0, 0, -1⟩ : V3 ℝ).flt rd53) = Flt.fin rd53 1 := by
      change Flt.fin rd53 (rd53 (rd53 (rd53 (0 * 0) + rd53 (0 * 0)) + rd53 (-1 * -1))) = _
      norm_num [hz, rd53_one]
    rw [Ray.invSpeed, hd, Flt.sqrt_fin (by norm_num), Real.sqrt_one, rd53_one, flt_one, rd53_one, Flt.div_fin (by norm_num)]
    norm_num [rd53_one]
  have enV : ((⟨0, 0, -1⟩ : V3 ℝ).flt rd53).smulR (Flt.fin rd53 1) = (⟨0, 0, -1⟩ : V3 ℝ).flt rd53 := by
    simp [V3.flt, V3.smulR, hz, rd53_neg_one]
    rfl
  have ho : Ray.orient ((⟨0, 0, 1⟩ : V3 ℝ).flt rd53) ((⟨0, 0, -1⟩ : V3 ℝ).flt rd53) = ((⟨0, 0, 1⟩ : V3 ℝ).flt rd53, Flt.fin rd53 (-1)) := by
    have hd : V3.dot ((⟨0, 0, -1⟩ : V3 ℝ).flt rd53) ((⟨0, 0, 1⟩ : V3 ℝ).flt rd53) = Flt.fin rd53 (-1) := by
      change Flt.fin rd53 (rd53 (rd53 (rd53 (0 * 0) + rd53 (0 * 0)) + rd53 (-1 * 1))) = _
      norm_num [hz, rd53_neg_one]
    unfold Ray.orient
    simp only [hd, flt_zero h, Flt.gt_fin]
    norm_num
  have hn : ∀ a : ℝ, nrm ⟨0, 0, a⟩ ^ 2 = a ^ 2 := by intro a; rw [nrm_sq]; norm_num
  have h1 : nrm ⟨0, 0, -1⟩ = 1 := by
    have := hn (-1)
    have := nrm_nonneg ⟨0, 0, -1⟩
    nlinarith
  suffices hs : ∃ w : V3 ℝ, Ray.refractDir (Flt.fin rd53 (3 / 2)) ((⟨0, 0, 1⟩ : V3 ℝ).flt rd53) ((⟨0, 0, -1⟩ : V3 ℝ).flt rd53) =
      some (w.flt rd53) by
    obtain ⟨w, hw⟩ := hs
    refine ⟨w, hw, ?_⟩
    have := (C116_direction h hu (η := 0) (by rw [hn]; norm_num) (by norm_num) (by rw [h1]; norm_num) (by norm_num)
      (by rw [h1]; norm_num) hw).1
    have h0 := h.nonneg
    linarith
  unfold Ray.refractDir
  simp only [inv, enV, ho, Flt.div_fin (show (3 / 2 : ℝ) ≠ 0 by norm_num), Flt.mul_fin, Flt.sub_fin, flt_one, rd53_one, Flt.gt_fin,
    decide_eq_true_eq]
  have e1 : rd53 (-1 * -1) = 1 := by norm_num [rd53_one]
  rw [e1, sub_self, hz, mul_zero, hz, if_neg (by norm_num), sub_zero, rd53_one, Flt.sqrt_fin (by norm_num), Flt.add_fin]
  obtain ⟨A, hA, -⟩ := h.smul (rd53 (1 / (3 / 2))) ⟨0, 0, -1⟩
  obtain ⟨B, hB, -⟩ := h.smul (rd53 (rd53 (rd53 (1 / (3 / 2)) * -1) + rd53 (Real.sqrt 1))) ⟨0, 0, 1⟩
  obtain ⟨W, hW, -⟩ := h.sub A B
  rw [hA, hB, hW]
  refine ⟨⟨rd53 (W.x / (3 / 2)), rd53 (W.y / (3 / 2)), rd53 (W.z / (3 / 2))⟩, ?_⟩
  simp only [V3.flt, V3.map_x, V3.map_y, V3.map_z, Flt.div_fin (show (3 / 2 : ℝ) ≠ 0 by norm_num)]
  rfl

/-- A camera behind a mirror: light refracted by a spherical lens face into glass, then sent on by two mirrors to a detector, keeps the
speed of light in glass to a part in `10^12`. -/
example (R1 R2 R3 k2 k3 : Flt rd53) (cs : CoordSys ℝ) (hcs : cs.rot = M3.one) (rv : RayVec (Flt rd53))
    (hf : rv.coordSys = (CoordSys.std ℝ).flt rd53) {ray ray' : Ray (Flt rd53)}
    (hi : rv.rays[0]? = some ray) (hv : ray.v = (⟨0, 0, -1⟩ : V3 ℝ).flt rd53)
    (hi' : (RayOp.runAll rv [.refract (.sphere R1) (.const 1) (.const (Flt.fin rd53 (3 / 2))) (some (cs.flt rd53)) none 5,
      .reflect (.quadric R2 k2) none none 5, .reflect (.quadric R3 k3) (some (cs.flt rd53)) none 5,
      .intersect .plane none none 5]).rays[0]? = some ray') (hok : ray'.failed = false) {w : V3 ℝ} (hw : ray'.v = w.flt rd53) :
    |3 / 2 * nrm w - 1| ≤ 1 / 10 ^ 12 := by
  have h := rd53_rounds
  have hu : (2 : ℝ) ^ (-53 : ℤ) ≤ 1 / 1000 := by norm_num [zpow_neg]
  have h1 : nrm ⟨0, 0, -1⟩ = 1 := by
    have : nrm ⟨0, 0, -1⟩ ^ 2 = 1 := by rw [nrm_sq]; norm_num
    have := nrm_nonneg ⟨0, 0, -1⟩
    nlinarith
  have fr : FrameOk rd53 0 (cs.flt rd53) := ⟨cs, rfl, by rw [hcs]; exact nearly_of_orth M3.orth_one⟩
  have := C116_history h hu (η := 44 * 2 ^ (-53 : ℤ)) (δ := 0) (by norm_num [zpow_neg]) (by positivity) (by norm_num) (.sphere R1)
    (C114_sphere h hu R1) (.const 1) (.const (Flt.fin rd53 (3 / 2))) (some (cs.flt rd53)) (by rintro c ⟨⟩; exact fr) none 5
    [.reflect (.quadric R2 k2) none none 5, .reflect (.quadric R3 k3) (some (cs.flt rd53)) none 5, .intersect .plane none none 5]
    (by
      intro op hop
      simp only [List.mem_cons, List.not_mem_nil, or_false] at hop
      rcases hop with rfl | rfl | rfl
      · exact ⟨by simp, C114_quadric h hu R2 k2⟩
      · exact ⟨by rintro c ⟨⟩; exact fr, C114_quadric h hu R3 k3⟩
      · intro c hc; simp at hc) (by norm_num [zpow_neg]) rv ⟨CoordSys.std ℝ, hf, nearly_of_orth M3.orth_one⟩ hi (n2 := 3 / 2) rfl (by norm_num)
    (by
      intro v e
      have : v = ⟨0, 0, -1⟩ := V3.flt_inj (e.symm.trans hv)
      rw [this, h1]; norm_num) hi' hok hw
  refine this.trans ?_
  norm_num [zpow_neg]

end Batoid.Props
