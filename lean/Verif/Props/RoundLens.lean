import Verif.Props.RoundFocus
import Verif.Props.RoundSnell

/-!
# Property C131: lenses in arithmetic with rounding

Specification vocabulary: `Refracted` is Snell's law for directions (sines by cross products); `Arrives`, `OnConic`, `ConicNormal`, `OffRim` as in
C125 and C126.
-/

namespace Batoid.Props
open Batoid

section spec

/-- Light along `d` goes on along the unit vector `U` behind a surface of normal `n`, if the sine of its angle changes by the factor `μ`. -/
def Refracted (μ : ℝ) (n d U : V3 ℝ) : Prop :=
  nrm U = 1 ∧ V3.cross U n = V3.smul μ (V3.cross d n) ∧ 0 < V3.dot U n * V3.dot d n

end spec

section lemmas
variable {u : ℝ} {rd : ℝ → ℝ}

theorem lagrange_unit {n : V3 ℝ} (hn : nrm n = 1) (a : V3 ℝ) : nrm a ^ 2 = V3.dot a n ^ 2 + nrm (V3.cross a n) ^ 2 := by
  have k := nrm_sq n
  rw [hn] at k
  rw [nrm_sq, nrm_sq]
  simp only [V3.dot, V3.cross]
  linear_combination (a.x ^ 2 + a.y ^ 2 + a.z ^ 2) * k

theorem dot_bound (a b : V3 ℝ) : |V3.dot a b| ≤ nrm a * nrm b := by
  refine le_trans ?_ (absDot_le a b)
  unfold V3.dot
  exact (abs_add_le _ _).trans (by linarith [abs_add_le (a.x * b.x) (a.y * b.y)])

/-- A direction is known from its length, its sine, and a lower bound of its cosine. -/
theorem direction_known {N U n : V3 ℝ} {A B β σ ζ : ℝ} (hn : nrm n = 1) (hU : nrm U = 1) (hN : |nrm N - 1| ≤ A) (hA : A ≤ 1 / 10)
    (hB : nrm (V3.cross N n - V3.cross U n) ≤ B) (hσ : σ * σ = 1) (hβ : 0 < β) (hb : β ≤ σ * V3.dot U n) (ha : -ζ ≤ σ * V3.dot N n)
    (hζ : 2 * ζ ≤ β) : nrm (N - U) ≤ (21 / 5 * A + 26 / 5 * B) / β := by
  have A0 := (abs_nonneg _).trans hN
  have B0 := (nrm_nonneg _).trans hB
  obtain ⟨n1, n2⟩ := abs_le.1 hN
  have lN := lagrange_unit hn N
  have lU := lagrange_unit hn U
  have lD := lagrange_unit hn (N - U)
  have eD : V3.dot (N - U) n = V3.dot N n - V3.dot U n := by simp only [V3.dot, V3.sub_x, V3.sub_y, V3.sub_z]; ring
  have eC : V3.cross (N - U) n = V3.cross N n - V3.cross U n := by
    ext <;> simp only [V3.cross, V3.sub_x, V3.sub_y, V3.sub_z] <;> ring
  rw [eD, eC] at lD
  have cN : nrm (V3.cross N n) ≤ nrm N := by simpa [hn] using nrm_cross N n
  have cU : nrm (V3.cross U n) ≤ 1 := by simpa [hn, hU] using nrm_cross U n
  have d1 := nrm_close (V3.cross N n) (V3.cross U n)
  have d2 := nrm_close (V3.cross U n) (V3.cross N n)
  rw [nrm_sub_comm (V3.cross U n)] at d2
  have p0 := nrm_nonneg (V3.cross N n)
  have q0 := nrm_nonneg (V3.cross U n)
  have N0 := nrm_nonneg N
  rw [hU] at lU
  have hb1 : σ * V3.dot U n ≤ 1 := by
    have : (σ * V3.dot U n) ^ 2 ≤ 1 := by
      rw [mul_pow, pow_two σ, hσ]
      nlinarith [sq_nonneg (nrm (V3.cross U n))]
    nlinarith
  generalize nrm (V3.cross N n) = p at *
  generalize nrm (V3.cross U n) = q at *
  generalize nrm (V3.cross N n - V3.cross U n) = g at *
  generalize nrm N = m at *
  have g0 : 0 ≤ g := by linarith
  have sq : |(σ * V3.dot N n) ^ 2 - (σ * V3.dot U n) ^ 2| ≤ 21 / 10 * (A + B) := by
    rw [mul_pow, mul_pow, pow_two σ, hσ, one_mul, one_mul]
    have e : V3.dot N n ^ 2 - V3.dot U n ^ 2 = (m - 1) * (m + 1) - (p - q) * (p + q) := by linear_combination -lN + lU
    rw [e]
    have k1 : |(m - 1) * (m + 1)| ≤ A * (21 / 10) := by
      rw [abs_mul]
      exact mul_le_mul hN (by rw [abs_of_nonneg (by linarith)]; linarith) (abs_nonneg _) A0
    have k2 : |(p - q) * (p + q)| ≤ B * (21 / 10) := by
      rw [abs_mul]
      exact mul_le_mul (by rw [abs_le]; constructor <;> linarith) (by rw [abs_of_nonneg (by linarith)]; linarith) (abs_nonneg _) B0
    have := abs_sub ((m - 1) * (m + 1)) ((p - q) * (p + q))
    linarith
  have dif : |σ * V3.dot N n - σ * V3.dot U n| * β ≤ 21 / 5 * (A + B) := by
    rw [show (σ * V3.dot N n) ^ 2 - (σ * V3.dot U n) ^ 2 = (σ * V3.dot N n - σ * V3.dot U n) * (σ * V3.dot N n + σ * V3.dot U n) by ring, abs_mul] at sq
    have s1 : β / 2 ≤ |σ * V3.dot N n + σ * V3.dot U n| := le_trans (by linarith) (le_abs_self _)
    have := mul_le_mul_of_nonneg_left s1 (abs_nonneg (σ * V3.dot N n - σ * V3.dot U n))
    linarith
  rw [← mul_sub, abs_mul, show |σ| = 1 by rw [← sq_eq_sq₀ (abs_nonneg _) zero_le_one, sq_abs, pow_two, hσ, one_pow], one_mul] at dif
  have β1 : β ≤ 1 := hb.trans hb1
  rw [le_div_iff₀ hβ]
  have tri : nrm (N - U) ≤ |V3.dot N n - V3.dot U n| + g := by
    refine abs_le_of_sq_le_sq' ?_ (by positivity) |>.2
    rw [lD]
    nlinarith [sq_abs (V3.dot N n - V3.dot U n), mul_nonneg (abs_nonneg (V3.dot N n - V3.dot U n)) g0]
  have := mul_le_mul_of_nonneg_right tri hβ.le
  have : g * β ≤ B * 1 := mul_le_mul hB β1 hβ.le B0
  linarith

end lemmas

section c131
variable {u η : ℝ} {rd : ℝ → ℝ} {x y ε δ : ℝ} {n : V3 ℝ}

/-- **C131** (lenses).  The direction behind the surface is that of Snell's law at the true normal. -/
theorem C131_refract (h : Rounds u rd) (hu : u ≤ 1 / 1000) {s : Surface (Flt rd)} (hs : UnitNormals rd η s) (hA : 525 * u + 12 * η ≤ 1 / 10)
    (ct : CoordTransform (Flt rd)) (m2 : Medium (Flt rd)) (co : Option (Coating (Flt rd))) (niter : ℕ) (ray : Ray (Flt rd)) {n2 : ℝ}
    (hm : m2.getN ray.wavelength = Flt.fin rd n2) (h2 : 0 < n2) {v w : V3 ℝ} (hv : ct.forwardVel ray.v = v.flt rd) (hr : 1 / nrm v ≤ 2 * n2)
    (hw : (ray.refract s ct m2 co niter).v = w.flt rd) (hok : (ray.refract s ct m2 co niter).failed = false)
    (hx : (ray.refract s ct m2 co niter).r.x = Flt.fin rd x) (hy : (ray.refract s ct m2 co niter).r.y = Flt.fin rd y)
    (hn : NormalWithin rd s x y n ε) (h1 : nrm n = 1) {μ β : ℝ} {U : V3 ℝ} (hμ : |1 / (n2 * nrm v) - μ| ≤ δ)
    (hU : Refracted μ n (V3.smul (1 / nrm v) v) U) (hα : 40 * u + ε < |V3.dot v n| / nrm v) (hβ : 0 < β) (hb : β ≤ |V3.dot U n|)
    (hζ : 240 * u + 8 * η + 3 * ε ≤ β) :
    nrm (V3.smul n2 w - U) ≤ (2725 * u + 51 * η + 17 * ε + 6 * δ) / β := by
  have hu0 := h.nonneg
  obtain ⟨v', n', hv', hn', vp, hh⟩ := C116_refract h hu hs (by linarith) ct m2 co niter ray hm h2 hw hok
  obtain rfl : v' = v := V3.flt_inj (hv'.symm.trans hv)
  obtain ⟨m, hm1, hm2⟩ := hn
  rw [hx, hy, hm1] at hn'
  obtain rfl : m = n' := V3.flt_inj hn'
  obtain ⟨g1, g2, g3, g4⟩ := hh hr
  have ε0 := (nrm_nonneg _).trans hm2
  have δ0 := (abs_nonneg _).trans hμ
  obtain ⟨hU1, hU2, hU3⟩ := hU
  have n2w : nrm (V3.smul n2 w) = n2 * nrm w := by rw [nrm_smul, abs_of_pos h2]
  have Nle : nrm (V3.smul n2 w) ≤ 11 / 10 := by rw [n2w]; linarith [(abs_le.1 g1).2]
  have d1 : nrm (V3.smul (1 / nrm v') v') = 1 := by rw [nrm_smul, abs_of_pos (by positivity)]; field_simp
  have η0 : 0 ≤ η := (abs_nonneg _).trans (hs _ _ _ hm1)
  have k2 : 1 / (n2 * nrm v') ≤ 2 := by
    rw [div_le_iff₀ (by positivity)]
    rw [div_le_iff₀ vp] at hr
    linarith
  have hB : nrm (V3.cross (V3.smul n2 w) n - V3.cross U n) ≤ 100 * u + 31 / 10 * ε + δ := by
    have e : V3.cross (V3.smul n2 w) n - V3.cross U n =
        (V3.cross (V3.smul n2 w) m - V3.cross (V3.smul (1 / (n2 * nrm v' ^ 2)) v') m) +
          ((V3.cross (V3.smul n2 w) (n - m) - V3.cross (V3.smul (1 / (n2 * nrm v')) (V3.smul (1 / nrm v') v')) (n - m)) +
            V3.smul (1 / (n2 * nrm v') - μ) (V3.cross (V3.smul (1 / nrm v') v') n)) := by
      rw [hU2]
      ext <;> simp only [V3.cross, V3.sub_x, V3.sub_y, V3.sub_z, V3.add_x, V3.add_y, V3.add_z, V3.smul_x, V3.smul_y, V3.smul_z] <;> field_simp <;> ring
    rw [e]
    have a1 := nrm_add (V3.cross (V3.smul n2 w) m - V3.cross (V3.smul (1 / (n2 * nrm v' ^ 2)) v') m)
      ((V3.cross (V3.smul n2 w) (n - m) - V3.cross (V3.smul (1 / (n2 * nrm v')) (V3.smul (1 / nrm v') v')) (n - m)) +
        V3.smul (1 / (n2 * nrm v') - μ) (V3.cross (V3.smul (1 / nrm v') v') n))
    have a2 := nrm_add (V3.cross (V3.smul n2 w) (n - m) - V3.cross (V3.smul (1 / (n2 * nrm v')) (V3.smul (1 / nrm v') v')) (n - m))
      (V3.smul (1 / (n2 * nrm v') - μ) (V3.cross (V3.smul (1 / nrm v') v') n))
    have a3 := nrm_sub (V3.cross (V3.smul n2 w) (n - m)) (V3.cross (V3.smul (1 / (n2 * nrm v')) (V3.smul (1 / nrm v') v')) (n - m))
    have b1 := nrm_cross (V3.smul n2 w) (n - m)
    have b2 := nrm_cross (V3.smul (1 / (n2 * nrm v')) (V3.smul (1 / nrm v') v')) (n - m)
    have b3 := nrm_cross (V3.smul (1 / nrm v') v') n
    rw [d1, h1, one_mul] at b3
    rw [nrm_sub_comm n m] at b1 b2
    rw [nrm_smul, d1, mul_one, abs_of_pos (by positivity)] at b2
    rw [nrm_smul] at a2
    have c1 := mul_le_mul Nle hm2 (nrm_nonneg _) (by norm_num)
    have c2 := mul_le_mul k2 hm2 (nrm_nonneg _) (by norm_num)
    have c3 := mul_le_mul hμ b3 (nrm_nonneg _) δ0
    linarith
  have dv : V3.dot (V3.smul (1 / nrm v') v') n = V3.dot v' n / nrm v' := by
    simp only [V3.dot, V3.smul_x, V3.smul_y, V3.smul_z]; ring
  rw [dv] at hU3
  have dotm : ∀ a : V3 ℝ, |V3.dot a m - V3.dot a n| ≤ nrm a * ε := by
    intro a
    have := dot_bound a (m - n)
    rw [show V3.dot a (m - n) = V3.dot a m - V3.dot a n by simp only [V3.dot, V3.sub_x, V3.sub_y, V3.sub_z]; ring] at this
    exact this.trans (mul_le_mul_of_nonneg_left hm2 (nrm_nonneg _))
  have dw : V3.dot (V3.smul n2 w) m = n2 * V3.dot w m := by simp only [V3.dot, V3.smul_x, V3.smul_y, V3.smul_z]; ring
  have dN := dotm (V3.smul n2 w)
  rw [dw] at dN
  have dN' : |n2 * V3.dot w m - V3.dot (V3.smul n2 w) n| ≤ 11 / 10 * ε := dN.trans (mul_le_mul_of_nonneg_right Nle ε0)
  have dV := dotm v'
  rw [lt_div_iff₀ vp] at hα
  have sign : ∃ σ : ℝ, σ * σ = 1 ∧ β ≤ σ * V3.dot U n ∧ -(120 * u + 4 * η + 3 / 2 * ε) ≤ σ * V3.dot (V3.smul n2 w) n := by
    rcases lt_trichotomy (V3.dot U n) 0 with hneg | h0 | hpos
    · have : V3.dot v' n < 0 := by
        by_contra hc
        have := div_nonneg (not_lt.1 hc) vp.le
        nlinarith
      rw [abs_of_neg this] at hα
      rw [abs_of_neg hneg] at hb
      have := g4 (by linarith [(abs_le.1 dV).2])
      exact ⟨-1, by norm_num, by linarith, by linarith [(abs_le.1 dN').1]⟩
    · rw [h0, zero_mul] at hU3; exact absurd hU3 (lt_irrefl _)
    · have : 0 < V3.dot v' n := by
        by_contra hc
        have := div_nonpos_of_nonpos_of_nonneg (not_lt.1 hc) vp.le
        nlinarith
      rw [abs_of_pos this] at hα
      rw [abs_of_pos hpos] at hb
      have := g3 (by linarith [(abs_le.1 dV).1])
      exact ⟨1, by norm_num, by linarith, by linarith [(abs_le.1 dN').2]⟩
  obtain ⟨σ, hσ, hb', ha'⟩ := sign
  have := direction_known h1 hU1 (by rw [n2w]; exact g1) hA hB hσ hβ hb' ha' (by linarith)
  refine this.trans (div_le_div_of_nonneg_right ?_ hβ.le)
  linarith

/-- Into a denser medium (by eighty roundings) rounding makes no total reflection. -/
theorem refractDir_enters (h : Rounds u rd) (hu : u ≤ 1 / 1000) {n v : V3 ℝ} (hn : |nrm n ^ 2 - 1| ≤ η) (hη : η ≤ 1 / 100)
    (hv : 0 < nrm v) {n2 : ℝ} (h2 : 0 < n2) (hr : 1 / (n2 * nrm v) ≤ 1 - 80 * u) :
    ∃ w : V3 ℝ, Ray.refractDir (Flt.fin rd n2) (n.flt rd) (v.flt rd) = some (w.flt rd) := by
  have hu0 := h.nonneg
  have hu1 : u < 1 := by linarith
  have hr2 : 1 / nrm v ≤ 2 * n2 := by
    rw [div_le_iff₀ (by positivity)] at hr
    rw [div_le_iff₀ hv]
    nlinarith [mul_pos h2 hv]
  obtain ⟨n1, eta, nv, inv, enV, heta, speed, aim, eta0, eta1, tang⟩ := incoming_near h hu hv h2 hr2
  obtain ⟨σ, α, m, o1, o2, o3, o4, o5, o6, o7⟩ := orient_near h hu hn hη speed
  have d1 : nrm (V3.smul (1 / nrm v) v) = 1 := by rw [nrm_smul, abs_of_pos (by positivity)]; field_simp
  have nv1 : 1 - 14 * u ≤ nrm nv := by
    have := nrm_close (V3.smul (1 / nrm v) v) nv
    rw [d1, nrm_sub_comm] at this
    linarith
  have e1 : eta * nrm nv ≤ 1 - 24 * u := by
    have := nrm_close (V3.smul eta nv) (V3.smul (1 / (n2 * nrm v ^ 2)) v)
    rw [nrm_smul, nrm_smul, abs_of_nonneg eta0, abs_of_pos (by positivity), show 1 / (n2 * nrm v ^ 2) * nrm v = 1 / (n2 * nrm v) by field_simp] at this
    linarith
  have e2 : eta ≤ 1 - 10 * u := by
    by_contra hc
    have := mul_le_mul (not_le.1 hc).le nv1 (by linarith) eta0
    nlinarith
  have s1 : rd (eta * eta) ≤ (1 + u) * (1 - 10 * u) := by
    have a := (abs_le.1 (h.err (eta * eta))).2
    rw [abs_of_nonneg (mul_nonneg eta0 eta0)] at a
    have : eta * eta ≤ 1 * (1 - 10 * u) := mul_le_mul (by linarith) e2 eta0 zero_le_one
    nlinarith
  have s0 : 0 ≤ rd (eta * eta) := (h.rel hu1 _).nonneg hu1 (mul_nonneg eta0 eta0)
  have a0 : 0 ≤ rd (α * α) := (h.rel hu1 _).nonneg hu1 (mul_self_nonneg _)
  have one := abs_le.1 (h.err 1)
  rw [abs_one] at one
  have s2 : rd (rd 1 - rd (α * α)) ≤ (1 + u) * (1 + u) := by
    have a := (abs_le.1 (h.err (rd 1 - rd (α * α)))).2
    by_cases hc : 0 ≤ rd 1 - rd (α * α)
    · rw [abs_of_nonneg hc] at a
      nlinarith
    · rw [abs_of_neg (not_le.1 hc)] at a
      nlinarith [not_le.1 hc]
  have s3 : rd (rd (eta * eta) * rd (rd 1 - rd (α * α))) ≤ rd 1 := by
    have a := (abs_le.1 (h.err (rd (eta * eta) * rd (rd 1 - rd (α * α))))).2
    generalize rd (rd 1 - rd (α * α)) = b at *
    generalize rd (eta * eta) = d at *
    generalize rd (d * b) = k at *
    generalize rd 1 = o at *
    clear * - a s0 s1 s2 one hu0 hu
    by_cases hb : 0 ≤ b
    · rw [abs_of_nonneg (mul_nonneg s0 hb)] at a
      have m := mul_le_mul s1 s2 hb (by nlinarith)
      have : (1 + u) * ((1 + u) * (1 - 10 * u) * ((1 + u) * (1 + u))) ≤ 1 - u := by
        have c1 : (1 + u) * (1 + u) ≤ 1 + 21 / 10 * u := by nlinarith
        have c2 : (1 + u) * (1 - 10 * u) * (1 + u) ≤ 1 - 7 * u := by nlinarith
        have c3 : (1 + 21 / 10 * u) * (1 - 7 * u) ≤ 1 - u := by nlinarith
        have c4 := mul_le_mul c1 c2 (by nlinarith) (by nlinarith)
        nlinarith
      nlinarith
    · have : d * b ≤ 0 := mul_nonpos_of_nonneg_of_nonpos s0 (not_le.1 hb).le
      rw [abs_of_nonpos this] at a
      nlinarith
  unfold Ray.refractDir
  simp only [inv, enV, o1, Flt.div_fin h2.ne', heta, Flt.mul_fin, Flt.sub_fin, flt_one, Flt.gt_fin, decide_eq_true_eq]
  rw [if_neg (not_lt.2 s3), Flt.sqrt_fin ((h.rel hu1 _).nonneg hu1 (by linarith)), Flt.add_fin]
  obtain ⟨A, hA, -⟩ := h.smul eta nv
  obtain ⟨B, hB, -⟩ := h.smul (rd (rd (eta * α) + rd (Real.sqrt (rd (rd 1 - rd (rd (eta * eta) * rd (rd 1 - rd (α * α)))))))) m
  obtain ⟨W, hW, -⟩ := h.sub A B
  rw [hA, hB, hW]
  refine ⟨⟨rd (W.x / n2), rd (W.y / n2), rd (W.z / n2)⟩, ?_⟩
  simp only [V3.flt, V3.map_x, V3.map_y, V3.map_z, Flt.div_fin h2.ne']
  rfl

/-- **C131** (entering glass).  A ray that meets the surface at a point with a normal goes on into the denser medium. -/
theorem C131_enters (h : Rounds u rd) (hu : u ≤ 1 / 1000) {s : Surface (Flt rd)} (hs : UnitNormals rd η s) (hη : η ≤ 1 / 100)
    (ct : CoordTransform (Flt rd)) (m2 : Medium (Flt rd)) (co : Option (Coating (Flt rd))) (niter : ℕ) (ray : Ray (Flt rd)) {n2 : ℝ}
    (hm : m2.getN ray.wavelength = Flt.fin rd n2) (h2 : 0 < n2) {v : V3 ℝ} (hv : ct.forwardVel ray.v = v.flt rd) (hv0 : 0 < nrm v)
    (hr : 1 / (n2 * nrm v) ≤ 1 - 80 * u) (hok : (ray.intersect s ct none niter).failed = false)
    (hx : (ray.intersect s ct none niter).r.x = Flt.fin rd x) (hy : (ray.intersect s ct none niter).r.y = Flt.fin rd y)
    (hn : NormalWithin rd s x y n ε) :
    (ray.refract s ct m2 co niter).failed = false ∧ (ray.refract s ct m2 co niter).r = (ray.intersect s ct none niter).r ∧
      ∃ w : V3 ℝ, (ray.refract s ct m2 co niter).v = w.flt rd := by
  obtain ⟨n', hn', -⟩ := hn
  obtain ⟨w, hw⟩ := refractDir_enters h hu (hs _ _ _ hn') hη hv0 h2 hr
  unfold Ray.intersect at hok hx hy ⊢
  unfold Ray.refract
  by_cases hf : ray.failed
  · simp [hf] at hok
  · simp only [hf, Bool.false_eq_true, if_false] at hok hx hy ⊢
    generalize s.timeToIntersect (ct.forward ray.r) (ct.forwardVel ray.v) 0 niter = tt at hok hx hy ⊢
    obtain ⟨ok, dt⟩ := tt
    cases ok
    · exact absurd hok (by simp [Ray.markFailed])
    · simp only at hx hy ⊢
      rw [hx, hy, hn', hm, hv, hw]
      exact ⟨rfl, rfl, w, rfl⟩

/-- A refracted ray leaves where the ray lands. -/
theorem refract_lands {F : Type} [Arith F] (s : Surface F) (ct : CoordTransform F) (m2 : Medium F) (co : Option (Coating F)) (niter : ℕ) (ray : Ray F)
    (hok : (ray.refract s ct m2 co niter).failed = false) :
    (ray.intersect s ct none niter).failed = false ∧ (ray.refract s ct m2 co niter).r = (ray.intersect s ct none niter).r := by
  unfold Ray.refract at hok ⊢
  unfold Ray.intersect
  by_cases hf : ray.failed
  · simp [hf] at hok
  · simp only [hf, Bool.false_eq_true, if_false] at hok ⊢
    generalize s.timeToIntersect (ct.forward ray.r) (ct.forwardVel ray.v) 0 niter = tt at hok ⊢
    obtain ⟨ok, dt⟩ := tt
    cases ok
    · exact absurd hok (by simp [Ray.markFailed])
    · simp only at hok ⊢
      generalize Ray.refractDir (F := F) _ _ _ = w at hok ⊢
      cases w <;> simp at hok ⊢

section
variable {R z e g : ℝ} {c : ℕ}

/-- The refracting property of conics: behind the surface light that was parallel to the axis is on the way from or to the focus. -/
theorem cartesian_direction (e2 : 1 - e ≠ 0) (hz : OnConic (-e ^ 2) R x y z) (hn : ConicNormal (-e ^ 2) R x y z n) {σ : ℝ} (hσ : σ * σ = 1)
    (hg0 : 0 < g) (hg : R ^ 2 + e ^ 2 * (x ^ 2 + y ^ 2) ≤ g ^ 2 * R ^ 2) (ho : OffRim c (-e ^ 2) R x y) :
    R / (1 - e) - e * z ≠ 0 ∧
    Refracted e n ⟨0, 0, σ⟩ (V3.smul (σ / (R / (1 - e) - e * z)) (⟨0, 0, R / (1 - e)⟩ - ⟨x, y, z⟩)) ∧
    1 / g ≤ |V3.dot (V3.smul (σ / (R / (1 - e) - e * z)) (⟨0, 0, R / (1 - e)⟩ - ⟨x, y, z⟩)) n| ∧ 1 ≤ g * (c + 1) * n.z := by
  obtain ⟨hz1, hz2⟩ := hz
  obtain ⟨⟨t, rfl⟩, hn1, hn2⟩ := hn
  simp only at hn2
  have hR : R ≠ 0 := by rintro rfl; simp at hz2
  obtain ⟨f, hf⟩ : ∃ f, f = R / (1 - e) := ⟨_, rfl⟩
  have fR : R = (1 - e) * f := by rw [hf]; field_simp
  rw [← hf]
  have dist : x ^ 2 + y ^ 2 + (f - z) ^ 2 = (f - e * z) ^ 2 := by rw [fR] at hz1; linear_combination hz1
  have hL : f - e * z ≠ 0 := by
    intro h0
    rw [h0] at dist
    have : f - z = 0 := by nlinarith [sq_nonneg x, sq_nonneg y, sq_nonneg (f - z)]
    have fz : f = z := by linarith
    rw [← fz] at h0
    exact hR (by rw [fR]; linear_combination h0)
  have k := nrm_sq (⟨t * x, t * y, t * ((1 + -e ^ 2) * z - R)⟩ : V3 ℝ)
  rw [hn1] at k
  simp only at k
  have W2 : ((1 + -e ^ 2) * z - R) ^ 2 = R ^ 2 - (1 + -e ^ 2) * (x ^ 2 + y ^ 2) := by linear_combination (1 + -e ^ 2) * hz1
  have k' : t ^ 2 * (R ^ 2 + e ^ 2 * (x ^ 2 + y ^ 2)) = 1 := by linear_combination -k - t ^ 2 * W2
  have dU : V3.dot (V3.smul (σ / (f - e * z)) (⟨0, 0, f⟩ - ⟨x, y, z⟩)) ⟨t * x, t * y, t * ((1 + -e ^ 2) * z - R)⟩ = -(σ * t * R) := by
    simp only [V3.dot, V3.smul_x, V3.smul_y, V3.smul_z, V3.sub_x, V3.sub_y, V3.sub_z]
    have : -x * x + -y * y + (f - z) * ((1 + -e ^ 2) * z - R) = -(R * (f - e * z)) := by
      rw [fR] at hz1 ⊢
      linear_combination -hz1
    field_simp
    linear_combination σ * t * this
  refine ⟨hL, ⟨?_, ?_, ?_⟩, ?_, ?_⟩
  · rw [← sq_eq_sq₀ (nrm_nonneg _) zero_le_one, nrm_sq]
    simp only [V3.smul_x, V3.smul_y, V3.smul_z, V3.sub_x, V3.sub_y, V3.sub_z]
    field_simp
    linear_combination (x ^ 2 + y ^ 2 + (f - z) ^ 2) * hσ + dist
  · rw [fR]
    ext <;> simp only [V3.cross, V3.smul_x, V3.smul_y, V3.smul_z, V3.sub_x, V3.sub_y, V3.sub_z] <;> field_simp <;> ring
  · rw [dU]
    simp only [V3.dot]
    have : 0 < t ^ 2 * (R * (R - (1 + -e ^ 2) * z)) := by
      have t0 : t ≠ 0 := by rintro rfl; simp at hn2
      positivity
    calc 0 < t ^ 2 * (R * (R - (1 + -e ^ 2) * z)) := this
      _ = _ := by linear_combination (-t ^ 2 * (R * (R - (1 + -e ^ 2) * z))) * hσ
  · rw [dU, abs_neg, div_le_iff₀ hg0]
    have : 1 ≤ (|σ * t * R| * g) ^ 2 := by
      rw [mul_pow, sq_abs]
      have := mul_le_mul_of_nonneg_left hg (sq_nonneg t)
      rw [k'] at this
      calc 1 ≤ t ^ 2 * (g ^ 2 * R ^ 2) := this
        _ = _ := by linear_combination (-t ^ 2 * (g ^ 2 * R ^ 2)) * hσ
    exact (one_le_sq_iff₀ (by positivity)).1 this
  · simp only
    have c0 : (0 : ℝ) ≤ c := Nat.cast_nonneg c
    have w1 : R ^ 2 ≤ (c + 1) * ((1 + -e ^ 2) * z - R) ^ 2 := by rw [W2]; unfold OffRim at ho; linarith
    have w2 : 1 ≤ g ^ 2 * ((c + 1) * (t * ((1 + -e ^ 2) * z - R)) ^ 2) := by
      have a1 := mul_le_mul_of_nonneg_left hg (sq_nonneg t)
      rw [k'] at a1
      have a2 := mul_le_mul_of_nonneg_left w1 (show 0 ≤ t ^ 2 * g ^ 2 by positivity)
      linarith
    have w3 : g ^ 2 * ((c + 1) * (t * ((1 + -e ^ 2) * z - R)) ^ 2) ≤ (g * (c + 1) * (t * ((1 + -e ^ 2) * z - R))) ^ 2 := by
      have : 0 ≤ g ^ 2 * (t * ((1 + -e ^ 2) * z - R)) ^ 2 := by positivity
      nlinarith
    exact (one_le_sq_iff₀ (by positivity)).1 (w2.trans w3)

/-- **C131** (Cartesian lens faces).  Light parallel to the axis arrives at the focus. -/
theorem C131_focus (h : Rounds u rd) (h1 : rd 1 = 1) (hc : 1 ≤ c) (hR : R ≠ 0) (e1 : 1 + e ≠ 0) (e2 : 1 - e ≠ 0) (hg0 : 1 ≤ g)
    (hcu : (264 * c + 5200) * (c + 1) * g * u ≤ 1) (ct : CoordTransform (Flt rd)) (m2 : Medium (Flt rd)) (co : Option (Coating (Flt rd)))
    (niter : ℕ) (ray : Ray (Flt rd)) {n2 s : ℝ} (hm : m2.getN ray.wavelength = Flt.fin rd n2) (h2 : 0 < n2) (hs0 : s ≠ 0) {r q w : V3 ℝ}
    (hr : ct.forward ray.r = r.flt rd) (hv : ct.forwardVel ray.v = (⟨0, 0, s⟩ : V3 ℝ).flt rd) (hr2 : 1 / |s| ≤ 2 * n2)
    (hμ : |1 / (n2 * |s|) - e| ≤ δ)
    (hok : (ray.refract (.quadric (Flt.fin rd R) (Flt.fin rd (-e ^ 2))) ct m2 co niter).failed = false)
    (hq : (ray.refract (.quadric (Flt.fin rd R) (Flt.fin rd (-e ^ 2))) ct m2 co niter).r = q.flt rd)
    (hw : (ray.refract (.quadric (Flt.fin rd R) (Flt.fin rd (-e ^ 2))) ct m2 co niter).v = w.flt rd)
    (ho : OffRim c (-e ^ 2) R q.x q.y) (hz : OnConic (-e ^ 2) R q.x q.y z) (hs : 0 < R * (R - (1 + -e ^ 2) * q.z))
    (hg : R ^ 2 + e ^ 2 * (q.x ^ 2 + q.y ^ 2) ≤ g ^ 2 * R ^ 2) :
    Arrives q w (n2 * (s / |s|) * (R / (1 - e) - e * z)) ⟨0, 0, R / (1 - e)⟩
      (landSlack u c (-e ^ 2) R (nrm r + nrm (q - r)) + g * ((2244 * c + 6023) * u + 6 * δ) * |R / (1 - e) - e * z|) := by
  have hc' : (1 : ℝ) ≤ c := by exact_mod_cast hc
  have hu0 := h.nonneg
  have gu : u ≤ g * u := by nlinarith
  have cgu : c * u ≤ c * (g * u) := mul_le_mul_of_nonneg_left gu (by linarith)
  have cgu0 : 0 ≤ c * (g * u) := by positivity
  have ccgu0 : c * (g * u) ≤ c * (c * (g * u)) := by nlinarith
  have gu1 : g * u ≤ c * (g * u) := by nlinarith [mul_nonneg (zero_le_one.trans hg0) hu0]
  have hcu' : 264 * (c * (c * (g * u))) + 5464 * (c * (g * u)) + 5200 * (g * u) ≤ 1 := by linarith
  obtain ⟨hok', hq''⟩ := refract_lands _ ct m2 co niter ray hok
  have hq' := hq''.symm.trans hq
  have hf : ray.failed = false := by
    by_contra hf
    rw [Bool.not_eq_false] at hf
    simp [Ray.refract, hf] at hok
  have κ1 : -e ^ 2 + 1 ≠ 0 := by
    have := mul_ne_zero e1 e2
    intro hh; apply this; linear_combination hh
  have k1 := height_near hR ho hz hs (C118_quadric h (by linarith) h1 R κ1 ct none niter ray hf hr hv hok' hq')
  rw [show (↑c + 1) / |R| * (210 * u * ((nrm r + nrm (q - r)) ^ 2 + |-e ^ 2 + 1| * (nrm r + nrm (q - r)) ^ 2 + R ^ 2 / |-e ^ 2 + 1|)) =
      landSlack u c (-e ^ 2) R (nrm r + nrm (q - r)) by unfold landSlack; ring] at k1
  obtain ⟨z', n, hz', hn⟩ := conic_exists hR ho
  obtain rfl : z' = z := by
    have := height_near hR ho hz hz'.2 (E := 0) (by rw [abs_le]; constructor <;> linarith [hz'.1])
    rw [mul_zero] at this
    exact sub_eq_zero.1 (abs_nonpos_iff.1 this)
  have sp := abs_pos.2 hs0
  have nv : nrm (⟨0, 0, s⟩ : V3 ℝ) = |s| := by simp [nrm, V3.normSq, V3.dot, Real.sqrt_mul_self_eq_abs]
  have σ1 : s / |s| * (s / |s|) = 1 := by
    rw [div_mul_div_comm, abs_mul_abs_self, div_self (mul_ne_zero hs0 hs0)]
  obtain ⟨hL, hU, hb, hnz⟩ := cartesian_direction e2 hz hn σ1 (by linarith) hg ho
  have gp : 0 < g := by linarith
  have ed : V3.smul (1 / nrm (⟨0, 0, s⟩ : V3 ℝ)) ⟨0, 0, s⟩ = ⟨0, 0, s / |s|⟩ := by rw [nv]; ext <;> simp <;> ring
  have main := C131_refract (δ := δ) (μ := e) (β := 1 / g) h (by linarith) (C114_quadric h (by linarith) _ _) (by linarith) ct m2 co niter ray hm h2 hv (by rw [nv]; exact hr2) hw hok
    (congrArg V3.x hq) (congrArg V3.y hq) (C125_quadric_normal h h1 hc (by linarith) ho hz hn) hn.2.1 (by rw [nv]; exact hμ) (by rw [ed]; exact hU) ?_
    (by positivity) hb ?_
  · have fin : q + w.smulR (n2 * (s / |s|) * (R / (1 - e) - e * z')) - ⟨0, 0, R / (1 - e)⟩ =
        (q - ⟨q.x, q.y, z'⟩) + (V3.smul n2 w - V3.smul (s / |s| / (R / (1 - e) - e * z')) (⟨0, 0, R / (1 - e)⟩ - ⟨q.x, q.y, z'⟩)).smulR
          (s / |s| * (R / (1 - e) - e * z')) := by
      generalize s / |s| = σ at σ1
      generalize R / (1 - e) = f at hL
      ext <;> simp only [V3.add_x, V3.add_y, V3.add_z, V3.sub_x, V3.sub_y, V3.sub_z, V3.smul_x, V3.smul_y, V3.smul_z, V3.smulR_x, V3.smulR_y, V3.smulR_z] <;>
        field_simp
      · linear_combination (-q.x) * σ1
      · linear_combination (-q.y) * σ1
      · linear_combination (f - z') * σ1
    unfold Arrives
    rw [fin]
    refine (nrm_add _ _).trans (add_le_add ?_ ?_)
    · have : nrm (q - ⟨q.x, q.y, z'⟩) = |q.z - z'| := by simp [nrm, V3.normSq, V3.dot, Real.sqrt_mul_self_eq_abs]
      rw [this]; exact k1
    · rw [nrm_smulR, abs_mul, abs_div, abs_abs, div_self sp.ne', one_mul, mul_comm |R / (1 - e) - e * z'|]
      refine mul_le_mul_of_nonneg_right (main.trans (le_of_eq ?_)) (abs_nonneg _)
      rw [div_div_eq_mul_div, div_one]
      ring
  · have : V3.dot (⟨0, 0, s⟩ : V3 ℝ) n = s * n.z := by simp [V3.dot]
    rw [nv, this, abs_mul, mul_div_cancel_left₀ _ sp.ne', abs_of_pos hn.2.2]
    by_contra hcon
    have := mul_le_mul_of_nonneg_left (not_lt.1 hcon) (show 0 ≤ g * (c + 1) by positivity)
    linarith
  · rw [le_div_iff₀ gp]
    linarith

/-- **C131** (spots).  A detector in the focal plane of the lens face records the ray at its origin. -/
theorem C131_spot (h : Rounds u rd) (h1 : rd 1 = 1) (hc : 1 ≤ c) (hR : R ≠ 0) (e1 : 1 + e ≠ 0) (e2 : 1 - e ≠ 0) (hg0 : 1 ≤ g)
    (hcu : (264 * c + 5200) * (c + 1) * g * u ≤ 1) (ct ct' : CoordTransform (Flt rd)) (m2 : Medium (Flt rd)) (co co' : Option (Coating (Flt rd)))
    (niter : ℕ) (ray : Ray (Flt rd)) {n2 s : ℝ} (hm : m2.getN ray.wavelength = Flt.fin rd n2) (h2 : 0 < n2) (hs0 : s ≠ 0) {r q w r' w' : V3 ℝ}
    (hr : ct.forward ray.r = r.flt rd) (hv : ct.forwardVel ray.v = (⟨0, 0, s⟩ : V3 ℝ).flt rd) (hr2 : 1 / |s| ≤ 2 * n2)
    (hμ : |1 / (n2 * |s|) - e| ≤ δ)
    (hok : (ray.refract (.quadric (Flt.fin rd R) (Flt.fin rd (-e ^ 2))) ct m2 co niter).failed = false)
    (hq : (ray.refract (.quadric (Flt.fin rd R) (Flt.fin rd (-e ^ 2))) ct m2 co niter).r = q.flt rd)
    (hw : (ray.refract (.quadric (Flt.fin rd R) (Flt.fin rd (-e ^ 2))) ct m2 co niter).v = w.flt rd)
    (ho : OffRim c (-e ^ 2) R q.x q.y) (hz : OnConic (-e ^ 2) R q.x q.y z) (hs : 0 < R * (R - (1 + -e ^ 2) * q.z))
    (hg : R ^ 2 + e ^ 2 * (q.x ^ 2 + q.y ^ 2) ≤ g ^ 2 * R ^ 2)
    (hr' : ct'.forward (q.flt rd) = r'.flt rd) (hw' : ct'.forwardVel (w.flt rd) = w'.flt rd) {a b : ℝ}
    (ha : nrm (r' - (q - ⟨0, 0, R / (1 - e)⟩)) ≤ a) (hb : nrm (w' - w) ≤ b / n2) (hw0 : w'.z ≠ 0) :
    ∃ p : V3 ℝ, ((ray.refract (.quadric (Flt.fin rd R) (Flt.fin rd (-e ^ 2))) ct m2 co niter).intersect Surface.plane ct' co' niter).r = p.flt rd ∧
      nrm p ≤ (landSlack u c (-e ^ 2) R (nrm r + nrm (q - r)) + g * ((2244 * c + 6023) * u + 6 * δ) * |R / (1 - e) - e * z| + a +
        |R / (1 - e) - e * z| * b + 5 * u * |r'.z|) * (nrm w' / |w'.z|) + u * nrm r' := by
  have m := C131_focus h h1 hc hR e1 e2 hg0 hcu ct m2 co niter ray hm h2 hs0 hr hv hr2 hμ hok hq hw ho hz hs hg
  have m' := C126_shift m ha hb
  have hu0 := h.nonneg
  have hc' : (1 : ℝ) ≤ c := by exact_mod_cast hc
  have hu : u ≤ 1 / 1000 := by
    have k : 10000 ≤ (264 * (c : ℝ) + 5200) * (c + 1) := by nlinarith
    have : 10000 * u ≤ (264 * c + 5200) * (c + 1) * g * u :=
      mul_le_mul_of_nonneg_right (k.trans (le_mul_of_one_le_right (by positivity) hg0)) hu0
    linarith
  have e0 : (⟨0, 0, R / (1 - e)⟩ - ⟨0, 0, R / (1 - e)⟩ : V3 ℝ) = ⟨0, 0, 0⟩ := by ext <;> simp
  rw [e0] at m'
  have T : |n2 * (s / |s|) * (R / (1 - e) - e * z)| * (b / n2) = |R / (1 - e) - e * z| * b := by
    rw [abs_mul, abs_mul, abs_div, abs_abs, div_self (abs_pos.2 hs0).ne', abs_of_pos h2]
    field_simp
  rw [T] at m'
  obtain ⟨p, hp, hb'⟩ := C126_spot h hu ct' co' niter (ray.refract (.quadric (Flt.fin rd R) (Flt.fin rd (-e ^ 2))) ct m2 co niter) hok
    (by rw [hq]; exact hr') (by rw [hw]; exact hw') hw0 m'
  exact ⟨p, hp, hb'⟩

end
end c131

/-- An ellipsoidal lens face in double precision, `x² + y² + z² / 2 = 6 z`, into glass whose index is the square root of two, rounded: the ray
parallel to the axis through `(3, 1)` meets the focus, up to `10⁻¹⁰`. -/
example : ∃ w : V3 ℝ, ((bareRay ⟨3, 1, 0⟩ ⟨0, 0, 1⟩).refract (.quadric (Flt.fin rd53 3) (Flt.fin rd53 (-(Real.sqrt (1 / 2)) ^ 2))) hereT
      (.const (Flt.fin rd53 (rd53 (Real.sqrt 2)))) none 0).v = w.flt rd53 ∧
    ∃ t, Arrives ⟨3, 1, 2⟩ w t ⟨0, 0, 3 / (1 - Real.sqrt (1 / 2))⟩ (1 / 10 ^ 10) := by
  have h0 := rd53_rounds.zero
  have e2 : (2 : Flt rd53) = Flt.fin rd53 2 := by exact_mod_cast lit53 (n := 2) (by norm_num)
  have e4 : (4 : Flt rd53) = Flt.fin rd53 4 := by exact_mod_cast lit53 (n := 4) (by norm_num)
  have e1 : (1 : Flt rd53) = Flt.fin rd53 1 := by exact_mod_cast lit53 (n := 1) (by norm_num)
  have i : ∀ n : ℕ, n < 10000 → rd53 (n : ℝ) = n := fun n hn => rd53_nat n (by omega)
  have j : ∀ n : ℕ, n < 10000 → rd53 (-(n : ℝ)) = -n := fun n hn => rd53_negNat n (by omega)
  have i1 := rd53_one
  have i2 : rd53 2 = 2 := by exact_mod_cast i 2 (by norm_num)
  have i3 : rd53 3 = 3 := by exact_mod_cast i 3 (by norm_num)
  have i4 : rd53 4 = 4 := by exact_mod_cast i 4 (by norm_num)
  have i6 : rd53 6 = 6 := by exact_mod_cast i 6 (by norm_num)
  have i8 : rd53 8 = 8 := by exact_mod_cast i 8 (by norm_num)
  have i9 : rd53 9 = 9 := by exact_mod_cast i 9 (by norm_num)
  have i10 : rd53 10 = 10 := by exact_mod_cast i 10 (by norm_num)
  have i18 : rd53 18 = 18 := by exact_mod_cast i 18 (by norm_num)
  have i20 : rd53 20 = 20 := by exact_mod_cast i 20 (by norm_num)
  have i36 : rd53 36 = 36 := by exact_mod_cast i 36 (by norm_num)
  have i40 : rd53 40 = 40 := by exact_mod_cast i 40 (by norm_num)
  have i64 : rd53 64 = 64 := by exact_mod_cast i 64 (by norm_num)
  have i80 : rd53 80 = 80 := by exact_mod_cast i 80 (by norm_num)
  have i144 : rd53 144 = 144 := by exact_mod_cast i 144 (by norm_num)
  have i12 : rd53 12 = 12 := by exact_mod_cast i 12 (by norm_num)
  have j6 : rd53 (-6) = -6 := by exact_mod_cast j 6 (by norm_num)
  have j12 : rd53 (-12) = -12 := by exact_mod_cast j 12 (by norm_num)
  have p2 : rd53 (1 / 2) = 1 / 2 := by have := rd53_dyadic 1 (-1) (by norm_num); norm_num at this ⊢; exact this
  have s64 : Real.sqrt 64 = 8 := by rw [show (64 : ℝ) = 8 ^ 2 by norm_num]; exact Real.sqrt_sq (by norm_num)
  obtain ⟨e, he⟩ : ∃ e, e = Real.sqrt (1 / 2) := ⟨_, rfl⟩
  have ee : e ^ 2 = 1 / 2 := by rw [he]; exact Real.sq_sqrt (by norm_num)
  have eb : 7 / 10 ≤ e ∧ e ≤ 708 / 1000 := by
    have e0 : 0 ≤ e := by rw [he]; positivity
    constructor <;> nlinarith
  have ed : e * Real.sqrt 2 = 1 := by rw [he, ← Real.sqrt_mul (by norm_num)]; norm_num
  obtain ⟨n2, hn2⟩ : ∃ n2, n2 = rd53 (Real.sqrt 2) := ⟨_, rfl⟩
  have s2 : Real.sqrt 2 = 2 * e := by nlinarith
  have nb := rd53_rounds.err (Real.sqrt 2)
  rw [s2] at nb
  rw [← he, ← hn2]
  rw [s2] at hn2
  rw [← hn2, abs_of_nonneg (show 0 ≤ 2 * e by linarith [eb.1])] at nb
  have nb' := abs_le.1 nb
  have np : 13 / 10 ≤ n2 := by norm_num [zpow_neg] at nb'; linarith [nb'.1, eb.1, eb.2]
  have ht : (Surface.quadric (Flt.fin rd53 3) (Flt.fin rd53 (-e ^ 2))).timeToIntersect (V3.flt rd53 ⟨3, 1, 0⟩) (V3.flt rd53 ⟨0, 0, 1⟩) 0 0 =
      (true, Flt.fin rd53 2) := by
    show Surface.quadricTime (Flt.fin rd53 3) (Flt.fin rd53 (-e ^ 2)) (V3.flt rd53 ⟨3, 1, 0⟩) (V3.flt rd53 ⟨0, 0, 1⟩) 0 = _
    have k2 : rd53 (-e ^ 2 + 1) = 1 / 2 := by rw [ee]; norm_num [p2]
    have n8 : (1 / 2 : ℝ) ≠ 0 := by norm_num
    simp only [Surface.quadricTime, Surface.rootPair, V3.flt, V3.map, e2, e4, e1, flt_zero rd53_rounds, Flt.mul_fin, Flt.add_fin, Flt.sub_fin,
      Flt.lt_fin, Flt.gt_fin, Flt.neg_fin, k2, Flt.div_fin n8]
    norm_num [h0, i1, i2, i3, i4, i6, i8, i9, i10, i18, i20, i36, i40, i64, i80, i144, i12, j6, j12, p2, s64, Flt.sqrt_fin, Flt.add_fin, Flt.div_fin, Flt.mul_fin,
      Flt.abs_fin, Flt.lt_fin, Flt.sub_fin]
  have f := hereT_forward 3 1 0 (by norm_num) (by norm_num) (by norm_num)
  have g := hereT_forward 0 0 1 (by norm_num) (by norm_num) (by norm_num)
  norm_num only [Int.cast_zero, Int.cast_ofNat, Int.cast_one] at f g
  have rp : V3.flt rd53 ⟨3, 1, 0⟩ + (V3.flt rd53 ⟨0, 0, 1⟩).smulR (Flt.fin rd53 2) = V3.flt rd53 ⟨3, 1, 2⟩ := by
    ext <;> simp [V3.flt, V3.map, h0, i1, i2, i3]
  have hi : ((bareRay ⟨3, 1, 0⟩ ⟨0, 0, 1⟩).intersect (.quadric (Flt.fin rd53 3) (Flt.fin rd53 (-e ^ 2))) hereT none 0) =
      { bareRay ⟨3, 1, 0⟩ ⟨0, 0, 1⟩ with r := V3.flt rd53 ⟨3, 1, 2⟩, v := V3.flt rd53 ⟨0, 0, 1⟩, t := 0 + Flt.fin rd53 2 } := by
    unfold Ray.intersect
    simp only [bareRay, f.1, g.2, ht, Bool.false_eq_true, if_false, rp]
  have ho : OffRim 2 (-e ^ 2) 3 3 1 := by unfold OffRim; rw [ee]; norm_num
  have hz : OnConic (-e ^ 2) 3 3 1 2 := by rw [ee]; exact ⟨by norm_num, by norm_num⟩
  have nz : nrm ⟨0, 0, 1⟩ = 1 := by simp [nrm, V3.normSq, V3.dot]
  obtain ⟨z', n, hz', hn⟩ := conic_exists (by norm_num) ho
  have nw := C125_quadric_normal rd53_rounds rd53_one (c := 2) (by norm_num) (by norm_num [zpow_neg]) ho hz' hn
  have inv : 1 / (n2 * 1) ≤ 8 / 10 := by rw [mul_one, div_le_iff₀ (by linarith)]; linarith
  obtain ⟨a1, a2, w, a3⟩ := C131_enters rd53_rounds (by norm_num [zpow_neg]) (C114_quadric rd53_rounds (by norm_num [zpow_neg]) (Flt.fin rd53 3) (Flt.fin rd53 (-e ^ 2)))
    (by norm_num [zpow_neg]) hereT (.const (Flt.fin rd53 n2)) none 0 (bareRay ⟨3, 1, 0⟩ ⟨0, 0, 1⟩) (n2 := n2) rfl (by linarith) g.2 (by rw [nz]; norm_num)
    (by rw [nz]; exact inv.trans (by norm_num [zpow_neg])) (by rw [hi]; rfl) (x := 3) (y := 1) (by rw [hi]; rfl) (by rw [hi]; rfl) nw
  rw [hi] at a2
  refine ⟨w, a3, _, le_trans (C131_focus (δ := 2 * 2 ^ (-53 : ℤ)) (g := 2) rd53_rounds rd53_one (c := 2) (by norm_num) (by norm_num) (by linarith [eb.1])
    (by linarith [eb.2]) (by norm_num) (by norm_num [zpow_neg]) hereT (.const (Flt.fin rd53 n2)) none 0 (bareRay ⟨3, 1, 0⟩ ⟨0, 0, 1⟩) rfl
    (by linarith) one_ne_zero f.1 g.2 (by norm_num; linarith) ?_ a1 a2 a3 ho hz (by rw [ee]; norm_num) (by rw [ee]; norm_num)) ?_⟩
  · rw [abs_one, mul_one, show 1 / n2 - e = (1 - e * n2) / n2 by field_simp, abs_div, abs_of_pos (show 0 < n2 by linarith),
      div_le_iff₀ (by linarith), show 1 - e * n2 = -(e * (n2 - 2 * e)) by linear_combination -2 * ee, abs_neg, abs_mul,
      abs_of_nonneg (show 0 ≤ e by linarith [eb.1])]
    norm_num [zpow_neg] at nb ⊢
    nlinarith [abs_nonneg (n2 - 2 * e)]
  · have S : nrm (⟨3, 1, 0⟩ : V3 ℝ) + nrm ((⟨3, 1, 2⟩ : V3 ℝ) - ⟨3, 1, 0⟩) ≤ 6 := by
      have s1 : nrm (⟨3, 1, 0⟩ : V3 ℝ) ≤ 4 := nrm_le (by norm_num) (by norm_num)
      have s2 : nrm ((⟨3, 1, 2⟩ : V3 ℝ) - ⟨3, 1, 0⟩) ≤ 2 := nrm_le (by norm_num) (by norm_num)
      linarith
    have S0 : 0 ≤ nrm (⟨3, 1, 0⟩ : V3 ℝ) + nrm ((⟨3, 1, 2⟩ : V3 ℝ) - ⟨3, 1, 0⟩) := add_nonneg (nrm_nonneg _) (nrm_nonneg _)
    generalize nrm (⟨3, 1, 0⟩ : V3 ℝ) + nrm ((⟨3, 1, 2⟩ : V3 ℝ) - ⟨3, 1, 0⟩) = s0 at *
    have L : |3 / (1 - e) - e * 2| ≤ 10 := by
      have a : 3 / (1 - e) ≤ 11 := by rw [div_le_iff₀ (by linarith [eb.2])]; linarith [eb.2]
      have b : 3 ≤ 3 / (1 - e) := by rw [le_div_iff₀ (by linarith [eb.2])]; linarith [eb.1]
      exact abs_le.2 ⟨by linarith [eb.1, eb.2], by linarith [eb.1, eb.2]⟩
    have S2 : s0 ^ 2 ≤ 36 := (pow_le_pow_left₀ S0 S 2).trans (by norm_num)
    clear * - L S2 ee
    simp only [landSlack, ee]
    generalize |3 / (1 - e) - e * 2| = l at *
    norm_num [zpow_neg, abs_of_pos] at L S2 ⊢
    linarith
end Batoid.Props
