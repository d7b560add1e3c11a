import Verif.Props.Launch
import Mathlib.Analysis.SpecialFunctions.PolarCoord
import Mathlib.Analysis.SpecialFunctions.Integrals.Basic
import Mathlib.Algebra.Polynomial.Eval.Defs
import Mathlib.Algebra.Polynomial.Degree.Lemmas
import Mathlib.Algebra.MvPolynomial.Degrees
import Mathlib.Algebra.Algebra.Operations
import Mathlib.RingTheory.RootsOfUnity.Complex
import Mathlib.MeasureTheory.Integral.Prod
import Mathlib.MeasureTheory.Integral.IntervalIntegral.Periodic

/-!
# Property C85: quadrature spokes integrate polynomials over the pupil
-/

namespace Batoid.Props
open Batoid Batoid.Construct Batoid.Numpy MeasureTheory

/-! ## Specification -/

/-- What `np.polynomial.legendre.leggauss(k)` promises: the weighted sum over the nodes is the integral over [-1, 1] for all
polynomials of degree less than `2k`. -/
def GaussRule (k : ℕ) (nodes weights : List ℝ) : Prop :=
  nodes.length = k ∧ weights.length = k ∧ (∀ t ∈ nodes, -1 ≤ t ∧ t ≤ 1) ∧
    ∀ p : Polynomial ℝ, p.natDegree < 2 * k → (List.zipWith (fun w t => w * p.eval t) weights nodes).sum = ∫ t in (-1 : ℝ)..1, p.eval t

/-- The pupil, scaled to outer radius one: all of the disk but a central hole of radius `eps`. -/
def pupilDisk (eps : ℝ) : Set (ℝ × ℝ) := {q | eps ^ 2 ≤ q.1 ^ 2 + q.2 ^ 2 ∧ q.1 ^ 2 + q.2 ^ 2 ≤ 1}

/-! ## Azimuths -/

/-- Trigonometric polynomials of degree at most `d`. -/
noncomputable def trig (d : ℕ) : Submodule ℂ (ℝ → ℂ) :=
  Submodule.span ℂ ((fun (j : ℤ) (t : ℝ) => Complex.exp (j * t * Complex.I)) '' {j | |j| ≤ d})

theorem trig_mul {a b : ℕ} {f g : ℝ → ℂ} (hf : f ∈ trig a) (hg : g ∈ trig b) : f * g ∈ trig (a + b) := by
  have h := Submodule.mul_mem_mul hf hg
  unfold trig at h
  rw [Submodule.span_mul_span] at h
  refine Submodule.span_mono ?_ h
  rintro _ ⟨_, ⟨i, hi, rfl⟩, _, ⟨j, hj, rfl⟩, rfl⟩
  refine ⟨i + j, ?_, ?_⟩
  · have := abs_add_le i j
    simp only [Set.mem_setOf_eq] at hi hj ⊢
    push_cast
    omega
  · funext t
    simp only [Pi.mul_apply]
    rw [← Complex.exp_add]
    congr 1
    push_cast
    ring

theorem trig_one : (1 : ℝ → ℂ) ∈ trig 0 :=
  Submodule.subset_span ⟨0, by simp, by funext t; simp⟩

theorem trig_pow {f : ℝ → ℂ} (hf : f ∈ trig 1) (a : ℕ) : f ^ a ∈ trig a := by
  induction a with
  | zero => exact trig_one
  | succ a ih => rw [pow_succ]; exact trig_mul ih hf

theorem trig_cos : (fun t : ℝ => ((Real.cos t : ℝ) : ℂ)) ∈ trig 1 := by
  have h1 : (fun t : ℝ => Complex.exp (((1 : ℤ) : ℂ) * t * Complex.I)) ∈ trig 1 := Submodule.subset_span ⟨1, by simp, rfl⟩
  have h2 : (fun t : ℝ => Complex.exp (((-1 : ℤ) : ℂ) * t * Complex.I)) ∈ trig 1 := Submodule.subset_span ⟨-1, by simp, rfl⟩
  have := Submodule.smul_mem _ (1 / 2 : ℂ) (Submodule.add_mem _ h1 h2)
  convert this using 1
  funext t
  simp only [Pi.smul_apply, Pi.add_apply, smul_eq_mul, Complex.ofReal_cos, Complex.cos]
  push_cast
  rw [one_mul]
  ring_nf

theorem trig_sin : (fun t : ℝ => ((Real.sin t : ℝ) : ℂ)) ∈ trig 1 := by
  have h1 : (fun t : ℝ => Complex.exp (((1 : ℤ) : ℂ) * t * Complex.I)) ∈ trig 1 := Submodule.subset_span ⟨1, by simp, rfl⟩
  have h2 : (fun t : ℝ => Complex.exp (((-1 : ℤ) : ℂ) * t * Complex.I)) ∈ trig 1 := Submodule.subset_span ⟨-1, by simp, rfl⟩
  have := Submodule.smul_mem _ (Complex.I / 2 : ℂ) (Submodule.sub_mem _ h2 h1)
  convert this using 1
  funext t
  simp only [Pi.smul_apply, Pi.sub_apply, smul_eq_mul, Complex.ofReal_sin, Complex.sin]
  push_cast
  rw [one_mul]
  ring_nf

theorem trig_continuous {d : ℕ} {f : ℝ → ℂ} (hf : f ∈ trig d) : Continuous f := by
  refine Submodule.span_induction (p := fun f _ => Continuous f) ?_ continuous_const (fun _ _ _ _ h1 h2 => h1.add h2)
    (fun c _ _ h => h.const_smul c) hf
  rintro _ ⟨j, _, rfl⟩
  fun_prop

/-- The mean over equally spaced azimuths is the mean over the circle, for degrees less than the number of azimuths. -/
theorem trig_mean {d m : ℕ} (hdm : d < m) {f : ℝ → ℂ} (hf : f ∈ trig d) :
    (∑ s ∈ Finset.range m, f (2 * Real.pi * s / m)) / m = (∫ t in -Real.pi..Real.pi, f t) / (2 * Real.pi) := by
  have hm : (m : ℂ) ≠ 0 := by exact_mod_cast (by omega : m ≠ 0)
  have hpi : (2 * Real.pi : ℂ) ≠ 0 := by
    exact_mod_cast (by positivity : (2 * Real.pi) ≠ 0)
  refine Submodule.span_induction (p := fun (f : ℝ → ℂ) _ => (∑ s ∈ Finset.range m, f (2 * Real.pi * s / m)) / m =
    (∫ t in -Real.pi..Real.pi, f t) / (2 * Real.pi)) ?_ (by simp) ?_ ?_ hf
  · rintro _ ⟨j, hj, rfl⟩
    simp only [Set.mem_setOf_eq] at hj
    by_cases h0 : j = 0
    · subst h0
      simp [div_self hm]
      field_simp
      ring
    · have hz : ∑ s ∈ Finset.range m, Complex.exp (j * ((2 * Real.pi * s / m : ℝ) : ℂ) * Complex.I) = 0 := by
        have hp := Complex.isPrimitiveRoot_exp m (by omega)
        have hne : Complex.exp (2 * Real.pi * Complex.I / m) ^ j ≠ 1 := by
          intro h
          have := (hp.zpow_eq_one_iff_dvd j).1 h
          have := Int.le_of_dvd (by positivity : (0 : ℤ) < |j|) ((dvd_abs _ _).2 this)
          omega
        have e : ∀ s ∈ Finset.range m, Complex.exp (j * ((2 * Real.pi * s / m : ℝ) : ℂ) * Complex.I) =
            (Complex.exp (2 * Real.pi * Complex.I / m) ^ j) ^ s := by
          intro s _
          rw [← Complex.exp_int_mul, ← Complex.exp_nat_mul]
          congr 1
          push_cast
          ring
        rw [Finset.sum_congr rfl e, geom_sum_eq hne]
        have : (Complex.exp (2 * Real.pi * Complex.I / m) ^ j) ^ m = 1 := by
          rw [← zpow_natCast, ← zpow_mul, mul_comm j, zpow_mul, zpow_natCast, hp.pow_eq_one, one_zpow]
        rw [this, sub_self, zero_div]
      have hi : ∫ t in -Real.pi..Real.pi, Complex.exp (j * (t : ℂ) * Complex.I) = 0 := by
        have hc : (j : ℂ) * Complex.I ≠ 0 := mul_ne_zero (by exact_mod_cast h0) Complex.I_ne_zero
        have : (fun t : ℝ => Complex.exp (j * (t : ℂ) * Complex.I)) = fun t : ℝ => Complex.exp ((j * Complex.I) * t) := by
          funext t; ring_nf
        rw [this, integral_exp_mul_complex hc]
        have : Complex.exp (j * Complex.I * Real.pi) = Complex.exp (j * Complex.I * (-Real.pi : ℝ)) := by
          rw [Complex.exp_eq_exp_iff_exists_int]
          exact ⟨j, by push_cast; ring⟩
        rw [this, sub_self, zero_div]
      rw [hz, hi]
      simp
  · intro f g hf hg h1 h2
    simp only [Pi.add_apply]
    rw [Finset.sum_add_distrib, add_div, h1, h2, intervalIntegral.integral_add ((trig_continuous hf).intervalIntegrable _ _)
      ((trig_continuous hg).intervalIntegrable _ _), add_div]
  · intro c f hf h
    simp only [Pi.smul_apply, smul_eq_mul]
    rw [← Finset.mul_sum, mul_div_assoc, h, intervalIntegral.integral_const_mul, mul_div_assoc]

/-- The same for products of powers of cosine and sine. -/
theorem circle_mean {a b m : ℕ} (h : a + b < m) :
    (∑ s ∈ Finset.range m, Real.cos (2 * Real.pi * s / m) ^ a * Real.sin (2 * Real.pi * s / m) ^ b) / m =
      (∫ t in -Real.pi..Real.pi, Real.cos t ^ a * Real.sin t ^ b) / (2 * Real.pi) := by
  have h1 := trig_mean h (trig_mul (trig_pow trig_cos a) (trig_pow trig_sin b))
  have e : ((fun t : ℝ => ((Real.cos t : ℝ) : ℂ)) ^ a * (fun t : ℝ => ((Real.sin t : ℝ) : ℂ)) ^ b) =
      fun t : ℝ => ((Real.cos t ^ a * Real.sin t ^ b : ℝ) : ℂ) := by
    funext t; simp
  rw [e, intervalIntegral.integral_ofReal] at h1
  simp only at h1
  exact_mod_cast h1

/-- Odd powers cancel. -/
theorem circle_odd {a b : ℕ} (h : Odd (a + b)) : ∫ t in -Real.pi..Real.pi, Real.cos t ^ a * Real.sin t ^ b = 0 := by
  have hper : Function.Periodic (fun t : ℝ => Real.cos t ^ a * Real.sin t ^ b) (2 * Real.pi) := by
    intro t; simp
  have h1 := hper.intervalIntegral_add_eq (-Real.pi) 0
  have h2 : ∫ t in (-Real.pi)..Real.pi, Real.cos (t + Real.pi) ^ a * Real.sin (t + Real.pi) ^ b =
      ∫ t in (0 : ℝ)..(2 * Real.pi), Real.cos t ^ a * Real.sin t ^ b := by
    rw [intervalIntegral.integral_comp_add_right (fun t => Real.cos t ^ a * Real.sin t ^ b)]
    congr 1 <;> ring
  have h3 : ∀ t : ℝ, Real.cos (t + Real.pi) ^ a * Real.sin (t + Real.pi) ^ b = -(Real.cos t ^ a * Real.sin t ^ b) := by
    intro t
    rw [Real.cos_add_pi, Real.sin_add_pi, neg_pow (Real.cos t), neg_pow (Real.sin t)]
    have : (-1 : ℝ) ^ a * (-1) ^ b = -1 := by rw [← pow_add, h.neg_one_pow]
    linear_combination (Real.cos t ^ a * Real.sin t ^ b) * this
  simp only [h3] at h2
  rw [intervalIntegral.integral_neg] at h2
  have e1 : (-Real.pi + 2 * Real.pi) = Real.pi := by ring
  rw [e1, zero_add] at h1
  linarith

/-! ## Radii -/

theorem zipWith_mul_const (c : ℝ) (ws ts : List ℝ) (f : ℝ → ℝ) :
    (List.zipWith (fun w t => w * c * f t) ws ts).sum = c * (List.zipWith (fun w t => w * f t) ws ts).sum := by
  induction ws generalizing ts with
  | nil => simp
  | cons w ws ih =>
    cases ts with
    | nil => simp
    | cons t ts => simp only [List.zipWith_cons_cons, List.sum_cons, ih, mul_add]; ring

/-- The radii integrate even powers over the annulus. -/
theorem radial_rule {k : ℕ} {nodes weights : List ℝ} (h : GaussRule k nodes weights) {eps : ℝ} (h0 : 0 ≤ eps) {q : ℕ} (hq : q < 2 * k) :
    (1 - eps ^ 2) / 2 * (List.zipWith (fun w t => w * (eps ^ 2 + (1 + t) * (1 - eps ^ 2) / 2) ^ q) weights nodes).sum =
      2 * ∫ r in eps..1, r * r ^ (2 * q) := by
  obtain ⟨_, _, _, h4⟩ := h
  set p : Polynomial ℝ := (Polynomial.C ((1 - eps ^ 2) / 2) * Polynomial.X + Polynomial.C (eps ^ 2 + (1 - eps ^ 2) / 2)) ^ q with hp
  have hdeg : p.natDegree < 2 * k := by
    refine lt_of_le_of_lt (Polynomial.natDegree_pow_le.trans ?_) hq
    exact (Nat.mul_le_mul_left q Polynomial.natDegree_linear_le).trans (by omega)
  have he : ∀ t : ℝ, p.eval t = (eps ^ 2 + (1 + t) * (1 - eps ^ 2) / 2) ^ q := by
    intro t
    rw [hp]
    simp only [Polynomial.eval_pow, Polynomial.eval_add, Polynomial.eval_mul, Polynomial.eval_C, Polynomial.eval_X]
    congr 1
    ring
  have h5 := h4 p hdeg
  simp only [he] at h5
  rw [h5]
  have h6 : ∀ t : ℝ, (eps ^ 2 + (1 + t) * (1 - eps ^ 2) / 2) ^ q = (fun s : ℝ => s ^ q) ((1 - eps ^ 2) / 2 * t + (eps ^ 2 + (1 - eps ^ 2) / 2)) := by
    intro t; simp only; congr 1; ring
  simp only [h6]
  rw [← smul_eq_mul ((1 - eps ^ 2) / 2), intervalIntegral.smul_integral_comp_mul_add (fun s : ℝ => s ^ q)]
  have h7 : ∀ r : ℝ, r * r ^ (2 * q) = r ^ (2 * q + 1) := by intro r; rw [pow_succ]; ring
  simp only [h7]
  rw [integral_pow, integral_pow]
  have e1 : (1 - eps ^ 2) / 2 * 1 + (eps ^ 2 + (1 - eps ^ 2) / 2) = 1 := by ring
  have e2 : (1 - eps ^ 2) / 2 * -1 + (eps ^ 2 + (1 - eps ^ 2) / 2) = eps ^ 2 := by ring
  rw [e1, e2, one_pow, one_pow, ← pow_mul]
  have hq0 : ((q : ℝ) + 1) ≠ 0 := by positivity
  push_cast
  field_simp
  ring

/-! ## The integral over the pupil -/

theorem pupil_monomial {eps : ℝ} (h0 : 0 ≤ eps) (h1 : eps ≤ 1) (a b : ℕ) :
    ∫ q in pupilDisk eps, q.1 ^ a * q.2 ^ b = (∫ r in eps..1, r * r ^ (a + b)) * ∫ t in -Real.pi..Real.pi, Real.cos t ^ a * Real.sin t ^ b := by
  have hmeas : MeasurableSet (pupilDisk eps) := by
    unfold pupilDisk
    apply MeasurableSet.inter
    · exact measurableSet_le (f := fun _ => eps ^ 2) (g := fun q : ℝ × ℝ => q.1 ^ 2 + q.2 ^ 2) measurable_const (by fun_prop)
    · exact measurableSet_le (f := fun q : ℝ × ℝ => q.1 ^ 2 + q.2 ^ 2) (g := fun _ => (1 : ℝ)) (by fun_prop) measurable_const
  rw [← integral_indicator hmeas, ← integral_comp_polarCoord_symm]
  have htm : MeasurableSet (Set.Icc eps 1 ×ˢ Set.Ioo (-Real.pi) Real.pi) := measurableSet_Icc.prod measurableSet_Ioo
  have e : ∀ p ∈ polarCoord.target, p.1 • (pupilDisk eps).indicator (fun q : ℝ × ℝ => q.1 ^ a * q.2 ^ b) (polarCoord.symm p) =
      (Set.Icc eps 1 ×ˢ Set.Ioo (-Real.pi) Real.pi).indicator (fun p : ℝ × ℝ => (p.1 * p.1 ^ (a + b)) * (Real.cos p.2 ^ a * Real.sin p.2 ^ b)) p := by
    rintro ⟨r, t⟩ hp
    rw [polarCoord_target] at hp
    obtain ⟨hr, ht⟩ := hp
    simp only [Set.mem_Ioi] at hr
    have hsum : (r * Real.cos t) ^ 2 + (r * Real.sin t) ^ 2 = r ^ 2 := by
      have := Real.sin_sq_add_cos_sq t
      linear_combination r ^ 2 * this
    have hiff : polarCoord.symm (r, t) ∈ pupilDisk eps ↔ (r, t) ∈ Set.Icc eps 1 ×ˢ Set.Ioo (-Real.pi) Real.pi := by
      rw [polarCoord_symm_apply]
      simp only [pupilDisk, Set.mem_setOf_eq, hsum, Set.mem_prod, Set.mem_Icc]
      constructor
      · rintro ⟨h2, h3⟩
        exact ⟨⟨by nlinarith, by nlinarith⟩, ht⟩
      · rintro ⟨⟨h2, h3⟩, _⟩
        exact ⟨by nlinarith, by nlinarith⟩
    by_cases hin : polarCoord.symm (r, t) ∈ pupilDisk eps
    · rw [Set.indicator_of_mem hin, Set.indicator_of_mem (hiff.1 hin), polarCoord_symm_apply]
      simp only [smul_eq_mul]
      rw [mul_pow, mul_pow, pow_add]
      ring
    · rw [Set.indicator_of_notMem hin, Set.indicator_of_notMem (fun h => hin (hiff.2 h)), smul_zero]
  rw [setIntegral_congr_fun polarCoord.open_target.measurableSet e, integral_indicator htm, Measure.restrict_restrict htm]
  have hset : (Set.Icc eps 1 ×ˢ Set.Ioo (-Real.pi) Real.pi) ∩ polarCoord.target = (Set.Icc eps 1 ∩ Set.Ioi 0) ×ˢ Set.Ioo (-Real.pi) Real.pi := by
    rw [polarCoord_target, Set.prod_inter_prod, Set.inter_self]
  rw [hset, Measure.volume_eq_prod, setIntegral_prod_mul (fun r : ℝ => r * r ^ (a + b)) (fun t : ℝ => Real.cos t ^ a * Real.sin t ^ b)]
  congr 1
  · rw [intervalIntegral.integral_of_le h1]
    apply setIntegral_congr_set
    by_cases he : eps = 0
    · subst he
      have : Set.Icc (0 : ℝ) 1 ∩ Set.Ioi 0 = Set.Ioc 0 1 := by
        ext x; simp only [Set.mem_inter_iff, Set.mem_Icc, Set.mem_Ioi, Set.mem_Ioc]
        exact ⟨fun h => ⟨h.2, h.1.2⟩, fun h => ⟨⟨h.1.le, h.2⟩, h.1⟩⟩
      rw [this]
      exact Filter.EventuallyEq.rfl
    · have hpos : 0 < eps := lt_of_le_of_ne h0 (Ne.symm he)
      have : Set.Icc eps 1 ∩ Set.Ioi 0 = Set.Icc eps 1 := by
        apply Set.inter_eq_left.2
        intro x hx
        exact lt_of_lt_of_le hpos hx.1
      rw [this]
      exact Ioc_ae_eq_Icc.symm
  · rw [intervalIntegral.integral_of_le (by linarith [Real.pi_pos])]
    exact setIntegral_congr_set Ioo_ae_eq_Ioc

/-! ## The rays -/

theorem flatten_zip_sum (f : ℝ → ℝ × ℝ → ℝ) (ws : List ℝ) (g : ℝ → List (ℝ × ℝ)) (hg : ∀ t, (g t).length = ws.length) (azimuths : List ℝ) :
    (List.zipWith f (List.replicate azimuths.length ws).flatten (azimuths.flatMap g)).sum =
      (azimuths.map fun t => (List.zipWith f ws (g t)).sum).sum := by
  induction azimuths with
  | nil => simp
  | cons t ts ih =>
    rw [List.length_cons, List.replicate_succ, List.flatten_cons, List.flatMap_cons, List.zipWith_append (by rw [hg]), List.sum_append,
      ih, List.map_cons, List.sum_cons]

theorem zip_sum_congr {f g : ℝ → ℝ} {ws ts : List ℝ} (h : ∀ t ∈ ts, f t = g t) :
    (List.zipWith (fun w t => w * f t) ws ts).sum = (List.zipWith (fun w t => w * g t) ws ts).sum := by
  induction ws generalizing ts with
  | nil => simp
  | cons w ws ih =>
    cases ts with
    | nil => simp
    | cons t ts =>
      simp only [List.zipWith_cons_cons, List.sum_cons]
      rw [h t (by simp), ih fun t ht => h t (by simp [ht])]

/-- The weighted sum over all spokes, for one monomial. -/
theorem spokes_monomial {k m : ℕ} {nodes weights : List ℝ} (h : GaussRule k nodes weights) {eps : ℝ} (h0 : 0 ≤ eps) (h1 : eps ≤ 1)
    {a b : ℕ} (hm : a + b < m) (hk : a + b < 4 * k) :
    (List.zipWith (fun (f : ℝ) (q : ℝ × ℝ) => f * (q.1 ^ a * q.2 ^ b))
      (List.replicate m (weights.map fun x => x * (Real.pi * (1 - eps * eps)) / (2 * m))).flatten
      (spokesSpec (nodes.map fun t => Real.sqrt (eps * eps + (1 + t) * (1 - eps * eps) / 2)) (equalAzimuths m))).sum =
    ∫ q in pupilDisk eps, q.1 ^ a * q.2 ^ b := by
  have hl : (equalAzimuths m).length = m := by simp [equalAzimuths]
  have hmr : (m : ℝ) ≠ 0 := by exact_mod_cast (by omega : m ≠ 0)
  have hfl := flatten_zip_sum (fun (f : ℝ) (q : ℝ × ℝ) => f * (q.1 ^ a * q.2 ^ b))
    (weights.map fun x => x * (Real.pi * (1 - eps * eps)) / (2 * m))
    (fun t => (nodes.map fun t => Real.sqrt (eps * eps + (1 + t) * (1 - eps * eps) / 2)).map fun r => (r * Real.cos t, r * Real.sin t))
    (by intro t; simp [h.1, h.2.1]) (equalAzimuths m)
  rw [hl] at hfl
  unfold spokesSpec
  rw [hfl]
  set R : ℝ := (List.zipWith (fun w t => w * Real.sqrt (eps * eps + (1 + t) * (1 - eps * eps) / 2) ^ (a + b)) weights nodes).sum with hR
  have inner : ∀ θ : ℝ, (List.zipWith (fun (f : ℝ) (q : ℝ × ℝ) => f * (q.1 ^ a * q.2 ^ b))
      (weights.map fun x => x * (Real.pi * (1 - eps * eps)) / (2 * m))
      ((nodes.map fun t => Real.sqrt (eps * eps + (1 + t) * (1 - eps * eps) / 2)).map fun r => (r * Real.cos θ, r * Real.sin θ))).sum =
      (Real.cos θ ^ a * Real.sin θ ^ b) * ((Real.pi * (1 - eps * eps)) / (2 * m) * R) := by
    intro θ
    rw [List.zipWith_map, List.zipWith_map_right, hR, ← mul_assoc, ← zipWith_mul_const]
    congr 2
    funext w t
    simp only
    rw [mul_pow, mul_pow, pow_add]
    ring
  rw [List.map_congr_left (fun t _ => inner t), List.sum_map_mul_right]
  have hc : ((equalAzimuths m).map fun t => Real.cos t ^ a * Real.sin t ^ b).sum =
      ∑ s ∈ Finset.range m, Real.cos (2 * Real.pi * s / m) ^ a * Real.sin (2 * Real.pi * s / m) ^ b := by
    unfold equalAzimuths
    rw [List.map_map]
    rfl
  have hcm := circle_mean hm
  rw [hc, pupil_monomial h0 h1]
  have hpi := Real.pi_pos.ne'
  rw [div_eq_iff hmr] at hcm
  rw [hcm]
  rcases Nat.even_or_odd (a + b) with he | ho
  · obtain ⟨q, hq⟩ := he
    have hr := radial_rule h h0 (q := q) (by omega)
    have hR2 : R = (List.zipWith (fun w t => w * (eps ^ 2 + (1 + t) * (1 - eps ^ 2) / 2) ^ q) weights nodes).sum := by
      rw [hR]
      refine zip_sum_congr fun t ht => ?_
      have ht1 := (h.2.2.1 t ht).1
      have hnn : 0 ≤ eps * eps + (1 + t) * (1 - eps * eps) / 2 := by
        have : 0 ≤ (1 + t) * (1 - eps * eps) := mul_nonneg (by linarith) (by nlinarith)
        have := mul_self_nonneg eps
        linarith
      rw [hq, ← two_mul, pow_mul, Real.sq_sqrt hnn, ← sq]
    rw [← hR2] at hr
    have e : a + b = 2 * q := by omega
    rw [e]
    have e2 : ∀ x : ℝ, x / (2 * Real.pi) * m * (Real.pi * (1 - eps * eps) / (2 * m) * R) = x / 2 * ((1 - eps ^ 2) / 2 * R) := by
      intro x; field_simp
    rw [e2, hr]
    ring
  · rw [circle_odd ho]; simp

/-- The value of a polynomial in two unknowns. -/
noncomputable def polyAt (P : MvPolynomial (Fin 2) ℝ) (q : ℝ × ℝ) : ℝ := MvPolynomial.eval ![q.1, q.2] P

theorem zip_sum_finset {ι : Type} (S : Finset ι) (c : ι → ℝ) (g : ι → ℝ × ℝ → ℝ) (fs : List ℝ) (qs : List (ℝ × ℝ)) :
    (List.zipWith (fun f q => f * ∑ d ∈ S, c d * g d q) fs qs).sum = ∑ d ∈ S, c d * (List.zipWith (fun f q => f * g d q) fs qs).sum := by
  induction fs generalizing qs with
  | nil => simp
  | cons f fs ih =>
    cases qs with
    | nil => simp
    | cons q qs =>
      simp only [List.zipWith_cons_cons, List.sum_cons]
      rw [ih, Finset.mul_sum, ← Finset.sum_add_distrib]
      refine Finset.sum_congr rfl fun d _ => ?_
      ring

/-- The weighted sum over all spokes, for a polynomial. -/
theorem spokes_polynomial {k m : ℕ} {nodes weights : List ℝ} (h : GaussRule k nodes weights) {eps : ℝ} (h0 : 0 ≤ eps) (h1 : eps ≤ 1)
    (P : MvPolynomial (Fin 2) ℝ) (hm : P.totalDegree < m) (hk : P.totalDegree < 4 * k) :
    (List.zipWith (fun (f : ℝ) (q : ℝ × ℝ) => f * polyAt P q)
      (List.replicate m (weights.map fun x => x * (Real.pi * (1 - eps * eps)) / (2 * m))).flatten
      (spokesSpec (nodes.map fun t => Real.sqrt (eps * eps + (1 + t) * (1 - eps * eps) / 2)) (equalAzimuths m))).sum =
    ∫ q in pupilDisk eps, polyAt P q := by
  have he : ∀ q : ℝ × ℝ, polyAt P q = ∑ d ∈ P.support, P.coeff d * (q.1 ^ d 0 * q.2 ^ d 1) := by
    intro q
    unfold polyAt
    rw [MvPolynomial.eval_eq']
    simp [Fin.prod_univ_two]
  simp only [he]
  have hint : ∀ d ∈ P.support, Integrable (fun q : ℝ × ℝ => P.coeff d * (q.1 ^ d 0 * q.2 ^ d 1)) (volume.restrict (pupilDisk eps)) := by
    intro d _
    refine IntegrableOn.mono_set (t := Set.Icc ((-1 : ℝ), (-1 : ℝ)) (1, 1)) (Continuous.integrableOn_Icc (by fun_prop)) ?_
    rintro ⟨x, y⟩ ⟨_, hq⟩
    simp only at hq
    exact ⟨⟨by nlinarith [sq_nonneg y], by nlinarith [sq_nonneg x]⟩, ⟨by nlinarith [sq_nonneg y], by nlinarith [sq_nonneg x]⟩⟩
  rw [integral_finset_sum _ hint, zip_sum_finset]
  refine Finset.sum_congr rfl fun d hd => ?_
  have hdeg : d 0 + d 1 ≤ P.totalDegree := by
    have := MvPolynomial.le_totalDegree hd
    rw [Finsupp.sum_fintype _ _ (by simp), Fin.sum_univ_two] at this
    exact this
  rw [integral_const_mul, ← spokes_monomial h h0 h1 (a := d 0) (b := d 1) (m := m) (by omega) (by omega)]

variable {a : Args Dbl} {surf : Surface Dbl} {stop cs : CoordSys ℝ} {n w back : ℝ} {d : V3 ℝ}

/-- **C85**: the rays of `asSpokes` with `spacing="GQ"` integrate polynomials over the pupil: the rays pierce the stop surface at
points such that, for all polynomials of degree less than four times the number of rings and less than the number of spokes, the
flux-weighted sum over the rays is the integral over the annulus (scaled to outer radius one). -/
theorem C85_quadrature (h : LegalCall a surf stop cs n w back d) (lg : ℤ → Except PyErr (List Dbl × List Dbl))
    (outer inner flux : ℝ) (ho : 0 < outer) (hi : 0 ≤ inner) (hio : inner ≤ outer)
    {k m : ℕ} (hm : 0 < m) (spokes : Option (Count Dbl)) (hsp : spokes = some (.num (m : ℤ)) ∨ (spokes = none ∧ m = 2 * k + 1))
    (nodes weights : List ℝ) (hg : GaussRule k nodes weights)
    (hlg : lg (k : ℤ) = .ok (nodes.map Dbl.fin, weights.map Dbl.fin))
    (hs : OnSurface surf (spokesSpec (nodes.map (quadRadius inner outer)) (equalAzimuths m))) :
    ∃ rv pts fluxes, asSpokes lg a (some (Dbl.fin outer)) (Dbl.fin inner) spokes (some (.num (k : ℤ))) "GQ" (Dbl.fin flux) = .ok (some rv) ∧
      PlaneWave surf stop cs n w back d pts fluxes rv ∧ pts.length = m * k ∧ fluxes.length = m * k ∧
      ∀ P : MvPolynomial (Fin 2) ℝ, P.totalDegree < 4 * k → P.totalDegree < m →
        (List.zipWith (fun f q => f * polyAt P (q.1 / outer, q.2 / outer)) fluxes pts).sum = ∫ q in pupilDisk (inner / outer), polyAt P q := by
  obtain ⟨rv, h1, h2⟩ := C45_quadrature_partial h lg outer inner flux ho hi hio hm spokes hsp nodes weights hg.1 hg.2.1 hlg hg.2.2.1 hs
  refine ⟨rv, _, _, h1, h2, ?_, ?_, fun P hk hm' => ?_⟩
  · simp [spokesSpec, equalAzimuths, hg.1, Function.comp_def]
  · simp [hg.2.1]
  · have h0 : 0 ≤ inner / outer := by positivity
    have h1 : inner / outer ≤ 1 := (div_le_one ho).2 hio
    rw [← spokes_polynomial hg h0 h1 P hm' hk]
    have e : spokesSpec (nodes.map (quadRadius inner outer)) (equalAzimuths m) =
        (spokesSpec (nodes.map fun t => Real.sqrt (inner / outer * (inner / outer) + (1 + t) * (1 - inner / outer * (inner / outer)) / 2))
          (equalAzimuths m)).map fun q => (q.1 * outer, q.2 * outer) := by
      unfold spokesSpec
      rw [List.map_flatMap]
      congr 1
      funext t
      rw [List.map_map, List.map_map, List.map_map]
      refine List.map_congr_left fun x _ => ?_
      simp only [Function.comp, quadRadius]
      ring_nf
    rw [e, List.zipWith_map_right]
    simp only [mul_div_cancel_right₀ _ ho.ne']

/-- The two-point rule. -/
theorem gaussRule_two : GaussRule 2 [-Real.sqrt (1 / 3), Real.sqrt (1 / 3)] [1, 1] := by
  have hs : Real.sqrt (1 / 3) ^ 2 = 1 / 3 := Real.sq_sqrt (by norm_num)
  have h0 := Real.sqrt_nonneg (1 / 3)
  refine ⟨rfl, rfl, ?_, fun p hp => ?_⟩
  · intro t ht
    simp only [List.mem_cons, List.not_mem_nil, or_false] at ht
    rcases ht with rfl | rfl <;> constructor <;> nlinarith
  · have he : ∀ t, p.eval t = p.coeff 0 + p.coeff 1 * t + p.coeff 2 * t ^ 2 + p.coeff 3 * t ^ 3 := by
      intro t
      rw [Polynomial.eval_eq_sum_range' (n := 4) (by omega)]
      simp [Finset.sum_range_succ]
    simp only [he]
    have hc : ∀ c : ℝ, IntervalIntegrable (fun _ : ℝ => c) volume (-1) 1 := fun c => continuous_const.intervalIntegrable _ _
    have hi : ∫ t in (-1 : ℝ)..1, p.coeff 0 + p.coeff 1 * t + p.coeff 2 * t ^ 2 + p.coeff 3 * t ^ 3 =
        2 * p.coeff 0 + 2 / 3 * p.coeff 2 := by
      rw [intervalIntegral.integral_add (Continuous.intervalIntegrable (by fun_prop) _ _) (Continuous.intervalIntegrable (by fun_prop) _ _),
        intervalIntegral.integral_add (Continuous.intervalIntegrable (by fun_prop) _ _) (Continuous.intervalIntegrable (by fun_prop) _ _),
        intervalIntegral.integral_add (Continuous.intervalIntegrable (by fun_prop) _ _) (Continuous.intervalIntegrable (by fun_prop) _ _)]
      simp only [intervalIntegral.integral_const_mul, intervalIntegral.integral_const, integral_pow, integral_id, smul_eq_mul]
      rw [intervalIntegral.integral_const_mul, integral_id]
      norm_num
      ring
    rw [hi]
    simp only [List.zipWith_cons_cons, List.zipWith_nil_left, List.sum_cons, List.sum_nil]
    linear_combination 2 * p.coeff 2 * hs

/-- The hypotheses can be met: two rings, the default number of spokes, an annulus, and a polynomial of degree four. -/
example : ∃ rv pts fluxes, asSpokes (fun _ => .ok ([-Real.sqrt (1 / 3), Real.sqrt (1 / 3)].map Dbl.fin, [1, 1].map Dbl.fin)) straightArgs
      (some (Dbl.fin 4)) (Dbl.fin 2) none (some (.num (2 : ℕ))) "GQ" (Dbl.fin 1) = .ok (some rv) ∧
    PlaneWave Surface.plane globalFrame globalFrame 1 1 40 ⟨0, 0, -1⟩ pts fluxes rv ∧ pts.length = 10 ∧
    (List.zipWith (fun f q => f * polyAt (MvPolynomial.X 0 ^ 2 * MvPolynomial.X 1 ^ 2) (q.1 / 4, q.2 / 4)) fluxes pts).sum =
      ∫ q in pupilDisk (2 / 4), polyAt (MvPolynomial.X 0 ^ 2 * MvPolynomial.X 1 ^ 2) q := by
  obtain ⟨rv, pts, fl, h1, h2, h3, -, h5⟩ := C85_quadrature straight_legal
    (fun _ => .ok ([-Real.sqrt (1 / 3), Real.sqrt (1 / 3)].map Dbl.fin, [1, 1].map Dbl.fin)) 4 2 1 (by norm_num) (by norm_num) (by norm_num)
    (k := 2) (m := 5) (by norm_num) none (Or.inr ⟨rfl, rfl⟩) _ _ gaussRule_two rfl (plane_onSurface _)
  have hd : (MvPolynomial.X 0 ^ 2 * MvPolynomial.X 1 ^ 2 : MvPolynomial (Fin 2) ℝ).totalDegree ≤ 4 := by
    refine (MvPolynomial.totalDegree_mul _ _).trans ?_
    have := MvPolynomial.totalDegree_pow (MvPolynomial.X 0 : MvPolynomial (Fin 2) ℝ) 2
    have := MvPolynomial.totalDegree_pow (MvPolynomial.X 1 : MvPolynomial (Fin 2) ℝ) 2
    simp only [MvPolynomial.totalDegree_X] at *
    omega
  exact ⟨rv, pts, fl, h1, h2, h3, h5 _ (by omega) (by omega)⟩

end Batoid.Props
