import Mathlib.Analysis.SpecialFunctions.Trigonometric.Bounds
import Mathlib.Analysis.Real.Pi.Bounds
import Verif.Reduction
import Verif.Analysis
import Verif.Props.Rays
import Verif.Props.RoundLanding

/-!
# Property C132: phases, amplitudes and PSF values in arithmetic with rounding

Specification vocabulary: `phaseR` of C39 (the phase of a plane wave), `Flt.real` (the number that is stored), `radians` (how many radians of phase
the distance and the delay are), `Moving` (a ray of numbers, with a velocity and a wavelength).
-/

namespace Batoid.Props
open Batoid

section spec
variable {rd : ℝ → ℝ}

/-- The number that is stored (zero for NaN and infinities). -/
noncomputable def _root_.Batoid.Flt.real (a : Flt rd) : ℝ := realPart a.val

/-- The ray consists of numbers, and it has a velocity and a wavelength. -/
def Moving (ray : Ray (Flt rd)) : Prop :=
  ∃ (r v : V3 ℝ) (t w f : ℝ), ray.r = r.flt rd ∧ ray.v = v.flt rd ∧ ray.t = Flt.fin rd t ∧ ray.wavelength = Flt.fin rd w ∧
    ray.flux = Flt.fin rd f ∧ v ≠ ⟨0, 0, 0⟩ ∧ w ≠ 0

/-- The phase of the plane wave of a ray at the point `q` and the time `s`. -/
noncomputable def truePhase (ray : Ray (Flt rd)) (q : V3 ℝ) (s : ℝ) : ℝ :=
  phaseR (ray.r.map Flt.real) (ray.v.map Flt.real) ray.t.real ray.wavelength.real q s

/-- The radians in the way from the ray to `q` and in the delay until `s`. -/
noncomputable def radians (ray : Ray (Flt rd)) (q : V3 ℝ) (s : ℝ) : ℝ :=
  2 * Real.pi / |ray.wavelength.real| * (nrm (q - ray.r.map Flt.real) / nrm (ray.v.map Flt.real) + |s - ray.t.real|)

/-- The rays that count: not failed, and not vignetted if vignetted rays are ignored. -/
def counts (ig : Bool) (ray : Ray (Flt rd)) : Bool := !ray.failed && !(ig && ray.vignetted)

/-- The light of the rays that count. -/
noncomputable def totalLight (ig : Bool) (l : List (Ray (Flt rd))) : ℝ := ((l.filter (counts ig)).map fun ray => |ray.flux.real|).sum

/-- The sum of the plane waves of the rays that count. -/
noncomputable def trueWaves (ig : Bool) (l : List (Ray (Flt rd))) (q : V3 ℝ) (s : ℝ) : ℂ :=
  ((l.filter (counts ig)).map fun ray => (ray.flux.real : ℂ) * Complex.exp (truePhase ray q s * Complex.I)).sum

/-- What rounding may change in the sum of the waves, with `n` additions for each ray. -/
noncomputable def waveSlack (u : ℝ) (n : ℕ) (ig : Bool) (l : List (Ray (Flt rd))) (q : V3 ℝ) (s : ℝ) : ℝ :=
  ((l.filter (counts ig)).map fun ray => |ray.flux.real| * ((2 * n + 4) * u + 30 * u * radians ray q s)).sum

end spec

section lemmas
variable {u : ℝ} {rd : ℝ → ℝ}

@[simp] theorem real_fin (r : ℝ) : (Flt.fin rd r).real = r := rfl
theorem real_flt (v : V3 ℝ) : (v.flt rd).map Flt.real = v := by cases v; rfl

theorem flt_two : (2 : Flt rd) = Flt.fin rd (rd 2) := by simpa using Flt.ofNat_fin (rd := rd) 2

theorem Err.larger {k : ℕ} {a b M N : ℝ} (hu0 : 0 ≤ u) (hu : u < 1) (h : Err u k a b M) (hMN : M ≤ N) : Err u k a b N :=
  ⟨h.1.trans hMN, h.2.trans (mul_le_mul_of_nonneg_left hMN (by linarith [gle hu0 hu k]))⟩
theorem Err.congr {k : ℕ} {a b c M : ℝ} (h : Err u k a b M) (e : b = c) : Err u k a c M := e ▸ h

theorem Flt.pi_fin : (Arith.pi : Flt rd) = Flt.fin rd (rd Real.pi) := rfl

/-- The phase of one ray. -/
theorem phase_err (h : Rounds u rd) (hu : u < 1) {r v q : V3 ℝ} {t w s : ℝ} (hv : v ≠ ⟨0, 0, 0⟩) (hw : w ≠ 0) (ray : Ray (Flt rd))
    (er : ray.r = r.flt rd) (ev : ray.v = v.flt rd) (et : ray.t = Flt.fin rd t) (ew : ray.wavelength = Flt.fin rd w) :
    ∃ φ, ray.phase (q.flt rd) (Flt.fin rd s) = Flt.fin rd φ ∧
      Err u 15 φ (phaseR r v t w q s) (2 * Real.pi / |w| * (nrm (q - r) / nrm v + |s - t|)) := by
  have hu0 := h.nonneg
  have v2 : V3.dot v v ≠ 0 := (V3.normSq_pos hv).ne'
  have ex : ∀ a : ℝ, Err u 0 a a |a| := Err.exact
  have dx := fun a b : ℝ => (h.rel hu (a - b)).err hu0 hu
  -- the denominator
  have nn : Rel u 3 (rd (rd (rd (v.x * v.x) + rd (v.y * v.y)) + rd (v.z * v.z))) (V3.dot v v) := by
    have a := (h.rel hu (v.x * v.x)).add hu (h.rel hu (v.y * v.y)) (mul_self_nonneg _) (mul_self_nonneg _)
    have b := h.after hu a
    have c := b.add hu ((h.rel hu (v.z * v.z)).mono hu0 hu (by norm_num : 1 ≤ 1 + 1)) (add_nonneg (mul_self_nonneg _) (mul_self_nonneg _)) (mul_self_nonneg _)
    exact h.after hu c
  have n0 := nn.ne hu v2
  -- the numerator
  have m := fun a b c : ℝ => h.errMul hu (dx a b) (ex c)
  have p1 := h.errAdd hu (m q.x r.x v.x) (m q.y r.y v.y)
  have p2 := h.errAdd hu p1 ((m q.z r.z v.z).mono hu0 hu (by norm_num : 1 + 0 + 1 ≤ 1 + 0 + 1 + 1))
  have p3 := h.errDiv hu p2 nn
  have p4 := h.errSub hu p3 ((dx s t).mono hu0 hu (by norm_num : 1 ≤ 1 + 0 + 1 + 1 + 1 + 3 + 1))
  have f1 := h.after hu (((h.rel hu 2).mul hu (h.rel hu Real.pi)))
  have f2 := h.after hu (f1.div hu (Rel.refl (u := u) w))
  have p5 := h.errMul hu p4 (f2.err hu0 hu)
  have vn : |V3.dot v v| = nrm v * nrm v := by
    rw [← nrm_sq_dot, abs_of_nonneg (sq_nonneg _), sq]
  have v0 : nrm v ≠ 0 := by
    intro h0
    rw [h0, mul_zero, abs_eq_zero] at vn
    exact v2 vn
  have size : (|q.x - r.x| * |v.x| + |q.y - r.y| * |v.y| + |q.z - r.z| * |v.z|) / |V3.dot v v| ≤ nrm (q - r) / nrm v := by
    have := absDot_le (q - r) v
    simp only [abs_mul, V3.sub_x, V3.sub_y, V3.sub_z] at this
    rw [vn, ← div_div]
    refine div_le_div_of_nonneg_right ?_ (nrm_nonneg v)
    rw [div_le_iff₀ (lt_of_le_of_ne (nrm_nonneg v) v0.symm)]
    exact this
  have a1 : |2 * Real.pi / w| = 2 * Real.pi / |w| := by rw [abs_div, abs_of_pos (by positivity)]
  refine ⟨_, ?_, Err.larger hu0 hu ((p5.mono hu0 hu (by norm_num : _ ≤ 15)).congr ?_) ?_⟩
  · simp only [Ray.phase, er, ev, et, ew, V3.dot, V3.flt, V3.map_x, V3.map_y, V3.map_z, V3.sub_x, V3.sub_y, V3.sub_z, flt_two,
      Batoid.Props.Flt.pi_fin, Flt.mul_fin, Flt.add_fin, Flt.sub_fin, Flt.div_fin n0, Flt.div_fin hw]
  · simp only [phaseR, V3.dot, V3.sub_x, V3.sub_y, V3.sub_z]; ring
  · rw [a1, mul_comm]
    exact mul_le_mul_of_nonneg_left (by linarith) (by positivity)

theorem phase_of (h : Rounds u rd) (hu : u ≤ 1 / 1000) {ray : Ray (Flt rd)} (hm : Moving ray) (q : V3 ℝ) (s : ℝ) :
    ∃ φ, ray.phase (q.flt rd) (Flt.fin rd s) = Flt.fin rd φ ∧ |φ - truePhase ray q s| ≤ 30 * u * radians ray q s := by
  obtain ⟨r, v, t, w, f, er, ev, et, ew, ef, hv, hw⟩ := hm
  obtain ⟨φ, e, k⟩ := phase_err h (by linarith) (q := q) (s := s) hv hw ray er ev et ew
  refine ⟨φ, e, ?_⟩
  have := k.close h.nonneg (by linarith) 30 (by norm_num) (by linarith)
  simpa only [truePhase, radians, er, ev, et, ew, real_flt, real_fin] using this

theorem radians_nonneg (ray : Ray (Flt rd)) (q : V3 ℝ) (s : ℝ) : 0 ≤ radians ray q s := by
  unfold radians
  have := nrm_nonneg (q - ray.r.map Flt.real)
  have := nrm_nonneg (ray.v.map Flt.real)
  positivity

/-- The term that is added for a ray, in one of the two sums. -/
theorem term_err (h : Rounds u rd) (hu : u < 1) {c f : ℝ} (hc : |c| ≤ 1) : Err u 2 (rd (rd c * f)) (c * f) |f| := by
  have hu0 := h.nonneg
  have a := Err.larger hu0 hu ((h.rel hu c).err hu0 hu) hc
  simpa using h.errMul hu a (Err.exact f)

/-- A sum over the rays that count. -/
noncomputable def countSum (ig : Bool) (g : Ray (Flt rd) → ℝ) (l : List (Ray (Flt rd))) : ℝ := ((l.filter (counts ig)).map g).sum

theorem countSum_append (ig : Bool) (g : Ray (Flt rd) → ℝ) (l m : List (Ray (Flt rd))) :
    countSum ig g (l ++ m) = countSum ig g l + countSum ig g m := by simp [countSum]

theorem countSum_perm (ig : Bool) (g : Ray (Flt rd) → ℝ) {l m : List (Ray (Flt rd))} (hp : l.Perm m) : countSum ig g l = countSum ig g m :=
  ((hp.filter _).map g).sum_eq

theorem countSum_one (ig : Bool) (g : Ray (Flt rd) → ℝ) (ray : Ray (Flt rd)) : countSum ig g [ray] = if counts ig ray then g ray else 0 := by
  unfold countSum
  by_cases hc : counts ig ray <;> simp [hc]

/-- The two sums of the threads, against the sums of the same terms without rounding. -/
theorem reduced_err (h : Rounds u rd) (hu : u ≤ 1 / 1000) {q : V3 ℝ} {s : ℝ} {ig : Bool} {n : ℕ} {l : List (Ray (Flt rd))} {a : Flt rd × Flt rd}
    (hr : RayVec.Reduced (q.flt rd) (Flt.fin rd s) ig n l a) (hm : ∀ ray ∈ l, counts ig ray → Moving ray) :
    ∃ A B, a = (Flt.fin rd A, Flt.fin rd B) ∧
      Err u (n + 2) A (countSum ig (fun ray => Real.cos (ray.phase (q.flt rd) (Flt.fin rd s)).real * ray.flux.real) l)
        (countSum ig (fun ray => |ray.flux.real|) l) ∧
      Err u (n + 2) B (countSum ig (fun ray => Real.sin (ray.phase (q.flt rd) (Flt.fin rd s)).real * ray.flux.real) l)
        (countSum ig (fun ray => |ray.flux.real|) l) := by
  have hu0 := h.nonneg
  have hu1 : u < 1 := by linarith
  induction hr with
  | loop l =>
    induction l using List.reverseRecOn with
    | nil => exact ⟨0, 0, by simp [flt_zero h], by simp [countSum, Err], by simp [countSum, Err]⟩
    | append_singleton l ray ih =>
      obtain ⟨A, B, e, kA, kB⟩ := ih fun x hx => hm x (by simp [hx])
      simp only [List.foldl_append, List.foldl_cons, List.foldl_nil, e, List.length_append, List.length_cons, List.length_nil, zero_add,
        countSum_append, countSum_one]
      by_cases hc : counts ig ray
      · obtain ⟨φ, eφ, -⟩ := phase_of h hu (hm ray (by simp) hc) q s
        obtain ⟨r, v, t, w, f, er, ev, et, ew, ef, hv, hw⟩ := hm ray (by simp) hc
        have hc' : (!ray.failed && !(ig && ray.vignetted)) = true := hc
        refine ⟨rd (A + rd (rd (Real.cos φ) * f)), rd (B + rd (rd (Real.sin φ) * f)), ?_, ?_, ?_⟩
        rotate_left
        · rw [if_pos hc, if_pos hc, eφ, ef, show l.length + 1 + 2 = l.length + 2 + 1 by ring]
          exact h.errAdd hu1 kA ((term_err h hu1 (Real.abs_cos_le_one φ)).mono hu0 hu1 (by omega))
        · rw [if_pos hc, if_pos hc, eφ, ef, show l.length + 1 + 2 = l.length + 2 + 1 by ring]
          exact h.errAdd hu1 kB ((term_err h hu1 (Real.abs_sin_le_one φ)).mono hu0 hu1 (by omega))
        · simp only [RayVec.sumAmplitudeStep, hc', if_true, Ray.amplitude, eφ, ef, Flt.cos_fin, Flt.sin_fin, Flt.mul_fin, Flt.add_fin]
      · have hc' : ¬ (!ray.failed && !(ig && ray.vignetted)) = true := hc
        refine ⟨A, B, ?_, ?_, ?_⟩
        · simp only [RayVec.sumAmplitudeStep, if_neg hc']
        · rw [if_neg hc, if_neg hc, add_zero, add_zero]; exact kA.mono hu0 hu1 (by omega)
        · rw [if_neg hc, if_neg hc, add_zero, add_zero]; exact kB.mono hu0 hu1 (by omega)
  | @join m n l l' a b ha hb iha ihb =>
    obtain ⟨A, B, e, kA, kB⟩ := iha fun x hx => hm x (by simp [hx])
    obtain ⟨A', B', e', kA', kB'⟩ := ihb fun x hx => hm x (by simp [hx])
    refine ⟨rd (A + A'), rd (B + B'), by simp [e, e', Flt.add_fin], ?_, ?_⟩
    all_goals rw [countSum_append, countSum_append, show max m n + 1 + 2 = max m n + 2 + 1 by ring]
    · exact h.errAdd hu1 (kA.mono hu0 hu1 (by omega)) (kA'.mono hu0 hu1 (by omega))
    · exact h.errAdd hu1 (kB.mono hu0 hu1 (by omega)) (kB'.mono hu0 hu1 (by omega))
  | order _ hp ih =>
    obtain ⟨A, B, e, kA, kB⟩ := ih fun x hx => hm x (hp.subset hx)
    exact ⟨A, B, e, by rwa [← countSum_perm ig _ hp, ← countSum_perm ig _ hp], by rwa [← countSum_perm ig _ hp, ← countSum_perm ig _ hp]⟩

theorem countSum_near (ig : Bool) {g g' d : Ray (Flt rd) → ℝ} {l : List (Ray (Flt rd))} (hd : ∀ ray ∈ l, counts ig ray → |g ray - g' ray| ≤ d ray) :
    |countSum ig g l - countSum ig g' l| ≤ countSum ig d l := by
  induction l with
  | nil => simp [countSum]
  | cons ray l ih =>
    have i := ih fun x hx => hd x (by simp [hx])
    have j := hd ray (by simp)
    rw [show ray :: l = [ray] ++ l from rfl]
    simp only [countSum_append, countSum_one]
    by_cases hc : counts ig ray
    · have := j hc
      simp only [if_pos hc]
      rw [abs_le] at *
      constructor <;> linarith
    · simpa [if_neg hc] using i

theorem trueWaves_re (ig : Bool) (l : List (Ray (Flt rd))) (q : V3 ℝ) (s : ℝ) :
    (trueWaves ig l q s).re = countSum ig (fun ray => Real.cos (truePhase ray q s) * ray.flux.real) l ∧
    (trueWaves ig l q s).im = countSum ig (fun ray => Real.sin (truePhase ray q s) * ray.flux.real) l := by
  unfold trueWaves countSum
  induction l.filter (counts ig) with
  | nil => simp
  | cons ray l ih =>
    simp only [List.map_cons, List.sum_cons, Complex.add_re, Complex.add_im, ih.1, ih.2, Complex.exp_ofReal_mul_I_re, Complex.exp_ofReal_mul_I_im,
      Complex.mul_re, Complex.mul_im, Complex.ofReal_re, Complex.ofReal_im, zero_mul, sub_zero, add_zero]
    constructor <;> ring

theorem waveSlack_eq (n : ℕ) (ig : Bool) (l : List (Ray (Flt rd))) (q : V3 ℝ) (s : ℝ) :
    waveSlack u n ig l q s = (2 * n + 4) * u * countSum ig (fun ray => |ray.flux.real|) l
      + countSum ig (fun ray => 30 * u * radians ray q s * |ray.flux.real|) l := by
  unfold waveSlack countSum
  induction l.filter (counts ig) with
  | nil => simp
  | cons ray l ih => simp only [List.map_cons, List.sum_cons, ih]; ring

end lemmas

section main
variable {u : ℝ} {rd : ℝ → ℝ}

/-- **C132**: the phase of a ray is accurate to a few units in the last place of the radians that the way and the delay are. -/
theorem C132_phase (h : Rounds u rd) (hu : u ≤ 1 / 1000) {ray : Ray (Flt rd)} (hm : Moving ray) (q : V3 ℝ) (s : ℝ) :
    ∃ φ, ray.phase (q.flt rd) (Flt.fin rd s) = Flt.fin rd φ ∧ |φ - truePhase ray q s| ≤ 30 * u * radians ray q s := phase_of h hu hm q s

/-- **C132**: and so is its amplitude. -/
theorem C132_amplitude (h : Rounds u rd) (hu : u ≤ 1 / 1000) {ray : Ray (Flt rd)} (hm : Moving ray) (q : V3 ℝ) (s : ℝ) :
    ∃ a b, ray.amplitude (q.flt rd) (Flt.fin rd s) = (Flt.fin rd a, Flt.fin rd b) ∧
      |a - Real.cos (truePhase ray q s)| ≤ u + 30 * u * radians ray q s ∧ |b - Real.sin (truePhase ray q s)| ≤ u + 30 * u * radians ray q s := by
  obtain ⟨φ, e, k⟩ := phase_of h hu hm q s
  refine ⟨rd (Real.cos φ), rd (Real.sin φ), by simp only [Ray.amplitude, e, Flt.cos_fin, Flt.sin_fin], ?_, ?_⟩
  · have a := h.err (Real.cos φ)
    have b := Real.abs_cos_sub_cos_le φ (truePhase ray q s)
    have c := mul_le_mul_of_nonneg_left (Real.abs_cos_le_one φ) h.nonneg
    have := abs_sub_le (rd (Real.cos φ)) (Real.cos φ) (Real.cos (truePhase ray q s))
    linarith
  · have a := h.err (Real.sin φ)
    have b := Real.abs_sin_sub_sin_le φ (truePhase ray q s)
    have c := mul_le_mul_of_nonneg_left (Real.abs_sin_le_one φ) h.nonneg
    have := abs_sub_le (rd (Real.sin φ)) (Real.sin φ) (Real.sin (truePhase ray q s))
    linarith

/-- **C132**: the sum of the waves is accurate, however the rays are given to the threads and however the sums of the threads are added. -/
theorem C132_sum (h : Rounds u rd) (hu : u ≤ 1 / 1000) {q : V3 ℝ} {s : ℝ} {ig : Bool} {n : ℕ} {l : List (Ray (Flt rd))} {a : Flt rd × Flt rd}
    (hn : (2 * n + 4) * u ≤ 1) (hr : RayVec.Reduced (q.flt rd) (Flt.fin rd s) ig n l a) (hm : ∀ ray ∈ l, counts ig ray → Moving ray) :
    ∃ A B, a = (Flt.fin rd A, Flt.fin rd B) ∧ |A - (trueWaves ig l q s).re| ≤ waveSlack u n ig l q s ∧
      |B - (trueWaves ig l q s).im| ≤ waveSlack u n ig l q s := by
  obtain ⟨A, B, e, kA, kB⟩ := reduced_err h hu hr hm
  have hu0 := h.nonneg
  refine ⟨A, B, e, ?_, ?_⟩
  · have a := kA.close hu0 (by linarith) (2 * n + 4) (by push_cast; linarith) hn
    have b := countSum_near (d := fun ray => 30 * u * radians ray q s * |ray.flux.real|) ig (l := l)
      (g := fun ray => Real.cos (ray.phase (q.flt rd) (Flt.fin rd s)).real * ray.flux.real)
      (g' := fun ray => Real.cos (truePhase ray q s) * ray.flux.real) fun ray hx hc => by
        obtain ⟨φ, eφ, k⟩ := phase_of h hu (hm ray hx hc) q s
        simp only [eφ, real_fin]
        rw [← sub_mul, abs_mul]
        exact mul_le_mul_of_nonneg_right ((Real.abs_cos_sub_cos_le _ _).trans k) (abs_nonneg _)
    rw [(trueWaves_re ig l q s).1, waveSlack_eq]
    exact (abs_sub_le _ _ _).trans (add_le_add a b)
  · have a := kB.close hu0 (by linarith) (2 * n + 4) (by push_cast; linarith) hn
    have b := countSum_near (d := fun ray => 30 * u * radians ray q s * |ray.flux.real|) ig (l := l)
      (g := fun ray => Real.sin (ray.phase (q.flt rd) (Flt.fin rd s)).real * ray.flux.real)
      (g' := fun ray => Real.sin (truePhase ray q s) * ray.flux.real) fun ray hx hc => by
        obtain ⟨φ, eφ, k⟩ := phase_of h hu (hm ray hx hc) q s
        simp only [eφ, real_fin]
        rw [← sub_mul, abs_mul]
        exact mul_le_mul_of_nonneg_right ((Real.abs_sin_sub_sin_le _ _).trans k) (abs_nonneg _)
    rw [(trueWaves_re ig l q s).2, waveSlack_eq]
    exact (abs_sub_le _ _ _).trans (add_le_add a b)

/-- **C132**: two runs of the sum, with other threads, agree to twice that. -/
theorem C132_threads (h : Rounds u rd) (hu : u ≤ 1 / 1000) {q : V3 ℝ} {s : ℝ} {ig : Bool} {n m : ℕ} {l : List (Ray (Flt rd))}
    {a b : Flt rd × Flt rd} (hn : (2 * n + 4) * u ≤ 1) (hk : (2 * m + 4) * u ≤ 1) (ha : RayVec.Reduced (q.flt rd) (Flt.fin rd s) ig n l a)
    (hb : RayVec.Reduced (q.flt rd) (Flt.fin rd s) ig m l b) (hm : ∀ ray ∈ l, counts ig ray → Moving ray) :
    |a.1.real - b.1.real| ≤ waveSlack u n ig l q s + waveSlack u m ig l q s ∧ |a.2.real - b.2.real| ≤ waveSlack u n ig l q s + waveSlack u m ig l q s := by
  obtain ⟨A, B, rfl, a1, a2⟩ := C132_sum h hu hn ha hm
  obtain ⟨A', B', rfl, b1, b2⟩ := C132_sum h hu hk hb hm
  simp only [real_fin]
  rw [abs_le] at a1 a2 b1 b2
  rw [abs_le, abs_le]
  refine ⟨⟨?_, ?_⟩, ⟨?_, ?_⟩⟩ <;> linarith

theorem squares_near (h : Rounds u rd) (hu : u ≤ 1 / 1000) {A B X Y E S : ℝ} (hX : |X| ≤ S) (hY : |Y| ≤ S) (a1 : |A - X| ≤ E) (a2 : |B - Y| ≤ E)
    (hE : E ≤ S) (hES : 4 * u * S ≤ E) : |rd (rd (A * A) + rd (B * B)) - (X ^ 2 + Y ^ 2)| ≤ 11 * E * S := by
  have hu0 := h.nonneg
  have S0 := (abs_nonneg _).trans hX
  have E0 := (abs_nonneg _).trans a1
  have sq1 : ∀ {a x : ℝ}, |x| ≤ S → |a - x| ≤ E → |a * a - x ^ 2| ≤ 3 * (E * S) ∧ a * a ≤ 4 * (S * S) := by
    intro a x hx ha
    have b1 : |a| ≤ 2 * S := by
      have := abs_sub_abs_le_abs_sub a x
      linarith
    have b2 : |a + x| ≤ 3 * S := (abs_add_le _ _).trans (by linarith)
    refine ⟨?_, ?_⟩
    · rw [show a * a - x ^ 2 = (a - x) * (a + x) by ring, abs_mul]
      calc _ ≤ E * (3 * S) := mul_le_mul ha b2 (abs_nonneg _) E0
        _ = _ := by ring
    · rw [← abs_mul_abs_self a]
      calc _ ≤ (2 * S) * (2 * S) := mul_le_mul b1 b1 (abs_nonneg _) (by linarith)
        _ = _ := by ring
  obtain ⟨p1, q1⟩ := sq1 hX a1
  obtain ⟨p2, q2⟩ := sq1 hY a2
  have r1 := h.err (A * A)
  have r2 := h.err (B * B)
  have r3 := h.err (rd (A * A) + rd (B * B))
  rw [abs_of_nonneg (mul_self_nonneg A)] at r1
  rw [abs_of_nonneg (mul_self_nonneg B)] at r2
  have k1 : u * (A * A) ≤ u * (4 * (S * S)) := mul_le_mul_of_nonneg_left q1 hu0
  have k2 : u * (B * B) ≤ u * (4 * (S * S)) := mul_le_mul_of_nonneg_left q2 hu0
  have k3 : 4 * u * S * S ≤ E * S := mul_le_mul_of_nonneg_right hES S0
  have k4 : |rd (A * A) + rd (B * B)| ≤ 9 * (S * S) := by
    have t1 : u * (4 * (S * S)) ≤ 1 / 1000 * (4 * (S * S)) := mul_le_mul_of_nonneg_right hu (by positivity)
    have SS : 0 ≤ S * S := by positivity
    rw [abs_le] at r1 r2 ⊢
    have := mul_self_nonneg A
    have := mul_self_nonneg B
    constructor <;> linarith [r1.1, r1.2, r2.1, r2.2]
  have k5 := mul_le_mul_of_nonneg_left k4 hu0
  rw [abs_le] at r1 r2 r3 p1 p2 ⊢
  constructor <;> nlinarith [r1.1, r1.2, r2.1, r2.2, r3.1, r3.2, p1.1, p1.2, p2.1, p2.2]

/-- **C132**: a value of the PSF is accurate, as long as the sum of the waves is accurate to less than the light of the rays. -/
theorem C132_psf (h : Rounds u rd) (hu : u ≤ 1 / 1000) {q : V3 ℝ} {s : ℝ} {rv : RayVec (Flt rd)} (hn : (2 * rv.rays.length + 4) * u ≤ 1)
    (hm : ∀ ray ∈ rv.rays, counts true ray → Moving ray) (hE : waveSlack u rv.rays.length true rv.rays q s ≤ totalLight true rv.rays) :
    ∃ I, Analysis.intensity rv (q.flt rd) (Flt.fin rd s) = Flt.fin rd I ∧
      |I - ‖trueWaves true rv.rays q s‖ ^ 2| ≤ 11 * waveSlack u rv.rays.length true rv.rays q s * totalLight true rv.rays := by
  obtain ⟨A, B, e, a1, a2⟩ := C132_sum (q := q) (s := s) h hu hn (RayVec.Reduced.loop rv.rays) hm
  refine ⟨rd (rd (A * A) + rd (B * B)), by simp only [Analysis.intensity, RayVec.sumAmplitude, e, Flt.mul_fin, Flt.add_fin], ?_⟩
  have hu0 := h.nonneg
  have size : ∀ g : Ray (Flt rd) → ℝ, (∀ ray, |g ray| ≤ 1) → |countSum true (fun ray => g ray * ray.flux.real) rv.rays| ≤ totalLight true rv.rays := by
    intro g hg
    have := countSum_near true (g := fun ray => g ray * ray.flux.real) (g' := fun _ => 0) (d := fun ray => |ray.flux.real|) (l := rv.rays)
      fun ray _ _ => by
        rw [sub_zero, abs_mul]
        exact mul_le_of_le_one_left (abs_nonneg _) (hg ray)
    simpa [countSum, totalLight] using this
  have hX := size (fun ray => Real.cos (truePhase ray q s)) fun _ => Real.abs_cos_le_one _
  have hY := size (fun ray => Real.sin (truePhase ray q s)) fun _ => Real.abs_sin_le_one _
  rw [← (trueWaves_re true rv.rays q s).1] at hX
  rw [← (trueWaves_re true rv.rays q s).2] at hY
  have S0 := (abs_nonneg _).trans hX
  have hES : 4 * u * totalLight true rv.rays ≤ waveSlack u rv.rays.length true rv.rays q s := by
    rw [waveSlack_eq]
    have p : 0 ≤ countSum true (fun ray => 30 * u * radians ray q s * |ray.flux.real|) rv.rays := by
      refine List.sum_nonneg fun x hx => ?_
      obtain ⟨ray, -, rfl⟩ := List.mem_map.mp hx
      have := radians_nonneg ray q s
      positivity
    have : (4 : ℝ) * u ≤ (2 * rv.rays.length + 4) * u := mul_le_mul_of_nonneg_right (by linarith [Nat.cast_nonneg (α := ℝ) rv.rays.length]) hu0
    have := mul_le_mul_of_nonneg_right this S0
    simp only [totalLight, countSum] at *
    linarith
  have := squares_near h hu hX hY a1 a2 hE hES
  rwa [← Complex.normSq_eq_norm_sq, Complex.normSq_apply, ← sq (trueWaves true rv.rays q s).re, ← sq (trueWaves true rv.rays q s).im]

/-- **C132**: the wave vector is accurate: each component to a few units in its last place. -/
theorem C132_wavevector (h : Rounds u rd) (hu : u ≤ 1 / 1000) {ray : Ray (Flt rd)} (hm : Moving ray) :
    ∃ k : V3 ℝ, RayVec.waveVector ray = k.flt rd ∧ ∀ i : V3 ℝ → ℝ, i = V3.x ∨ i = V3.y ∨ i = V3.z →
      |i k - 2 * Real.pi / (ray.wavelength.real * V3.dot (ray.v.map Flt.real) (ray.v.map Flt.real)) * i (ray.v.map Flt.real)| ≤
        20 * u * |2 * Real.pi / (ray.wavelength.real * V3.dot (ray.v.map Flt.real) (ray.v.map Flt.real)) * i (ray.v.map Flt.real)| := by
  obtain ⟨r, v, t, w, f, er, ev, et, ew, ef, hv, hw⟩ := hm
  have hu0 := h.nonneg
  have hu1 : u < 1 := by linarith
  have v2 : V3.dot v v ≠ 0 := (V3.normSq_pos hv).ne'
  have nn : Rel u 3 (rd (rd (rd (v.x * v.x) + rd (v.y * v.y)) + rd (v.z * v.z))) (V3.dot v v) := by
    have a := (h.rel hu1 (v.x * v.x)).add hu1 (h.rel hu1 (v.y * v.y)) (mul_self_nonneg _) (mul_self_nonneg _)
    have b := h.after hu1 a
    have c := b.add hu1 ((h.rel hu1 (v.z * v.z)).mono hu0 hu1 (by norm_num : 1 ≤ 1 + 1)) (add_nonneg (mul_self_nonneg _) (mul_self_nonneg _)) (mul_self_nonneg _)
    exact h.after hu1 c
  have n0 := nn.ne hu1 v2
  have f1 := h.after hu1 (((h.rel hu1 2).mul hu1 (h.rel hu1 Real.pi)))
  have f2 := fun c : ℝ => h.after hu1 ((h.after hu1 ((h.after hu1 (f1.mul hu1 (Rel.refl (u := u) c))).div hu1 (Rel.refl (u := u) w))).div hu1 nn)
  have f3 : ∀ c : ℝ, |rd (rd (rd (rd (rd 2 * rd Real.pi) * c) / w) / rd (rd (rd (v.x * v.x) + rd (v.y * v.y)) + rd (v.z * v.z)))
      - 2 * Real.pi / (w * V3.dot v v) * c| ≤ 20 * u * |2 * Real.pi / (w * V3.dot v v) * c| := by
    intro c
    have := (((f2 c).err hu0 hu1).mono hu0 hu1 (by norm_num : _ ≤ 10)).close hu0 hu1 20 (by norm_num) (by linarith)
    rwa [show 2 * Real.pi * c / w / V3.dot v v = 2 * Real.pi / (w * V3.dot v v) * c by field_simp] at this
  refine ⟨⟨rd (rd (rd (rd (rd 2 * rd Real.pi) * v.x) / w) / rd (rd (rd (v.x * v.x) + rd (v.y * v.y)) + rd (v.z * v.z))),
    rd (rd (rd (rd (rd 2 * rd Real.pi) * v.y) / w) / rd (rd (rd (v.x * v.x) + rd (v.y * v.y)) + rd (v.z * v.z))),
    rd (rd (rd (rd (rd 2 * rd Real.pi) * v.z) / w) / rd (rd (rd (v.x * v.x) + rd (v.y * v.y)) + rd (v.z * v.z)))⟩, ?_, ?_⟩
  · simp only [RayVec.waveVector, ev, ew, V3.dot, V3.flt, V3.map, flt_two, Batoid.Props.Flt.pi_fin, Flt.mul_fin, Flt.add_fin, Flt.div_fin n0,
      Flt.div_fin hw]
  · simp only [ew, ev, real_fin, real_flt]
    rintro i (rfl | rfl | rfl)
    · exact f3 v.x
    · exact f3 v.y
    · exact f3 v.z

end main

/-! Non-vacuity: a ray of flux 2 and wavelength 1 along the axis has travelled half a wavelength: the sum is -2 and the PSF is 4, in double precision. -/

private noncomputable def waveRay : Ray (Flt rd53) :=
  ⟨V3.flt rd53 ⟨0, 0, 0⟩, V3.flt rd53 ⟨0, 0, 1⟩, Flt.fin rd53 0, Flt.fin rd53 1, Flt.fin rd53 2, false, false⟩

private theorem waveRay_moving : Moving waveRay :=
  ⟨⟨0, 0, 0⟩, ⟨0, 0, 1⟩, 0, 1, 2, rfl, rfl, rfl, rfl, rfl, by simp [V3.mk.injEq], one_ne_zero⟩

private theorem waveRay_phase : truePhase waveRay ⟨0, 0, 1 / 2⟩ 0 = Real.pi := by
  simp [truePhase, waveRay, real_flt, phaseR, V3.dot]
  ring

private theorem waveRay_radians : radians waveRay ⟨0, 0, 1 / 2⟩ 0 = Real.pi := by
  have a : nrm (⟨0, 0, 1 / 2⟩ - ⟨0, 0, 0⟩ : V3 ℝ) = 1 / 2 := by
    rw [nrm, show V3.normSq (⟨0, 0, 1 / 2⟩ - ⟨0, 0, 0⟩ : V3 ℝ) = (1 / 2) ^ 2 by simp [V3.normSq, V3.dot]; ring, Real.sqrt_sq (by norm_num)]
  have b : nrm (⟨0, 0, 1⟩ : V3 ℝ) = 1 := by
    rw [nrm, show V3.normSq (⟨0, 0, 1⟩ : V3 ℝ) = 1 ^ 2 by simp [V3.normSq, V3.dot], Real.sqrt_sq (by norm_num)]
  simp only [radians, waveRay, real_flt, real_fin, a, b]
  norm_num
  ring

private theorem waveRay_waves : trueWaves true [waveRay] ⟨0, 0, 1 / 2⟩ 0 = -2 := by
  have c : counts true waveRay = true := rfl
  have f : waveRay.flux.real = 2 := rfl
  simp only [trueWaves, List.filter_cons, c, if_true, List.filter_nil, List.map_cons, List.map_nil, List.sum_cons, List.sum_nil, waveRay_phase, f,
    Complex.exp_pi_mul_I]
  norm_num

private theorem waveRay_slack : waveSlack (2 ^ (-53 : ℤ)) 1 true [waveRay] ⟨0, 0, 1 / 2⟩ 0 ≤ 1 / 10 ^ 13 := by
  have c : counts true waveRay = true := rfl
  have f : waveRay.flux.real = 2 := rfl
  simp only [waveSlack, List.filter_cons, c, if_true, List.filter_nil, List.map_cons, List.map_nil, List.sum_cons, List.sum_nil, waveRay_radians, f]
  have := Real.pi_lt_d2
  norm_num
  linarith

example (cs : CoordSys (Flt rd53)) : ∃ A B, RayVec.sumAmplitude ⟨[waveRay], cs⟩ (V3.flt rd53 ⟨0, 0, 1 / 2⟩) (Flt.fin rd53 0) true = (Flt.fin rd53 A, Flt.fin rd53 B) ∧
    |A - -2| ≤ 1 / 10 ^ 13 ∧ |B - 0| ≤ 1 / 10 ^ 13 := by
  obtain ⟨A, B, e, a, b⟩ := C132_sum (q := ⟨0, 0, 1 / 2⟩) (s := 0) rd53_rounds (by norm_num) (by norm_num) (RayVec.Reduced.loop (ig := true) [waveRay])
    (by simpa using fun _ => waveRay_moving)
  rw [List.length_singleton] at a b
  rw [waveRay_waves] at a b
  exact ⟨A, B, e, by simpa using a.trans waveRay_slack, by simpa using b.trans waveRay_slack⟩

example (cs : CoordSys (Flt rd53)) : ∃ I, Analysis.intensity ⟨[waveRay], cs⟩ (V3.flt rd53 ⟨0, 0, 1 / 2⟩) (Flt.fin rd53 0) = Flt.fin rd53 I ∧ |I - 4| ≤ 1 / 10 ^ 11 := by
  have S : totalLight true [waveRay] = 2 := by
    have c : counts true waveRay = true := rfl
    have f : waveRay.flux.real = 2 := rfl
    simp [totalLight, c, f]
  have sl := waveRay_slack
  obtain ⟨I, e, k⟩ := C132_psf (q := ⟨0, 0, 1 / 2⟩) (s := 0) (rv := ⟨[waveRay], cs⟩) rd53_rounds (by norm_num) (by norm_num)
    (by simpa using fun _ => waveRay_moving) (by rw [S]; exact sl.trans (by norm_num))
  refine ⟨I, e, ?_⟩
  simp only [List.length_singleton, waveRay_waves, S] at k
  norm_num at k sl ⊢
  linarith only [k, sl]

example : Moving waveRay := waveRay_moving

end Batoid.Props
