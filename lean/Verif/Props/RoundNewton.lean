import Verif.Props.Convergence
import Verif.Props.RoundPoly

/-!
# Property C133: Newton's iteration in arithmetic with rounding

Polynomials, tables, aspheres and sums are met by a fixed number of steps and a comparison with 1e-12.  C120 says when that finds the meeting point
in exact arithmetic, C118 that what is accepted is close to the surface.  Here: rounding does not stop the iteration from finding the meeting point.

Specification vocabulary: the line of the ray (`pointAt`, `foot`), the true height `f` of the surface with slopes `gx`, `gy`, the speed `closing` at
which the ray leaves the graph, and how accurately the surface reports heights and normals next to the ray (`Reported`).
-/

namespace Batoid.Props
open Batoid

section spec
variable {rd : ℝ → ℝ}

/-- Between the times `c - ρ` and `c + ρ` the height `f` has the slopes `gx`, `gy`, no steeper than `K`; the ray approaches the graph at least at
speed `m`, and that speed differs from the one at `c` by at most `M` times the time passed. -/
structure Bending (f gx gy : ℝ × ℝ → ℝ) (r v : V3 ℝ) (c ρ m M K : ℝ) : Prop where
  slopes : ∀ w, |w - c| ≤ ρ →
    HasFDerivAt f (gx (foot r v w) • ContinuousLinearMap.fst ℝ ℝ ℝ + gy (foot r v w) • ContinuousLinearMap.snd ℝ ℝ ℝ) (foot r v w)
  steep : ∀ w, |w - c| ≤ ρ → m ≤ |closing gx gy r v w|
  bends : ∀ w, |w - c| ≤ ρ → |closing gx gy r v w - closing gx gy r v c| ≤ M * |w - c|
  flat : ∀ w, |w - c| ≤ ρ → 1 + (gx (foot r v w) * gx (foot r v w) + gy (foot r v w) * gy (foot r v w)) ≤ K ^ 2

/-- Between these times all lengths are at most `A`, and at all points as close to the ray as rounding allows, the surface reports the height up to `εs`
and the unit normal up to `εn`. -/
structure Reported (u : ℝ) (s : Surface (Flt rd)) (f gx gy : ℝ × ℝ → ℝ) (r v : V3 ℝ) (c ρ A εs εn : ℝ) : Prop where
  size : ∀ w, |w - c| ≤ ρ → |r.x| + |v.x * w| ≤ A ∧ |r.y| + |v.y * w| ≤ A ∧ |r.z| + |v.z * w| ≤ A ∧ |f (foot r v w)| ≤ A
  sag : ∀ w, |w - c| ≤ ρ → ∀ x y, |x - (pointAt r v w).x| ≤ 4 * u * A → |y - (pointAt r v w).y| ≤ 4 * u * A → SagWithin rd s x y (f (foot r v w)) εs
  normal : ∀ w, |w - c| ≤ ρ → ∀ x y, |x - (pointAt r v w).x| ≤ 4 * u * A → |y - (pointAt r v w).y| ≤ 4 * u * A →
    ∀ n, SlopeNormal (gx (foot r v w)) (gy (foot r v w)) n → NormalWithin rd s x y n εn

/-- What rounding may change in one step; `V` bounds the velocity, `T` the time. -/
noncomputable def stepSlack (u A K m V T εs εn : ℝ) : ℝ := 3 * K / m * (114 * u * A + 12 * εs + 6 * A * εn + T * (V * (εn + 12 * u))) + u * T

/-- Where the iteration starts: polynomials and tables at the time that is passed in, aspheres at their quadric, sums at their first surface. -/
inductive BeginsAt (r v : V3 ℝ) (dt : Flt rd) (n : ℕ) (t0 : ℝ) : Surface (Flt rd) → Prop
  | polynomial (p : Surface.PolyData (Flt rd)) (h : dt = Flt.fin rd t0) : BeginsAt r v dt n t0 (.polynomial p)
  | bicubic (T : Surface.Table (Flt rd)) (h : dt = Flt.fin rd t0) : BeginsAt r v dt n t0 (.bicubic T)
  | asphere (R k : Flt rd) (cs : List (Flt rd)) (h : (Surface.quadric R k).timeToIntersect (r.flt rd) (v.flt rd) dt n = (true, Flt.fin rd t0)) :
      BeginsAt r v dt n t0 (.asphere R k cs)
  | sum (s : Surface (Flt rd)) (ss : List (Surface (Flt rd))) (h : s.timeToIntersect (r.flt rd) (v.flt rd) dt n = (true, Flt.fin rd t0)) :
      BeginsAt r v dt n t0 (.sum (s :: ss))

end spec

section numbers
variable {u : ℝ} {rd : ℝ → ℝ}

/-- A product of two known numbers. -/
theorem product_near (h : Rounds u rd) {d d' n n' A τ ε : ℝ} (hd : |d| ≤ 2 * A) (hn : |n| ≤ 1) (e1 : |d' - d| ≤ τ) (e2 : |n' - n| ≤ ε)
    (hτ : τ ≤ A) (hε : ε ≤ 1) : |rd (d' * n') - d * n| ≤ 2 * τ + 2 * A * ε + 6 * u * A := by
  have hu0 := h.nonneg
  have τ0 := (abs_nonneg _).trans e1
  have A0 : 0 ≤ A := τ0.trans hτ
  have b1 : |d'| ≤ 3 * A := by have := abs_sub_abs_le_abs_sub d' d; linarith
  have b2 : |n'| ≤ 2 := by have := abs_sub_abs_le_abs_sub n' n; linarith
  have p : |d' * n' - d * n| ≤ 2 * τ + 2 * A * ε := by
    rw [show d' * n' - d * n = (d' - d) * n' + d * (n' - n) by ring]
    refine (abs_add_le _ _).trans ?_
    rw [abs_mul, abs_mul]
    have := mul_le_mul e1 b2 (abs_nonneg _) τ0
    have := mul_le_mul hd e2 (abs_nonneg _) (by linarith)
    linarith
  have q : |d' * n'| ≤ 6 * A := by
    rw [abs_mul]
    have := mul_le_mul b1 b2 (abs_nonneg _) (by linarith)
    linarith
  have e := h.err (d' * n')
  have := mul_le_mul_of_nonneg_left q hu0
  have := abs_sub_le (rd (d' * n')) (d' * n') (d * n)
  linarith

/-- A sum of three such products. -/
theorem products_near (h : Rounds u rd) (hu : u ≤ 1 / 1000) {a b c a' b' c' A π : ℝ} (ha : |a| ≤ 2 * A) (hb : |b| ≤ 2 * A) (hc : |c| ≤ 2 * A)
    (ea : |a' - a| ≤ π) (eb : |b' - b| ≤ π) (ec : |c' - c| ≤ π) (hπ : π ≤ 5 * A) :
    |rd (rd (a' + b') + c') - (a + b + c)| ≤ 3 * π + 36 * u * A := by
  have hu0 := h.nonneg
  have A0 : 0 ≤ A := by have := (abs_nonneg _).trans ha; linarith
  have s1 : |a' + b'| ≤ 14 * A := by
    rw [abs_le] at *
    constructor <;> linarith [ha.1, ha.2, hb.1, hb.2, ea.1, ea.2, eb.1, eb.2]
  have e1 := h.err (a' + b')
  have k1 := mul_le_mul_of_nonneg_left s1 hu0
  have k0 : u * (14 * A) ≤ 1 / 1000 * (14 * A) := mul_le_mul_of_nonneg_right hu (by linarith)
  have s2 : |rd (a' + b') + c'| ≤ 22 * A := by
    rw [abs_le] at *
    constructor <;> linarith [hc.1, hc.2, ec.1, ec.2, e1.1, e1.2, s1.1, s1.2]
  have e2 := h.err (rd (a' + b') + c')
  have k2 := mul_le_mul_of_nonneg_left s2 hu0
  rw [abs_le] at ea eb ec e1 e2 ⊢
  constructor <;> linarith [ea.1, ea.2, eb.1, eb.2, ec.1, ec.2, e1.1, e1.2, e2.1, e2.2]

/-- A quotient of two known numbers. -/
theorem quotient_near (h : Rounds u rd) (hu : u ≤ 1 / 1000) {p p' q q' ν κ μ T : ℝ} (hμ : 0 < μ) (hq : μ ≤ |q|) (ep : |p' - p| ≤ ν) (eq : |q' - q| ≤ κ)
    (hκ : 2 * κ ≤ μ) (hT : |p / q| ≤ T) : q' ≠ 0 ∧ |rd (p' / q') - p / q| ≤ 3 / μ * (ν + T * κ) + u * T := by
  have hu0 := h.nonneg
  have q0 : q ≠ 0 := abs_pos.1 (hμ.trans_le hq)
  have T0 := (abs_nonneg _).trans hT
  have ν0 := (abs_nonneg _).trans ep
  have κ0 := (abs_nonneg _).trans eq
  have l : μ / 2 ≤ |q'| := by have := abs_sub_abs_le_abs_sub q q'; rw [abs_sub_comm q q'] at this; linarith
  have q1 : q' ≠ 0 := abs_pos.1 (lt_of_lt_of_le (by linarith) l)
  refine ⟨q1, ?_⟩
  have d : |p' / q' - p / q| ≤ 2 / μ * (ν + T * κ) := by
    rw [show p' / q' - p / q = ((p' - p) - p / q * (q' - q)) / q' by field_simp; ring, abs_div]
    have n : |(p' - p) - p / q * (q' - q)| ≤ ν + T * κ := by
      refine (abs_sub _ _).trans ?_
      rw [abs_mul]
      exact add_le_add ep (mul_le_mul hT eq (abs_nonneg _) T0)
    calc _ ≤ (ν + T * κ) / (μ / 2) := div_le_div₀ ((abs_nonneg _).trans n) n (by linarith) l
      _ = _ := by field_simp
  have e := h.err (p' / q')
  have X0 : 0 ≤ 2 / μ * (ν + T * κ) := (abs_nonneg _).trans d
  have b : |p' / q'| ≤ T + 2 / μ * (ν + T * κ) := by have := abs_sub_abs_le_abs_sub (p' / q') (p / q); linarith
  have k := mul_le_mul_of_nonneg_left b hu0
  have k2 : u * (2 / μ * (ν + T * κ)) ≤ 1 / 1000 * (2 / μ * (ν + T * κ)) := mul_le_mul_of_nonneg_right hu X0
  have := abs_sub_le (rd (p' / q')) (p' / q') (p / q)
  have e3 : 3 / μ * (ν + T * κ) = 2 / μ * (ν + T * κ) + 1 / 2 * (2 / μ * (ν + T * κ)) := by ring
  rw [e3]
  linarith

/-- Newton's method with an error of `δ` in each step. -/
theorem noisy_step {e e' ρ θ δ : ℝ} {n : ℕ} (hρ : 0 < ρ) (hδ : 0 ≤ δ) (hθ : 0 ≤ θ) (h2 : 2 * θ ≤ 1) (hd : 4 * δ ≤ ρ) (p : 0 ≤ e) (q : e ≤ ρ)
    (b : e ≤ ρ * (2 * θ) ^ (2 ^ n - 1) + 2 * δ) (q' : e' ≤ θ / ρ * e ^ 2 + δ) :
    e' ≤ ρ ∧ e' ≤ ρ * (2 * θ) ^ (2 ^ (n + 1) - 1) + 2 * δ := by
  have t0 : 0 ≤ θ / ρ := by positivity
  refine ⟨q'.trans ?_, q'.trans ?_⟩
  · have : θ / ρ * e ^ 2 ≤ θ / ρ * ρ ^ 2 := mul_le_mul_of_nonneg_left (pow_le_pow_left₀ p q 2) t0
    have e1 : θ / ρ * ρ ^ 2 = θ * ρ := by field_simp
    have : θ * ρ ≤ 1 / 2 * ρ := mul_le_mul_of_nonneg_right (by linarith) hρ.le
    linarith
  · have a0 : 0 ≤ ρ * (2 * θ) ^ (2 ^ n - 1) := by positivity
    have k1 : e ^ 2 ≤ 2 * (ρ * (2 * θ) ^ (2 ^ n - 1)) ^ 2 + 8 * δ ^ 2 := by
      have := pow_le_pow_left₀ p b 2
      nlinarith [sq_nonneg (ρ * (2 * θ) ^ (2 ^ n - 1) - 2 * δ)]
    have k2 := mul_le_mul_of_nonneg_left k1 t0
    have k3 : θ / ρ * (8 * δ ^ 2) ≤ δ := by
      rw [div_mul_eq_mul_div, div_le_iff₀ hρ]
      have : θ * (8 * δ ^ 2) ≤ 1 / 2 * (8 * δ ^ 2) := mul_le_mul_of_nonneg_right (by linarith) (by positivity)
      have := mul_le_mul_of_nonneg_left hd hδ
      nlinarith
    have e2 : 2 ^ (n + 1) - 1 = 1 + (2 ^ n - 1) + (2 ^ n - 1) := by have := Nat.one_le_two_pow (n := n); omega
    have k4 : θ / ρ * (2 * (ρ * (2 * θ) ^ (2 ^ n - 1)) ^ 2) = ρ * (2 * θ) ^ (2 ^ (n + 1) - 1) := by
      rw [e2, pow_add, pow_add]; field_simp
    linarith

end numbers

section ray
variable {u : ℝ} {rd : ℝ → ℝ} {s : Surface (Flt rd)} {f gx gy : ℝ × ℝ → ℝ} {r v : V3 ℝ} {c t ρ m M K A V εs εn θ B : ℝ} {n : ℕ}

theorem bending_deriv (h : Bending f gx gy r v c ρ m M K) {w : ℝ} (hw : |w - c| ≤ ρ) : HasDerivAt (rayGap f r v) (closing gx gy r v w) w := by
  have hx : HasDerivAt (fun u => r.x + u * v.x) v.x w := by simpa using ((hasDerivAt_id' w).mul_const v.x).const_add r.x
  have hy : HasDerivAt (fun u => r.y + u * v.y) v.y w := by simpa using ((hasDerivAt_id' w).mul_const v.y).const_add r.y
  have hz : HasDerivAt (fun u => r.z + u * v.z) v.z w := by simpa using ((hasDerivAt_id' w).mul_const v.z).const_add r.z
  have hf := (h.slopes w hw).comp_hasDerivAt (f := fun u => foot r v u) w (hx.prodMk hy)
  refine (hz.sub hf).congr_deriv ?_
  simp [closing]; ring

/-- The place of the ray at the time `w`, as computed. -/
theorem place_near (h : Rounds u rd) (hu : u ≤ 1 / 1000) {a b w A : ℝ} (hA : |a| + |b * w| ≤ A) : |rd (a + rd (b * w)) - (a + w * b)| ≤ 4 * u * A := by
  have hu0 := h.nonneg
  have hu1 : u < 1 := by linarith
  have e1 := (h.rel hu1 (b * w)).err hu0 hu1
  have e2 := h.errAdd hu1 ((Err.exact (u := u) a).mono hu0 hu1 (Nat.zero_le 1)) e1
  have := e2.close hu0 hu1 4 (by norm_num) (by linarith)
  rw [mul_comm w b]
  exact this.trans (mul_le_mul_of_nonneg_left hA (by linarith))

theorem comps_le (n : V3 ℝ) : |n.x| ≤ nrm n ∧ |n.y| ≤ nrm n ∧ |n.z| ≤ nrm n := by
  have k := nrm_sq n
  have n0 := nrm_nonneg n
  refine ⟨abs_le_of_sq_le_sq ?_ n0, abs_le_of_sq_le_sq ?_ n0, abs_le_of_sq_le_sq ?_ n0⟩ <;> nlinarith [sq_nonneg n.x, sq_nonneg n.y, sq_nonneg n.z]

/-- The speed along the normal, as computed. -/
theorem speed_near (h : Rounds u rd) (hu : u ≤ 1 / 1000) {n' ν v : V3 ℝ} {V εn : ℝ} (hV : |v.x| + |v.y| + |v.z| ≤ V) (hεn : εn ≤ 1) (c1 : |ν.x| ≤ 1)
    (c2 : |ν.y| ≤ 1) (c3 : |ν.z| ≤ 1) (k1 : |n'.x - ν.x| ≤ εn) (k2 : |n'.y - ν.y| ≤ εn) (k3 : |n'.z - ν.z| ≤ εn) :
    |rd (rd (rd (n'.x * v.x) + rd (n'.y * v.y)) + rd (n'.z * v.z)) - V3.dot ν v| ≤ V * (εn + 12 * u) := by
  have hu0 := h.nonneg
  have hu1 : u < 1 := by linarith
  have εn0 : 0 ≤ εn := (abs_nonneg _).trans k1
  have m1 := fun a b : ℝ => (h.rel hu1 (a * b)).err hu0 hu1
  have e1 := h.errAdd hu1 (m1 n'.x v.x) (m1 n'.y v.y)
  have e2 := h.errAdd hu1 e1 ((m1 n'.z v.z).mono hu0 hu1 (by norm_num : 1 ≤ 1 + 1))
  have k := e2.close hu0 hu1 6 (by norm_num) (by linarith)
  have two : ∀ {a b : ℝ}, |b| ≤ 1 → |a - b| ≤ εn → |a| ≤ 2 := by
    intro a b h1 h2
    have := abs_sub_abs_le_abs_sub a b
    linarith
  have sz : |n'.x * v.x| + |n'.y * v.y| + |n'.z * v.z| ≤ 2 * V := by
    simp only [abs_mul]
    have t1 := mul_le_mul_of_nonneg_right (two c1 k1) (abs_nonneg v.x)
    have t2 := mul_le_mul_of_nonneg_right (two c2 k2) (abs_nonneg v.y)
    have t3 := mul_le_mul_of_nonneg_right (two c3 k3) (abs_nonneg v.z)
    linarith
  have df : |n'.x * v.x + n'.y * v.y + n'.z * v.z - V3.dot ν v| ≤ εn * V := by
    rw [show n'.x * v.x + n'.y * v.y + n'.z * v.z - V3.dot ν v = (n'.x - ν.x) * v.x + (n'.y - ν.y) * v.y + (n'.z - ν.z) * v.z by
      simp only [V3.dot]; ring]
    refine (abs_add_three _ _ _).trans ?_
    simp only [abs_mul]
    have t1 := mul_le_mul_of_nonneg_right k1 (abs_nonneg v.x)
    have t2 := mul_le_mul_of_nonneg_right k2 (abs_nonneg v.y)
    have t3 := mul_le_mul_of_nonneg_right k3 (abs_nonneg v.z)
    have := mul_le_mul_of_nonneg_left hV εn0
    linarith
  have := mul_le_mul_of_nonneg_left sz (by linarith : 0 ≤ 6 * u)
  have := abs_sub_le (rd (rd (rd (n'.x * v.x) + rd (n'.y * v.y)) + rd (n'.z * v.z))) (n'.x * v.x + n'.y * v.y + n'.z * v.z) (V3.dot ν v)
  linarith

/-- A difference from the start of the ray, as computed. -/
theorem difference_near (h : Rounds u rd) (hu : u ≤ 1 / 1000) {a p q A e : ℝ} (he : 0 ≤ e) (hq : |q - a| ≤ 2 * A) (h2 : |p - q| ≤ e) :
    |rd (p - a) - (q - a)| ≤ 2 * u * A + 2 * e := by
  have hu0 := h.nonneg
  have e1 := h.err (p - a)
  have b1 : |p - a| ≤ 2 * A + e := by
    have := abs_sub_le p q a
    linarith
  have k1 := mul_le_mul_of_nonneg_left b1 hu0
  have k2 : u * e ≤ 1 / 1000 * e := mul_le_mul_of_nonneg_right hu he
  have k3 := abs_sub_le (rd (p - a)) (p - a) (q - a)
  rw [show p - a - (q - a) = p - q by ring] at k3
  linarith

/-- One step of the iteration, against the exact step. -/
theorem step_near (h : Rounds u rd) (hu : u ≤ 1 / 1000) (hb : Bending f gx gy r v c ρ m M K) (hr : Reported u s f gx gy r v c ρ A εs εn) (hm : 0 < m)
    (hK : 0 < K) (hV : |v.x| + |v.y| + |v.z| ≤ V) (hs0 : 0 ≤ εs) (hεn : εn ≤ 1) (hA : 10 * u * A + 2 * εs ≤ A) (hd : 2 * K * (V * (εn + 12 * u)) ≤ m) {w T : ℝ}
    (hw : |w - c| ≤ ρ) (hT : |w - rayGap f r v w / closing gx gy r v w| ≤ T) :
    ∃ t', Surface.newtonStep s.sag s.normal (r.flt rd) (v.flt rd) (Flt.fin rd w) = Flt.fin rd t' ∧
      |t' - (w - rayGap f r v w / closing gx gy r v w)| ≤ stepSlack u A K m V T εs εn := by
  have hu0 := h.nonneg
  have hu1 : u < 1 := by linarith
  obtain ⟨sx, sy, sz, sf⟩ := hr.size w hw
  have A0 : 0 ≤ A := (abs_nonneg _).trans sf
  have uA : u * A ≤ 1 / 1000 * A := mul_le_mul_of_nonneg_right hu A0
  have uA0 : 0 ≤ u * A := mul_nonneg hu0 A0
  have px := place_near h hu sx
  have py := place_near h hu sy
  set x := rd (r.x + rd (v.x * w)) with hx
  set y := rd (r.y + rd (v.y * w)) with hy
  obtain ⟨z, ez, kz⟩ := hr.sag w hw x y px py
  set P := gx (foot r v w) with hP
  set Q := gy (foot r v w) with hQ
  set ν := upward P Q with hν
  have hn : SlopeNormal P Q ν := upward_slope P Q
  obtain ⟨n', en, kn⟩ := hr.normal w hw x y px py ν hn
  obtain ⟨n1, nz, nx, ny⟩ := hn
  have cn := comps_le ν
  have cd := comps_le (n' - ν)
  rw [n1] at cn
  simp only [V3.sub_x, V3.sub_y, V3.sub_z] at cd
  have εn0 : 0 ≤ εn := (nrm_nonneg _).trans kn
  set d : V3 ℝ := ⟨w * v.x, w * v.y, f (foot r v w) - r.z⟩ with hdd
  -- the differences
  have bx : |w * v.x| ≤ 2 * A := by rw [mul_comm]; linarith only [sx, abs_nonneg r.x, A0]
  have by' : |w * v.y| ≤ 2 * A := by rw [mul_comm]; linarith only [sy, abs_nonneg r.y, A0]
  have bz : |f (foot r v w) - r.z| ≤ 2 * A := by
    have t2 := abs_sub (f (foot r v w)) r.z
    linarith only [t2, sf, sz, abs_nonneg (v.z * w)]
  have dx : |rd (x - r.x) - d.x| ≤ 10 * u * A + 2 * εs := by
    have := difference_near h hu (a := r.x) (q := r.x + w * v.x) (A := A) (by linarith only [uA0]) (by rwa [add_sub_cancel_left]) px
    rw [add_sub_cancel_left] at this
    exact this.trans (by linarith only [hs0])
  have dy : |rd (y - r.y) - d.y| ≤ 10 * u * A + 2 * εs := by
    have := difference_near h hu (a := r.y) (q := r.y + w * v.y) (A := A) (by linarith only [uA0]) (by rwa [add_sub_cancel_left]) py
    rw [add_sub_cancel_left] at this
    exact this.trans (by linarith only [hs0])
  have dz : |rd (z - r.z) - d.z| ≤ 10 * u * A + 2 * εs :=
    (difference_near h hu (a := r.z) (q := f (foot r v w)) (A := A) hs0 bz kz).trans (by linarith only [uA0])
  have qx := product_near h bx cn.1 dx (cd.1.trans kn) hA hεn
  have qy := product_near h by' cn.2.1 dy (cd.2.1.trans kn) hA hεn
  have qz := product_near h bz cn.2.2 dz (cd.2.2.trans kn) hA hεn
  have sm : ∀ {a b : ℝ}, |a| ≤ 2 * A → |b| ≤ 1 → |a * b| ≤ 2 * A := by
    intro a b h1 h2
    rw [abs_mul]
    exact (mul_le_of_le_one_right (abs_nonneg _) h2).trans h1
  have Aε : A * εn ≤ A := mul_le_of_le_one_right A0 hεn
  have num := products_near h hu (sm bx cn.1) (sm by' cn.2.1) (sm bz cn.2.2) qx qy qz (by linarith)
  -- the speed along the normal
  have ev := speed_near h hu hV hεn cn.1 cn.2.1 cn.2.2 (cd.1.trans kn) (cd.2.1.trans kn) (cd.2.2.trans kn)
  have den : V3.dot ν v = ν.z * closing gx gy r v w := by simp only [V3.dot, nx, ny, closing, ← hP, ← hQ]; ring
  have hz : 1 / K ≤ ν.z := by
    have p : 0 < 1 + (P * P + Q * Q) := add_pos_of_pos_of_nonneg one_pos (add_nonneg (mul_self_nonneg _) (mul_self_nonneg _))
    show 1 / K ≤ 1 / Real.sqrt (1 + (P * P + Q * Q))
    exact one_div_le_one_div_of_le (Real.sqrt_pos.2 p) (Real.sqrt_le_left hK.le |>.2 (hb.flat w hw))
  have low : m / K ≤ |V3.dot ν v| := by
    rw [den, abs_mul, abs_of_pos nz, div_eq_mul_inv, mul_comm, ← one_div]
    exact mul_le_mul hz (hb.steep w hw) hm.le nz.le
  have c0 : closing gx gy r v w ≠ 0 := abs_pos.1 (hm.trans_le (hb.steep w hw))
  have exact' : (d.x * ν.x + d.y * ν.y + d.z * ν.z) / V3.dot ν v = w - rayGap f r v w / closing gx gy r v w := by
    rw [den, div_eq_iff (mul_ne_zero nz.ne' c0), nx, ny]
    have e3 : (w - rayGap f r v w / closing gx gy r v w) * (ν.z * closing gx gy r v w) = ν.z * (w * closing gx gy r v w - rayGap f r v w) := by
      field_simp
    rw [e3]
    simp only [rayGap, closing, pointAt, hdd, ← hP, ← hQ]
    ring
  obtain ⟨q0, fin⟩ := quotient_near (T := T) h hu (div_pos hm hK) low num ev (by
    rw [le_div_iff₀ hK]; linarith) (by rw [exact']; exact hT)
  refine ⟨rd (rd (rd (rd (rd (x - r.x) * n'.x) + rd (rd (y - r.y) * n'.y)) + rd (rd (z - r.z) * n'.z)) /
    rd (rd (rd (n'.x * v.x) + rd (n'.y * v.y)) + rd (n'.z * v.z))), ?_, ?_⟩
  · unfold Surface.newtonStep
    have ex : ((r.flt rd) + (v.flt rd).smulR (Flt.fin rd w)).x = Flt.fin rd x := by simp [V3.flt, hx, Flt.mul_fin, Flt.add_fin]
    have ey : ((r.flt rd) + (v.flt rd).smulR (Flt.fin rd w)).y = Flt.fin rd y := by simp [V3.flt, hy, Flt.mul_fin, Flt.add_fin]
    simp only [ex, ey, ez, en]
    simp only [V3.flt, V3.map_x, V3.map_y, V3.map_z, V3.dot, Flt.mul_fin, Flt.add_fin, Flt.sub_fin, Flt.div_fin q0]
  · rw [exact'] at fin
    refine fin.trans (le_of_eq ?_)
    rw [stepSlack, show 3 / (m / K) = 3 * K / m by field_simp]
    ring

theorem beginsAt_time {dt : Flt rd} {t0 : ℝ} (h : BeginsAt r v dt n t0 s) :
    s.timeToIntersect (r.flt rd) (v.flt rd) dt n = Surface.newton s.sag s.normal (r.flt rd) (v.flt rd) (Flt.fin rd t0) n := by
  cases h with
  | polynomial p h => rw [h]; rfl
  | bicubic T h => rw [h]; rfl
  | asphere R k cs h =>
    change Surface.quadricTime R k (r.flt rd) (v.flt rd) dt = _ at h
    simp only [Surface.asphere, h]
  | sum s ss h => simp only [Surface.sum, Surface.sumTime, h]

/-- **C133**: the error of the time after `n` steps goes down with the power `2 ^ n - 1` of a number below one, until it reaches what rounding leaves. -/
theorem C133_converges (h : Rounds u rd) (hu : u ≤ 1 / 1000) (hb : Bending f gx gy r v t ρ m M K) (hr : Reported u s f gx gy r v t ρ A εs εn)
    (hm : 0 < m) (hM : 0 ≤ M) (hK : 0 < K) (hρ : 0 < ρ) (ht : f (foot r v t) = (pointAt r v t).z) (hV : |v.x| + |v.y| + |v.z| ≤ V) (hs0 : 0 ≤ εs)
    (hεn : εn ≤ 1) (hA : 10 * u * A + 2 * εs ≤ A) (hd : 2 * K * (V * (εn + 12 * u)) ≤ m) (hθ : 2 * M * ρ ≤ θ * m) (h1 : 2 * θ ≤ 1)
    (hδ : 4 * stepSlack u A K m V (|t| + ρ) εs εn ≤ ρ) {t0 : ℝ} (h0 : |t0 - t| ≤ ρ) (n : ℕ) :
    ∃ w, Surface.newtonIter s.sag s.normal (r.flt rd) (v.flt rd) n (Flt.fin rd t0) = Flt.fin rd w ∧ |w - t| ≤ ρ ∧
      |w - t| ≤ ρ * (2 * θ) ^ (2 ^ n - 1) + 2 * stepSlack u A K m V (|t| + ρ) εs εn := by
  have hθ0 : 0 ≤ θ := by
    by_contra hn
    have : θ * m < 0 := mul_neg_of_neg_of_pos (not_le.1 hn) hm
    nlinarith [mul_nonneg hM hρ.le]
  have hc : |t - t| ≤ ρ := by simpa using hρ.le
  have hz : rayGap f r v t = 0 := by unfold rayGap; linarith
  have exact' : ∀ {w : ℝ}, |w - t| ≤ ρ → |w - rayGap f r v w / closing gx gy r v w - t| ≤ θ / ρ * |w - t| ^ 2 := by
    intro w hw
    refine (step_error hm hM (fun w hw => bending_deriv hb hw) hz hb.steep hb.bends hw).trans ?_
    refine mul_le_mul_of_nonneg_right ?_ (sq_nonneg _)
    rw [div_le_div_iff₀ hm hρ]
    exact hθ
  have step : ∀ {w : ℝ}, |w - t| ≤ ρ → ∃ t', Surface.newtonStep s.sag s.normal (r.flt rd) (v.flt rd) (Flt.fin rd w) = Flt.fin rd t' ∧
      |t' - t| ≤ θ / ρ * |w - t| ^ 2 + stepSlack u A K m V (|t| + ρ) εs εn := by
    intro w hw
    have e1 := exact' hw
    have e2 : θ / ρ * |w - t| ^ 2 ≤ ρ := by
      have k : θ / ρ * |w - t| ^ 2 ≤ θ / ρ * ρ ^ 2 := mul_le_mul_of_nonneg_left (pow_le_pow_left₀ (abs_nonneg _) hw 2) (by positivity)
      have e3 : θ / ρ * ρ ^ 2 = θ * ρ := by field_simp
      have : θ * ρ ≤ 1 * ρ := mul_le_mul_of_nonneg_right (by linarith) hρ.le
      linarith
    have e4 : |w - rayGap f r v w / closing gx gy r v w| ≤ |t| + ρ := by
      have := abs_sub_abs_le_abs_sub (w - rayGap f r v w / closing gx gy r v w) t
      linarith
    obtain ⟨t', e5, e6⟩ := step_near h hu hb hr hm hK hV hs0 hεn hA hd hw e4
    refine ⟨t', e5, ?_⟩
    have := abs_sub_le t' (w - rayGap f r v w / closing gx gy r v w) t
    linarith
  have hδ0 : 0 ≤ stepSlack u A K m V (|t| + ρ) εs εn := by
    obtain ⟨t', -, k⟩ := step_near h hu hb hr hm hK hV hs0 hεn hA hd hc (T := |t| + ρ) (by rw [hz, zero_div, sub_zero]; linarith)
    exact (abs_nonneg _).trans k
  induction n with
  | zero => exact ⟨t0, rfl, h0, by simp; linarith⟩
  | succ n ih =>
    obtain ⟨w, e, k1, k2⟩ := ih
    obtain ⟨t', e', k'⟩ := step k1
    obtain ⟨p, q⟩ := noisy_step hρ hδ0 hθ0 h1 hδ (abs_nonneg _) k1 k2 k'
    exact ⟨t', by rw [iter_add, e, e'], p, q⟩

/-- **C133**: the ray is found, if what the steps and rounding leave is below the tolerance. -/
theorem C133_found (h : Rounds u rd) (hu : u ≤ 1 / 1000) (hb : Bending f gx gy r v t ρ m M K) (hr : Reported u s f gx gy r v t ρ A εs εn)
    (hm : 0 < m) (hM : 0 ≤ M) (hK : 0 < K) (hρ : 0 < ρ) (ht : f (foot r v t) = (pointAt r v t).z) (hV : |v.x| + |v.y| + |v.z| ≤ V) (hs0 : 0 ≤ εs)
    (hεn : εn ≤ 1) (hA : 10 * u * A + 2 * εs ≤ A) (hd : 2 * K * (V * (εn + 12 * u)) ≤ m) (hθ : 2 * M * ρ ≤ θ * m) (h1 : 2 * θ ≤ 1)
    (hδ : 4 * stepSlack u A K m V (|t| + ρ) εs εn ≤ ρ) (hB : ∀ w, |w - t| ≤ ρ → |closing gx gy r v w| ≤ B) {dt : Flt rd} {t0 : ℝ}
    (hs : BeginsAt r v dt n t0 s) (h0 : |t0 - t| ≤ ρ)
    (hn : 101 / 100 * (B * (ρ * (2 * θ) ^ (2 ^ n - 1) + 2 * stepSlack u A K m V (|t| + ρ) εs εn) + εs + 4 * u * A) < 1 / 10 ^ 12) :
    ∃ w, s.timeToIntersect (r.flt rd) (v.flt rd) dt n = (true, Flt.fin rd w) ∧ |w - t| ≤ ρ ∧
      |w - t| ≤ ρ * (2 * θ) ^ (2 ^ n - 1) + 2 * stepSlack u A K m V (|t| + ρ) εs εn := by
  obtain ⟨w, e, k1, k2⟩ := C133_converges h hu hb hr hm hM hK hρ ht hV hs0 hεn hA hd hθ h1 hδ h0 n
  refine ⟨w, ?_, k1, k2⟩
  have hu0 := h.nonneg
  obtain ⟨sx, sy, sz, -⟩ := hr.size w k1
  obtain ⟨z, ez, kz⟩ := hr.sag w k1 _ _ (place_near h hu sx) (place_near h hu sy)
  have pz := place_near h hu sz
  have hc : |t - t| ≤ ρ := by simpa using hρ.le
  have g := value_bound (fun w hw => bending_deriv hb hw) hB hc k1
  have hz : rayGap f r v t = 0 := by unfold rayGap; linarith
  rw [hz, sub_zero] at g
  have B0 : 0 ≤ B := (abs_nonneg _).trans (hB t hc)
  have g2 := g.trans (mul_le_mul_of_nonneg_left k2 B0)
  unfold rayGap at g2
  have gap : |z - rd (r.z + rd (v.z * w))| ≤ B * (ρ * (2 * θ) ^ (2 ^ n - 1) + 2 * stepSlack u A K m V (|t| + ρ) εs εn) + εs + 4 * u * A := by
    simp only [pointAt] at g2
    generalize B * (ρ * (2 * θ) ^ (2 ^ n - 1) + 2 * stepSlack u A K m V (|t| + ρ) εs εn) = X at *
    clear * - g2 kz pz
    rw [abs_le] at *
    constructor <;> linarith [g2.1, g2.2, kz.1, kz.2, pz.1, pz.2]
  rw [beginsAt_time hs]
  unfold Surface.newton
  have ex : ((r.flt rd) + (v.flt rd).smulR (Flt.fin rd w)).x = Flt.fin rd (rd (r.x + rd (v.x * w))) := by simp [V3.flt, Flt.mul_fin, Flt.add_fin]
  have ey : ((r.flt rd) + (v.flt rd).smulR (Flt.fin rd w)).y = Flt.fin rd (rd (r.y + rd (v.y * w))) := by simp [V3.flt, Flt.mul_fin, Flt.add_fin]
  have ez' : ((r.flt rd) + (v.flt rd).smulR (Flt.fin rd w)).z = Flt.fin rd (rd (r.z + rd (v.z * w))) := by simp [V3.flt, Flt.mul_fin, Flt.add_fin]
  simp only [e, ex, ey, ez', ez, Flt.sub_fin, Flt.abs_fin, Flt.const_fin, Flt.lt_fin, Prod.mk.injEq, and_true, decide_eq_true_eq]
  have a1 := h.err (z - rd (r.z + rd (v.z * w)))
  have a2 := h.err ((1 / 10 ^ 12 : ℚ) : ℝ)
  have e2 : ((1 / 10 ^ 12 : ℚ) : ℝ) = 1 / 10 ^ 12 := by push_cast; ring
  rw [e2] at a2 ⊢
  rw [abs_of_pos (show (0 : ℝ) < 1 / 10 ^ 12 by norm_num)] at a2
  have a3 := (abs_le.1 a2).1
  have a4 := abs_sub_abs_le_abs_sub (rd (z - rd (r.z + rd (v.z * w)))) (z - rd (r.z + rd (v.z * w)))
  have a5 : u * |z - rd (r.z + rd (v.z * w))| ≤ 1 / 1000 * |z - rd (r.z + rd (v.z * w))| := mul_le_mul_of_nonneg_right hu (abs_nonneg _)
  generalize B * (ρ * (2 * θ) ^ (2 ^ n - 1) + 2 * stepSlack u A K m V (|t| + ρ) εs εn) + εs + 4 * u * A = X at *
  generalize |z - rd (r.z + rd (v.z * w))| = Y at *
  generalize |rd (z - rd (r.z + rd (v.z * w)))| = Z at *
  clear * - a1 a3 a4 a5 gap hn hu hu0
  norm_num at a3 hn ⊢
  linarith

/-- **C133**: `intersect` does not fail, and leaves the ray at the true meeting point up to what the steps and rounding leave. -/
theorem C133_lands (h : Rounds u rd) (hu : u ≤ 1 / 1000) (hb : Bending f gx gy r v t ρ m M K) (hr : Reported u s f gx gy r v t ρ A εs εn)
    (hm : 0 < m) (hM : 0 ≤ M) (hK : 0 < K) (hρ : 0 < ρ) (ht : f (foot r v t) = (pointAt r v t).z) (hV : |v.x| + |v.y| + |v.z| ≤ V) (hs0 : 0 ≤ εs)
    (hεn : εn ≤ 1) (hA : 10 * u * A + 2 * εs ≤ A) (hd : 2 * K * (V * (εn + 12 * u)) ≤ m) (hθ : 2 * M * ρ ≤ θ * m) (h1 : 2 * θ ≤ 1)
    (hδ : 4 * stepSlack u A K m V (|t| + ρ) εs εn ≤ ρ) (hB : ∀ w, |w - t| ≤ ρ → |closing gx gy r v w| ≤ B) {t0 : ℝ}
    (hs : BeginsAt r v 0 n t0 s) (h0 : |t0 - t| ≤ ρ)
    (hn : 101 / 100 * (B * (ρ * (2 * θ) ^ (2 ^ n - 1) + 2 * stepSlack u A K m V (|t| + ρ) εs εn) + εs + 4 * u * A) < 1 / 10 ^ 12)
    (ct : CoordTransform (Flt rd)) (co : Option (Coating (Flt rd))) (ray : Ray (Flt rd)) (hf : ray.failed = false)
    (er : ct.forward ray.r = r.flt rd) (ev : ct.forwardVel ray.v = v.flt rd) :
    (ray.intersect s ct co n).failed = false ∧ ∃ q, (ray.intersect s ct co n).r = V3.flt rd q ∧
      nrm (q - pointAt r v t) ≤ V * (ρ * (2 * θ) ^ (2 ^ n - 1) + 2 * stepSlack u A K m V (|t| + ρ) εs εn) + 12 * u * A := by
  obtain ⟨w, e, k1, k2⟩ := C133_found h hu hb hr hm hM hK hρ ht hV hs0 hεn hA hd hθ h1 hδ hB hs h0 hn
  obtain ⟨sx, sy, sz, -⟩ := hr.size w k1
  have px := place_near h hu sx
  have py := place_near h hu sy
  have pz := place_near h hu sz
  have g : ray.intersect s ct co n = { ray with
      r := r.flt rd + (v.flt rd).smulR (Flt.fin rd w), v := v.flt rd, t := ray.t + Flt.fin rd w, flux := (ray.intersect s ct co n).flux } := by
    unfold Ray.intersect
    simp only [hf, er, ev, e, Bool.false_eq_true, if_false]
  refine ⟨by rw [g]; exact hf, ⟨rd (r.x + rd (v.x * w)), rd (r.y + rd (v.y * w)), rd (r.z + rd (v.z * w))⟩, ?_, ?_⟩
  · rw [g]
    ext <;> simp [V3.flt, Flt.mul_fin, Flt.add_fin]
  · have part : ∀ {a b p : ℝ}, |p - (a + w * b)| ≤ 4 * u * A → |p - (a + t * b)| ≤ |b| * |w - t| + 4 * u * A := by
      intro a b p hp
      have := abs_sub_le p (a + w * b) (a + t * b)
      rw [show a + w * b - (a + t * b) = b * (w - t) by ring, abs_mul] at this
      linarith
    have ax := part px
    have ay := part py
    have az := part pz
    have tri : ∀ d : V3 ℝ, nrm d ≤ |d.x| + |d.y| + |d.z| := by
      intro d
      refine nrm_le (by positivity) ?_
      nlinarith [sq_abs d.x, sq_abs d.y, sq_abs d.z, mul_nonneg (abs_nonneg d.x) (abs_nonneg d.y), mul_nonneg (abs_nonneg d.x) (abs_nonneg d.z),
        mul_nonneg (abs_nonneg d.y) (abs_nonneg d.z)]
    refine (tri _).trans ?_
    simp only [V3.sub_x, V3.sub_y, V3.sub_z, pointAt]
    have V0 : 0 ≤ V := le_trans (by positivity) hV
    have b1 := mul_le_mul_of_nonneg_right hV (abs_nonneg (w - t))
    have b2 := mul_le_mul_of_nonneg_left k2 V0
    linarith

end ray

/-! ## A concrete case: a ray met by the bowl `z = x² + y²` in double precision, five steps -/

section case53

theorem bowl_height (x y : ℝ) : SagWithin rd53 (.polynomial bowlData) x y (x ^ 2 + y ^ 2) (36 * 2 ^ (-53 : ℤ) * (x ^ 2 + y ^ 2)) := by
  have := C130_polynomial_sag (x := x) (y := y) rd53_rounds (by norm_num) bowl_holds (by norm_num [bowlData])
  rw [show bowlData.xsize = 3 from rfl, show bowlData.ysize = 3 from rfl, sub_zero, sub_zero, bowl_value] at this
  have e : polyValue (fun i j => |bowlCoefs i j|) 3 3 |x| |y| = x ^ 2 + y ^ 2 := by
    simp [polyValue, bowlCoefs, Finset.sum_range_succ]; ring
  rw [e] at this
  norm_num at this ⊢
  exact this

private noncomputable def caseStart : V3 ℝ := ⟨3 / 64, 0, 5 / 256⟩
private noncomputable def caseVel : V3 ℝ := ⟨1, 0, -1⟩
private noncomputable def caseHeight (p : ℝ × ℝ) : ℝ := p.1 ^ 2 + p.2 ^ 2

private theorem foot_case (w : ℝ) : foot caseStart caseVel w = (3 / 64 + w, 0) := by simp [foot, pointAt, caseStart, caseVel]

private theorem closing_case (w : ℝ) : closing (fun p => 2 * p.1) (fun p => 2 * p.2) caseStart caseVel w = -(1 + 2 * (3 / 64 + w)) := by
  rw [closing, foot_case]
  simp only [caseVel]; ring

private theorem time_case {w : ℝ} (hw : |w - 1 / 64| ≤ 1 / 64) : 0 ≤ w ∧ w ≤ 1 / 32 := by
  rw [abs_le] at hw
  constructor <;> linarith [hw.1, hw.2]

private theorem bending_case : Bending caseHeight (fun p => 2 * p.1) (fun p => 2 * p.2) caseStart caseVel (1 / 64) (1 / 64) 1 2 2 := by
  refine ⟨fun w _ => ?_, fun w hw => ?_, fun w hw => ?_, fun w hw => ?_⟩
  · generalize foot caseStart caseVel w = p
    have hx : HasFDerivAt (fun p : ℝ × ℝ => p.1 ^ 2) ((2 * p.1) • ContinuousLinearMap.fst ℝ ℝ ℝ) p := by
      simpa using (hasFDerivAt_fst (𝕜 := ℝ) (p := p)).pow 2
    have hy : HasFDerivAt (fun p : ℝ × ℝ => p.2 ^ 2) ((2 * p.2) • ContinuousLinearMap.snd ℝ ℝ ℝ) p := by
      simpa using (hasFDerivAt_snd (𝕜 := ℝ) (p := p)).pow 2
    exact hx.add hy
  · have := time_case hw
    rw [closing_case, abs_neg, abs_of_pos (by linarith)]
    linarith
  · rw [closing_case, closing_case, show -(1 + 2 * (3 / 64 + w)) - -(1 + 2 * (3 / 64 + 1 / 64)) = -2 * (w - 1 / 64) by ring, abs_mul]
    norm_num
  · have := time_case hw
    rw [foot_case]
    nlinarith

private theorem reported_case : Reported (2 ^ (-53 : ℤ)) (.polynomial bowlData) caseHeight (fun p => 2 * p.1) (fun p => 2 * p.2) caseStart caseVel (1 / 64) (1 / 64) (1 / 8)
    (3 * 2 ^ (-53 : ℤ)) (32 * 2 ^ (-53 : ℤ)) := by
  have u0 : (0 : ℝ) < 2 ^ (-53 : ℤ) := by positivity
  have u1 : (2 : ℝ) ^ (-53 : ℤ) ≤ 1 / 1000 := by norm_num
  have near : ∀ {w x y : ℝ}, |w - 1 / 64| ≤ 1 / 64 → |x - (pointAt caseStart caseVel w).x| ≤ 4 * 2 ^ (-53 : ℤ) * (1 / 8) →
      |y - (pointAt caseStart caseVel w).y| ≤ 4 * 2 ^ (-53 : ℤ) * (1 / 8) →
      |x - (3 / 64 + w)| ≤ 2 ^ (-53 : ℤ) / 2 ∧ |y| ≤ 2 ^ (-53 : ℤ) / 2 ∧ |x| ≤ 1 / 8 ∧ |y| ≤ 1 / 8 := by
    intro w x y hw h1 h2
    have := time_case hw
    simp only [pointAt, caseStart, caseVel, mul_one, mul_zero, add_zero, sub_zero] at h1 h2
    generalize (2 : ℝ) ^ (-53 : ℤ) = e at *
    refine ⟨by linarith, by linarith, ?_, by linarith⟩
    rw [abs_le] at h1 ⊢
    constructor <;> linarith [h1.1, h1.2]
  refine ⟨fun w hw => ?_, fun w hw x y h1 h2 => ?_, fun w hw x y h1 h2 n hn => ?_⟩
  · have := time_case hw
    rw [foot_case]
    simp only [caseStart, caseVel, caseHeight]
    refine ⟨?_, by norm_num, ?_, ?_⟩
    · rw [one_mul, abs_of_pos (by norm_num), abs_of_nonneg this.1]; linarith
    · rw [neg_one_mul, abs_neg, abs_of_pos (by norm_num), abs_of_nonneg this.1]; linarith
    · rw [abs_of_nonneg (by positivity)]; nlinarith
  · obtain ⟨k1, k2, k3, k4⟩ := near hw h1 h2
    obtain ⟨z, e, k⟩ := bowl_height x y
    refine ⟨z, e, ?_⟩
    have := time_case hw
    simp only [foot_case, caseHeight]
    generalize (2 : ℝ) ^ (-53 : ℤ) = ε at *
    have a1 : x ^ 2 + y ^ 2 ≤ 1 / 32 := by
      have := sq_le_sq' (abs_le.1 k3).1 (abs_le.1 k3).2
      have := sq_le_sq' (abs_le.1 k4).1 (abs_le.1 k4).2
      linarith
    have a2 := mul_le_mul_of_nonneg_left a1 (by linarith : 0 ≤ 36 * ε)
    have a3 : |x ^ 2 - (3 / 64 + w) ^ 2| ≤ ε / 2 * (1 / 4) := by
      rw [show x ^ 2 - (3 / 64 + w) ^ 2 = (x - (3 / 64 + w)) * (x + (3 / 64 + w)) by ring, abs_mul]
      refine mul_le_mul k1 ?_ (abs_nonneg _) (by linarith)
      rw [abs_le] at k3 ⊢
      constructor <;> linarith [k3.1, k3.2]
    have a4 : y ^ 2 ≤ ε / 2 * (1 / 8) := by
      rw [← sq_abs, sq]
      exact mul_le_mul k2 k4 (abs_nonneg _) (by linarith)
    have a5 := sq_nonneg y
    rw [abs_le] at k a3 ⊢
    constructor <;> linarith [k.1, k.2, a3.1, a3.2]
  · obtain ⟨k1, k2, k3, k4⟩ := near hw h1 h2
    obtain ⟨n', e, k⟩ := bowl_normal x y
    refine ⟨n', e, ?_⟩
    simp only [foot_case] at hn
    rw [hn.upward]
    have up := upward_close (2 * (3 / 64 + w)) (2 * 0) (2 * x) (2 * y)
    rw [← mul_sub, ← mul_sub, abs_mul, abs_mul, sub_zero, abs_of_pos (by norm_num : (0 : ℝ) < 2)] at up
    have t := nrm_via n' (upward (2 * x) (2 * y)) (upward (2 * (3 / 64 + w)) (2 * 0))
    generalize (2 : ℝ) ^ (-53 : ℤ) = ε at *
    have : (12 + 72 * (|x| + |y|)) * ε ≤ 30 * ε := mul_le_mul_of_nonneg_right (by linarith) u0.le
    linarith

private noncomputable def caseRay : Ray (Flt rd53) := ⟨V3.flt rd53 caseStart, V3.flt rd53 caseVel, 0, 1, 1, false, false⟩

private theorem caseRay_here : hereT.forward caseRay.r = V3.flt rd53 caseStart ∧ hereT.forwardVel caseRay.v = V3.flt rd53 caseVel := by
  have h0 := rd53_rounds.zero
  have e1 : rd53 (3 / 64) = 3 / 64 := by
    have h := rd53_dyadic 3 (-6) (by norm_num)
    norm_num at h ⊢; exact h
  have e2 : rd53 (5 / 256) = 5 / 256 := by
    have h := rd53_dyadic 5 (-8) (by norm_num)
    norm_num at h ⊢; exact h
  have e3 : rd53 (-1) = -1 := by simpa using rd53_negNat 1 (by norm_num)
  constructor <;>
  simp [hereT, caseRay, caseStart, caseVel, CoordTransform.forward, CoordTransform.forwardVel, M3.mulVec, M3.tr, M3.flt, M3.map, V3.flt, V3.map, h0, e1, e2, e3,
    rd53_one]

/-- The ray from `(3/64, 0, 5/256)` along `(1, 0, -1)` meets the bowl at time `1/64`; five steps from time zero find it up to 1e-12. -/
example (co : Option (Coating (Flt rd53))) :
    (caseRay.intersect (.polynomial bowlData) hereT co 5).failed = false ∧ ∃ q, (caseRay.intersect (.polynomial bowlData) hereT co 5).r = V3.flt rd53 q ∧
      nrm (q - ⟨1 / 16, 0, 1 / 256⟩) ≤ 1 / 10 ^ 12 := by
  have sl : stepSlack (2 ^ (-53 : ℤ)) (1 / 8) 2 1 2 (|1 / 64| + 1 / 64) (3 * 2 ^ (-53 : ℤ)) (32 * 2 ^ (-53 : ℤ)) ≤ 470 * 2 ^ (-53 : ℤ) := by
    rw [stepSlack, abs_of_pos (by norm_num)]; norm_num
  obtain ⟨h1, q, h2, h3⟩ := C133_lands (n := 5) (θ := 1 / 16) (B := 5 / 4) (V := 2) (t0 := 0) rd53_rounds (by norm_num) bending_case reported_case (by norm_num)
    (by norm_num) (by norm_num) (by norm_num) (by rw [foot_case]; norm_num [caseHeight, pointAt, caseStart, caseVel]) (by norm_num [caseVel]) (by positivity) (by norm_num)
    (by norm_num) (by norm_num) (by norm_num) (by norm_num) (by refine (mul_le_mul_of_nonneg_left sl (by norm_num)).trans ?_; norm_num)
    (fun w hw => by
      have := time_case hw
      rw [closing_case, abs_neg, abs_of_pos (by linarith)]
      linarith)
    (.polynomial bowlData (flt_zero rd53_rounds)) (by norm_num) (by norm_num at sl ⊢; linarith only [sl]) hereT co caseRay rfl caseRay_here.1 caseRay_here.2
  refine ⟨h1, q, h2, ?_⟩
  rw [show pointAt caseStart caseVel (1 / 64) = ⟨1 / 16, 0, 1 / 256⟩ by norm_num [pointAt, caseStart, caseVel]] at h3
  refine h3.trans ?_
  norm_num at sl ⊢
  linarith only [sl]

end case53
end Batoid.Props
