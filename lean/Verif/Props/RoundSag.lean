import Verif.Props.RoundLanding
import Mathlib.Analysis.Calculus.Deriv.Pow
import Mathlib.Analysis.Calculus.Deriv.Mul
import Mathlib.Analysis.Calculus.Deriv.Add

/-!
# Property C125: sags and normals away from the rim, in arithmetic with rounding

Specification vocabulary: `OnConic` and `ConicNormal` say which point is on a conic of revolution and what its unit normal is, by the
equation of the conic and its gradient; `OffRim c` keeps a point away from the rim.
-/

namespace Batoid.Props
open Batoid

section spec

/-- `z` is the height, over `(x, y)`, of the sheet through the vertex of the conic of revolution `x² + y² + (1 + κ) z² = 2 R z`. -/
def OnConic (κ R x y z : ℝ) : Prop := x ^ 2 + y ^ 2 + (1 + κ) * z ^ 2 = 2 * R * z ∧ 0 < R * (R - (1 + κ) * z)

/-- `n` is the upward unit normal of the conic at `(x, y, z)`: parallel to the gradient of `x² + y² + (1 + κ) z² - 2 R z`. -/
def ConicNormal (κ R x y z : ℝ) (n : V3 ℝ) : Prop :=
  (∃ t, n = ⟨t * x, t * y, t * ((1 + κ) * z - R)⟩) ∧ nrm n = 1 ∧ 0 < n.z

/-- `(1 + κ) (x² + y²)` is at most the part `c / (c + 1)` of `R²`, which it reaches at the rim: `c = 1` for half, `c = 99` for 99%. -/
def OffRim (c : ℕ) (κ R x y : ℝ) : Prop := (c + 1) * ((1 + κ) * (x ^ 2 + y ^ 2)) ≤ c * R ^ 2

/-- The sag computed at `(x, y)` is a number within `e` of `z`. -/
def SagWithin (rd : ℝ → ℝ) (s : Surface (Flt rd)) (x y z e : ℝ) : Prop :=
  ∃ z', s.sag (Flt.fin rd x) (Flt.fin rd y) = Flt.fin rd z' ∧ |z' - z| ≤ e

/-- The normal computed at `(x, y)` consists of numbers and is within `e` of `n`. -/
def NormalWithin (rd : ℝ → ℝ) (s : Surface (Flt rd)) (x y : ℝ) (n : V3 ℝ) (e : ℝ) : Prop :=
  ∃ n' : V3 ℝ, s.normal (Flt.fin rd x) (Flt.fin rd y) = n'.flt rd ∧ nrm (n' - n) ≤ e

/-- `Σ cᵢ P^(j + i + 1)`. -/
def powerSum (P : ℝ) : ℕ → List ℝ → ℝ
  | _, [] => 0
  | j, a :: as => a * P ^ (j + 1) + powerSum P (j + 1) as

/-- `n` is the upward unit normal at `(x, y)` of a surface of revolution of slope `D` there. -/
def RadialNormal (x y D : ℝ) (n : V3 ℝ) : Prop :=
  nrm n = 1 ∧ 0 < n.z ∧ n.x * Real.sqrt (x ^ 2 + y ^ 2) = -x * D * n.z ∧ n.y * Real.sqrt (x ^ 2 + y ^ 2) = -y * D * n.z ∧
    (x = 0 → y = 0 → n.x = 0 ∧ n.y = 0)

end spec

section lemmas
variable {u : ℝ} {rd : ℝ → ℝ} {κ R x y z : ℝ} {c : ℕ}

/-- `Σ aᵢ (2 (j + i) + 2) ρ^(2 (j + i) + 1)`: see `slopeSum_deriv`. -/
def slopeSum (ρ : ℝ) : ℕ → List ℝ → ℝ
  | _, [] => 0
  | j, a :: as => a * ((2 * j + 2 : ℕ) : ℝ) * ρ ^ (2 * j + 1) + slopeSum ρ (j + 1) as

/-- `sqrt(1 - (1 + κ) r² / R²)`. -/
noncomputable def rimRoot (κ R x y : ℝ) : ℝ := Real.sqrt (1 - (x * x + y * y) * ((κ + 1) / R / R))

theorem OnConic.ne (h : OnConic κ R x y z) : R ≠ 0 := fun e => by simp [OnConic, e] at h

theorem OnConic.sq (h : OnConic κ R x y z) : 1 - (x * x + y * y) * ((κ + 1) / R / R) = ((R - (1 + κ) * z) / R) ^ 2 := by
  have := h.ne
  field_simp
  have := h.1
  linear_combination (-(κ + 1)) * this

theorem OnConic.quot_pos (h : OnConic κ R x y z) : 0 < (R - (1 + κ) * z) / R := by
  have := h.2
  have hR := h.ne
  rw [show (R - (1 + κ) * z) / R = R * (R - (1 + κ) * z) / R ^ 2 by field_simp]
  positivity

theorem OnConic.root (h : OnConic κ R x y z) : rimRoot κ R x y = (R - (1 + κ) * z) / R := by
  rw [rimRoot, h.sq, Real.sqrt_sq h.quot_pos.le]

theorem OnConic.height (h : OnConic κ R x y z) : z = (x * x + y * y) / (R * (1 + rimRoot κ R x y)) := by
  have hR := h.ne
  have hq := h.quot_pos
  rw [h.root]
  have e : R * (1 + (R - (1 + κ) * z) / R) = 2 * R - (1 + κ) * z := by field_simp; ring
  have ne : 2 * R - (1 + κ) * z ≠ 0 := by rw [← e]; exact mul_ne_zero hR (by linarith)
  rw [e, eq_div_iff ne]
  have := h.1
  linear_combination -this

theorem ConicNormal.eq {n : V3 ℝ} (hz : OnConic κ R x y z) (h : ConicNormal κ R x y z n) :
    n = ⟨-x / (R * rimRoot κ R x y) * (1 / Real.sqrt (1 + (x * x + y * y) / (R * rimRoot κ R x y) ^ 2)),
      -y / (R * rimRoot κ R x y) * (1 / Real.sqrt (1 + (x * x + y * y) / (R * rimRoot κ R x y) ^ 2)),
      1 / Real.sqrt (1 + (x * x + y * y) / (R * rimRoot κ R x y) ^ 2)⟩ := by
  obtain ⟨⟨t, rfl⟩, h1, h2⟩ := h
  have hR := hz.ne
  have hq := hz.quot_pos
  have er : R * rimRoot κ R x y = R - (1 + κ) * z := by rw [hz.root]; field_simp
  rw [er]
  set D := R - (1 + κ) * z with hD
  have dne : D ≠ 0 := fun e => by rw [e] at hq; simp at hq
  have h2 : 0 < t * -D := by simpa [hD] using h2
  have n2 : (t * x) ^ 2 + (t * y) ^ 2 + (t * -D) ^ 2 = 1 := by
    have := nrm_sq ⟨t * x, t * y, t * ((1 + κ) * z - R)⟩
    rw [h1] at this
    simp only [hD] at *
    linarith
  have e1 : 1 + (x * x + y * y) / D ^ 2 = (1 / (t * -D)) ^ 2 := by
    have ht : t ≠ 0 := fun e => by simp [e] at h2
    field_simp
    linear_combination n2
  rw [e1, Real.sqrt_sq (by positivity)]
  have ht : t ≠ 0 := fun e => by simp [e] at h2
  ext
  · field_simp
  · field_simp
  · simp only [hD]; field_simp; ring

/-- Subtraction from one, where the difference is at least the part `1 / (c + 1)`. -/
theorem Rel.one_sub (hu0 : 0 ≤ u) (hu1 : u < 1) {k : ℕ} {a b : ℝ} (h : Rel u k a b) (hc : 1 ≤ c) (hb : (c + 1) * b ≤ c)
    (hku : (2 * (k * c) : ℕ) * u ≤ 1 / 2) : Rel u (2 * (k * c)) (1 - a) (1 - b) := by
  obtain ⟨θ, rfl, p1, p2⟩ := h
  have hc' : (1 : ℝ) ≤ c := by exact_mod_cast hc
  have b1 : 0 < 1 - b := by nlinarith
  push_cast at hku
  have k0 : (0 : ℝ) ≤ k := Nat.cast_nonneg k
  have bern : ∀ n : ℕ, 1 - n * u ≤ (1 - u) ^ n := fun n => by
    have := one_add_mul_le_pow (a := -u) (by linarith) n
    have e : (1 + -u) ^ n = (1 - u) ^ n := by ring_nf
    rw [e] at this
    linarith
  have up : ∀ n : ℕ, (1 - u) ^ n * (1 + n * u) ≤ 1 := fun n => by
    have h1 := one_add_mul_le_pow (a := u) (by linarith) n
    have h2 : (1 - u) ^ n * (1 + u) ^ n ≤ 1 := by
      rw [← mul_pow]
      exact pow_le_one₀ (by nlinarith) (by nlinarith)
    exact (mul_le_mul_of_nonneg_left h1 (gpos hu1 n).le).trans h2
  have g := bern k
  have θ0 : 0 ≤ θ := (gpos hu1 k).le.trans p1
  have ku : k * u ≤ k * c * u := by nlinarith [mul_nonneg k0 hu0]
  have w0 : 0 ≤ k * u := mul_nonneg k0 hu0
  -- the relative error is at most 4/3 k u
  have d1 : θ - 1 ≤ 4 / 3 * (k * u) := by
    have : θ * (1 - k * u) ≤ 1 := (mul_le_mul_of_nonneg_left g θ0).trans p2
    by_contra hh
    push Not at hh
    nlinarith
  have d2 : -(4 / 3 * (k * u)) ≤ θ - 1 := by linarith
  have q1 : |b| ≤ c * (1 - b) := by
    rw [abs_le]; constructor <;> nlinarith
  have dabs : |θ - 1| ≤ 4 / 3 * (k * u) := abs_le.2 ⟨d2, d1⟩
  have m : |b * (θ - 1)| ≤ 4 / 3 * (k * c * u) * (1 - b) := by
    rw [abs_mul]
    calc |b| * |θ - 1| ≤ (c * (1 - b)) * (4 / 3 * (k * u)) := mul_le_mul q1 dabs (abs_nonneg _) (by positivity)
      _ = _ := by ring
  rw [abs_le] at m
  have U := up (2 * (k * c))
  push_cast at U
  have G := gpos hu1 (2 * (k * c))
  have W : 0 ≤ k * c * u := by positivity
  refine ⟨(1 - b * θ) / (1 - b), by field_simp, ?_, ?_⟩
  · rw [le_div_iff₀ b1]
    have : (1 - u) ^ (2 * (k * c)) ≤ 1 - 4 / 3 * (k * c * u) := by
      have e : 1 ≤ (1 - 4 / 3 * (k * c * u)) * (1 + 2 * (k * c) * u) := by nlinarith
      have pos : 0 < 1 + 2 * (k * c) * u := by nlinarith
      exact le_of_mul_le_mul_right (U.trans e) pos
    nlinarith
  · rw [div_mul_eq_mul_div, div_le_iff₀ b1]
    have : 1 - b * θ ≤ (1 + 2 * (k * c) * u) * (1 - b) := by nlinarith
    nlinarith

theorem offRim_le (hR : R ≠ 0) (h : OffRim c κ R x y) : ((c : ℝ) + 1) * ((x * x + y * y) * ((κ + 1) / R / R)) ≤ c := by
  have : 0 < R ^ 2 := by positivity
  rw [show ((c : ℝ) + 1) * ((x * x + y * y) * ((κ + 1) / R / R)) = (c + 1) * ((1 + κ) * (x ^ 2 + y ^ 2)) / R ^ 2 by field_simp; ring,
    div_le_iff₀ this]
  exact h

theorem rim_pos {q : ℝ} (h : ((c : ℝ) + 1) * q ≤ c) : 0 < 1 - q := by
  have : (0 : ℝ) ≤ c := Nat.cast_nonneg c
  nlinarith

theorem r2_rel (h : Rounds u rd) (hu1 : u < 1) (x y : ℝ) : Rel u 2 (rd (rd (x * x) + rd (y * y))) (x * x + y * y) :=
  h.after hu1 ((h.rel hu1 (x * x)).add hu1 (h.rel hu1 (y * y)) (mul_self_nonneg _) (mul_self_nonneg _))

theorem cp1_rel (h : Rounds u rd) (hu1 : u < 1) (κ R : ℝ) : Rel u 3 (rd (rd (rd (κ + 1) / R) / R)) ((κ + 1) / R / R) :=
  h.after hu1 ((h.after hu1 ((h.rel hu1 (κ + 1)).div hu1 (Rel.refl R))).div hu1 (Rel.refl R))

/-- The sag of a quadric. -/
theorem quadricSag_rel (h : Rounds u rd) (h1 : rd 1 = 1) (hc : 1 ≤ c) (hcu : (12 * c + 7) * u ≤ 1 / 2) (hR : R ≠ 0)
    (hx : OffRim c κ R x y) : ∃ z', Surface.quadricSag (Flt.fin rd R) (Flt.fin rd κ) (Flt.fin rd x) (Flt.fin rd y) = Flt.fin rd z' ∧
      Rel u (12 * c + 7) z' ((x * x + y * y) / (R * (1 + rimRoot κ R x y))) := by
  have hu0 := h.nonneg
  have hu1 : u < 1 := by
    have : (1 : ℝ) ≤ c := by exact_mod_cast hc
    nlinarith
  have q0 := offRim_le hR hx
  have rq := h.after hu1 ((r2_rel h hu1 x y).mul hu1 (cp1_rel h hu1 κ R))
  have r1 := h.after hu1 (rq.one_sub hu0 hu1 hc q0 (by push_cast; nlinarith [mul_nonneg (Nat.cast_nonneg (α := ℝ) c) hu0]))
  have p := rim_pos q0
  have r2 := h.after hu1 (r1.sqrt hu0 hu1 p.le)
  have s0 : 0 ≤ rimRoot κ R x y := Real.sqrt_nonneg _
  have r3 := h.after hu1 (((Rel.refl 1).mono hu0 hu1 (Nat.zero_le _)).add hu1 r2 zero_le_one s0)
  have r4 := h.after hu1 ((Rel.refl R).mul hu1 r3)
  have r5 := h.after hu1 ((r2_rel h hu1 x y).div hu1 r4)
  refine ⟨_, ?_, r5.mono hu0 hu1 (by omega)⟩
  have d0 : R * (1 + rimRoot κ R x y) ≠ 0 := mul_ne_zero hR (by linarith)
  have one : (1 : Flt rd) = Flt.fin rd 1 := by rw [flt_one, h1]
  unfold Surface.quadricSag
  simp only [flt_zero h, one, Flt.eq_fin, hR, decide_false, Bool.false_eq_true, if_false, Flt.mul_fin, Flt.add_fin, Flt.div_fin hR,
    Flt.sub_fin]
  rw [Flt.sqrt_fin (r1.nonneg hu1 p.le), Flt.add_fin, Flt.mul_fin, Flt.div_fin (r4.ne hu1 d0)]

/-- The slope of a quadric at a radius known to three roundings. -/
theorem quadricDzdr_rel (h : Rounds u rd) (h1 : rd 1 = 1) (hc : 1 ≤ c) (hcu : (22 * c + 7) * u ≤ 1 / 2) (hR : R ≠ 0)
    (hx : OffRim c κ R x y) {r : ℝ} (hr : Rel u 3 r (Real.sqrt (x * x + y * y))) :
    ∃ d, Surface.quadricDzdr (Flt.fin rd R) (Flt.fin rd κ) (Flt.fin rd r) = Flt.fin rd d ∧
      Rel u (22 * c + 7) d (Real.sqrt (x * x + y * y) / (R * rimRoot κ R x y)) := by
  have hu0 := h.nonneg
  have hu1 : u < 1 := by
    have : (1 : ℝ) ≤ c := by exact_mod_cast hc
    nlinarith
  have q0 := offRim_le hR hx
  have rr := h.after hu1 (hr.mul hu1 hr)
  rw [Real.mul_self_sqrt (add_nonneg (mul_self_nonneg _) (mul_self_nonneg _))] at rr
  have rq := h.after hu1 (rr.mul hu1 (cp1_rel h hu1 κ R))
  have r1 := h.after hu1 (rq.one_sub hu0 hu1 hc q0 (by push_cast; nlinarith [mul_nonneg (Nat.cast_nonneg (α := ℝ) c) hu0]))
  have p := rim_pos q0
  have r2 := h.after hu1 (r1.sqrt hu0 hu1 p.le)
  have r4 := h.after hu1 ((Rel.refl R).mul hu1 r2)
  have r5 := h.after hu1 (hr.div hu1 r4)
  refine ⟨_, ?_, r5.mono hu0 hu1 (by omega)⟩
  have d0 : R * rimRoot κ R x y ≠ 0 := mul_ne_zero hR (Real.sqrt_pos.2 p).ne'
  have one : (1 : Flt rd) = Flt.fin rd 1 := by rw [flt_one, h1]
  unfold Surface.quadricDzdr
  simp only [flt_zero h, one, Flt.eq_fin, hR, decide_false, Bool.false_eq_true, if_false, Flt.mul_fin, Flt.add_fin, Flt.div_fin hR,
    Flt.sub_fin]
  rw [Flt.sqrt_fin (r1.nonneg hu1 p.le), Flt.mul_fin, Flt.div_fin (r4.ne hu1 d0)]

/-- The slope of a sphere at a radius known to three roundings. -/
theorem sphereDzdr_rel (h : Rounds u rd) (h1 : rd 1 = 1) (hc : 1 ≤ c) (hcu : (22 * c + 8) * u ≤ 1 / 2) (hR : R ≠ 0)
    (hx : OffRim c 0 R x y) {r : ℝ} (hr : Rel u 3 r (Real.sqrt (x * x + y * y))) :
    ∃ d, Surface.sphereDzdr (Flt.fin rd R) (Flt.fin rd r) = Flt.fin rd d ∧
      Rel u (22 * c + 8) d (Real.sqrt (x * x + y * y) / (R * rimRoot 0 R x y)) := by
  have hu0 := h.nonneg
  have hu1 : u < 1 := by
    have : (1 : ℝ) ≤ c := by exact_mod_cast hc
    nlinarith
  have q0 := offRim_le hR hx
  have rt := h.after hu1 (hr.mul hu1 (h.after hu1 ((Rel.refl 1).div hu1 (Rel.refl R))))
  have rq := h.after hu1 (rt.mul hu1 rt)
  have e : Real.sqrt (x * x + y * y) * (1 / R) * (Real.sqrt (x * x + y * y) * (1 / R)) = (x * x + y * y) * ((0 + 1) / R / R) := by
    have := Real.mul_self_sqrt (add_nonneg (mul_self_nonneg x) (mul_self_nonneg y))
    calc _ = (Real.sqrt (x * x + y * y) * Real.sqrt (x * x + y * y)) * (1 / R * (1 / R)) := by ring
      _ = _ := by rw [this]; field_simp; ring
  rw [e] at rq
  have r1 := h.after hu1 (rq.one_sub hu0 hu1 hc q0 (by push_cast; nlinarith [mul_nonneg (Nat.cast_nonneg (α := ℝ) c) hu0]))
  have p := rim_pos q0
  have r2 := h.after hu1 (r1.sqrt hu0 hu1 p.le)
  have r5 := h.after hu1 (rt.div hu1 r2)
  have sp := Real.sqrt_pos.2 p
  have e5 : Real.sqrt (x * x + y * y) * (1 / R) / Real.sqrt (1 - (x * x + y * y) * ((0 + 1) / R / R)) =
      Real.sqrt (x * x + y * y) / (R * rimRoot 0 R x y) := by rw [rimRoot]; field_simp
  rw [e5] at r5
  refine ⟨_, ?_, r5.mono hu0 hu1 (by omega)⟩
  have one : (1 : Flt rd) = Flt.fin rd 1 := by rw [flt_one, h1]
  unfold Surface.sphereDzdr
  simp only [one, Flt.mul_fin, Flt.div_fin hR, Flt.sub_fin]
  rw [Flt.sqrt_fin (r1.nonneg hu1 p.le), Flt.div_fin (r2.ne hu1 sp.ne')]

/-- Components known to `k` relative errors. -/
theorem near_of_rel (hu0 : 0 ≤ u) (hu1 : u < 1) {k : ℕ} {n' n : V3 ℝ} (hx : Rel u k n'.x n.x) (hy : Rel u k n'.y n.y)
    (hz : Rel u k n'.z n.z) (hk : k * u ≤ 1 / 2) : nrm (n' - n) ≤ 2 * (k * u) * nrm n := by
  have a := hx.close hu0 hu1 hk
  have b := hy.close hu0 hu1 hk
  have d := hz.close hu0 hu1 hk
  have e0 : 0 ≤ 2 * (k * u) := by positivity
  refine nrm_le (mul_nonneg e0 (nrm_nonneg _)) ?_
  rw [mul_pow, nrm_sq]
  have sq : ∀ {p q : ℝ}, |p| ≤ 2 * (k * u) * |q| → p ^ 2 ≤ (2 * (k * u)) ^ 2 * q ^ 2 := fun {p q} hh => by
    rw [← sq_abs p, ← sq_abs q, ← mul_pow]
    exact pow_le_pow_left₀ (abs_nonneg _) hh 2
  have := sq a
  have := sq b
  have := sq d
  simp only [V3.sub_x, V3.sub_y, V3.sub_z]
  linarith

/-- The unit vector along `(-a, -b, 1)`. -/
noncomputable def upward (a b : ℝ) : V3 ℝ :=
  ⟨-a * (1 / Real.sqrt (1 + (a * a + b * b))), -b * (1 / Real.sqrt (1 + (a * a + b * b))), 1 / Real.sqrt (1 + (a * a + b * b))⟩

theorem nrm_upward (a b : ℝ) : nrm (upward a b) = 1 := by
  have p : 0 < 1 + (a * a + b * b) := by nlinarith [mul_self_nonneg a, mul_self_nonneg b]
  have e : nrm (upward a b) ^ 2 = 1 := by
    rw [nrm_sq, upward]
    have f := Real.sq_sqrt p.le
    have sp := Real.sqrt_pos.2 p
    generalize Real.sqrt (1 + (a * a + b * b)) = S at *
    have : (-a * (1 / S)) ^ 2 + (-b * (1 / S)) ^ 2 + (1 / S) ^ 2 = (1 + (a * a + b * b)) / S ^ 2 := by field_simp; ring
    simp only [this, ← f]
    rw [div_self (by positivity)]
  nlinarith [nrm_nonneg (upward a b)]

theorem ConicNormal.upward {n : V3 ℝ} (hz : OnConic κ R x y z) (h : ConicNormal κ R x y z n) :
    n = upward (x / (R * rimRoot κ R x y)) (y / (R * rimRoot κ R x y)) := by
  rw [h.eq hz, Props.upward]
  have e : x / (R * rimRoot κ R x y) * (x / (R * rimRoot κ R x y)) + y / (R * rimRoot κ R x y) * (y / (R * rimRoot κ R x y)) =
      (x * x + y * y) / (R * rimRoot κ R x y) ^ 2 := by
    rw [div_mul_div_comm, div_mul_div_comm, ← add_div, sq]
  rw [e, neg_div, neg_div]

/-- The body shared by the normals of spheres, quadrics and aspheres, off the axis: `r` is the computed radius, `d` the computed slope. -/
theorem radial_body (h : Rounds u rd) (h1 : rd 1 = 1) (hu1 : u < 1) {K : ℕ} {r d D : ℝ} (p : 0 < x * x + y * y)
    (hr : Rel u 3 r (Real.sqrt (x * x + y * y))) (hd : Rel u K d D) (hK : (3 * K + 10) * u ≤ 1 / 2) :
    ∃ n' : V3 ℝ, (⟨-Flt.fin rd x / Flt.fin rd r * Flt.fin rd d * (1 / Arith.sqrt (1 + Flt.fin rd d * Flt.fin rd d)),
      -Flt.fin rd y / Flt.fin rd r * Flt.fin rd d * (1 / Arith.sqrt (1 + Flt.fin rd d * Flt.fin rd d)),
      1 / Arith.sqrt (1 + Flt.fin rd d * Flt.fin rd d)⟩ : V3 (Flt rd)) = n'.flt rd ∧
      nrm (n' - upward (x / Real.sqrt (x * x + y * y) * D) (y / Real.sqrt (x * x + y * y) * D)) ≤ 2 * ((3 * K + 10) * u) := by
  have hu0 := h.nonneg
  have one : (1 : Flt rd) = Flt.fin rd 1 := by rw [flt_one, h1]
  have sp := Real.sqrt_pos.2 p
  have rq := h.after hu1 (((Rel.refl 1).mono hu0 hu1 (Nat.zero_le _)).add hu1 (h.after hu1 (hd.mul hu1 hd)) zero_le_one (mul_self_nonneg _))
  have qp : 0 < 1 + D * D := by nlinarith [mul_self_nonneg D]
  have rs := h.after hu1 (rq.sqrt hu0 hu1 qp.le)
  have rz := h.after hu1 ((Rel.refl 1).div hu1 rs)
  have rx := fun t : ℝ => h.after hu1 ((h.after hu1 ((h.after hu1 ((Rel.refl (-t)).div hu1 hr)).mul hu1 hd)).mul hu1 rz)
  have ea : x / Real.sqrt (x * x + y * y) * D * (x / Real.sqrt (x * x + y * y) * D) +
      y / Real.sqrt (x * x + y * y) * D * (y / Real.sqrt (x * x + y * y) * D) = D * D := by
    have f := Real.sq_sqrt p.le
    generalize Real.sqrt (x * x + y * y) = S at *
    have : x / S * D * (x / S * D) + y / S * D * (y / S * D) = D * D * ((x * x + y * y) / S ^ 2) := by field_simp
    rw [this, f, div_self p.ne', mul_one]
  refine ⟨⟨rd (rd (rd (-x / r) * d) * rd (1 / rd (Real.sqrt (rd (1 + rd (d * d)))))),
    rd (rd (rd (-y / r) * d) * rd (1 / rd (Real.sqrt (rd (1 + rd (d * d)))))), rd (1 / rd (Real.sqrt (rd (1 + rd (d * d)))))⟩, ?_, ?_⟩
  · rw [one, Flt.mul_fin, Flt.add_fin, Flt.sqrt_fin (rq.nonneg hu1 qp.le), Flt.div_fin (rs.ne hu1 (Real.sqrt_pos.2 qp).ne'), Flt.neg_fin,
      Flt.neg_fin, Flt.div_fin (hr.ne hu1 sp.ne'), Flt.div_fin (hr.ne hu1 sp.ne'), Flt.mul_fin, Flt.mul_fin, Flt.mul_fin, Flt.mul_fin]
    rfl
  · have := near_of_rel hu0 hu1 (k := 3 * K + 10) (n := upward (x / Real.sqrt (x * x + y * y) * D) (y / Real.sqrt (x * x + y * y) * D))
      (n' := ⟨rd (rd (rd (-x / r) * d) * rd (1 / rd (Real.sqrt (rd (1 + rd (d * d)))))),
        rd (rd (rd (-y / r) * d) * rd (1 / rd (Real.sqrt (rd (1 + rd (d * d)))))), rd (1 / rd (Real.sqrt (rd (1 + rd (d * d)))))⟩)
      ?_ ?_ ?_ (by push_cast; linarith)
    · rw [nrm_upward, mul_one] at this
      push_cast at this
      exact this
    · rw [upward, ea, show -(x / Real.sqrt (x * x + y * y) * D) = -x / Real.sqrt (x * x + y * y) * D by ring]
      exact (rx x).mono hu0 hu1 (by omega)
    · rw [upward, ea, show -(y / Real.sqrt (x * x + y * y) * D) = -y / Real.sqrt (x * x + y * y) * D by ring]
      exact (rx y).mono hu0 hu1 (by omega)
    · rw [upward, ea]
      exact rz.mono hu0 hu1 (by omega)

theorem radius_rel (h : Rounds u rd) (hu1 : u < 1) (x y : ℝ) :
    Rel u 3 (rd (Real.sqrt (rd (rd (x * x) + rd (y * y))))) (Real.sqrt (x * x + y * y)) :=
  h.after hu1 ((r2_rel h hu1 x y).sqrt h.nonneg hu1 (add_nonneg (mul_self_nonneg _) (mul_self_nonneg _)))

theorem radius_eq (h : Rounds u rd) (hu1 : u < 1) (x y : ℝ) : Arith.sqrt (Flt.fin rd x * Flt.fin rd x + Flt.fin rd y * Flt.fin rd y) =
    Flt.fin rd (rd (Real.sqrt (rd (rd (x * x) + rd (y * y))))) := by
  rw [Flt.mul_fin, Flt.mul_fin, Flt.add_fin, Flt.sqrt_fin ((r2_rel h hu1 x y).nonneg hu1 (add_nonneg (mul_self_nonneg _) (mul_self_nonneg _)))]

/-- On the axis and off it. -/
theorem radialNormal_near (h : Rounds u rd) (h1 : rd 1 = 1) (hu1 : u < 1) {K : ℕ} {f : Flt rd → Flt rd} {d D : ℝ}
    (hf : f (Flt.fin rd (rd (Real.sqrt (rd (rd (x * x) + rd (y * y)))))) = Flt.fin rd d) (hd : Rel u K d D) (hK : (3 * K + 10) * u ≤ 1 / 2) :
    ∃ n' : V3 ℝ, Surface.radialNormal f (Flt.fin rd x) (Flt.fin rd y) = n'.flt rd ∧
      nrm (n' - upward (x / Real.sqrt (x * x + y * y) * D) (y / Real.sqrt (x * x + y * y) * D)) ≤ 2 * ((3 * K + 10) * u) := by
  have hu0 := h.nonneg
  have rr := radius_rel h hu1 x y
  unfold Surface.radialNormal
  simp only [radius_eq h hu1, flt_zero h, Flt.eq_fin, hf]
  rcases (add_nonneg (mul_self_nonneg x) (mul_self_nonneg y)).eq_or_lt with p | p
  · have e : rd (Real.sqrt (rd (rd (x * x) + rd (y * y)))) = 0 := by
      obtain ⟨θ, e, -⟩ := rr
      rw [e, ← p, Real.sqrt_zero, zero_mul]
    simp only [e, decide_true, if_true]
    refine ⟨⟨0, 0, 1⟩, by rw [flt_one, h1]; rfl, ?_⟩
    have x0 : x = 0 := by nlinarith [mul_self_nonneg x, mul_self_nonneg y]
    have y0 : y = 0 := by nlinarith [mul_self_nonneg x, mul_self_nonneg y]
    have : upward (x / Real.sqrt (x * x + y * y) * D) (y / Real.sqrt (x * x + y * y) * D) = ⟨0, 0, 1⟩ := by
      simp [x0, y0, upward]
    rw [this]
    have : nrm ((⟨0, 0, 1⟩ : V3 ℝ) - ⟨0, 0, 1⟩) = 0 := by simp [nrm, V3.normSq, V3.dot]
    rw [this]
    positivity
  · have ne : rd (Real.sqrt (rd (rd (x * x) + rd (y * y)))) ≠ 0 := rr.ne hu1 (Real.sqrt_pos.2 p).ne'
    simp only [ne, decide_false, Bool.false_eq_true, if_false]
    exact radial_body h h1 hu1 p rr hd hK

theorem radial_upward (x y A : ℝ) :
    upward (x / Real.sqrt (x * x + y * y) * (Real.sqrt (x * x + y * y) / A)) (y / Real.sqrt (x * x + y * y) * (Real.sqrt (x * x + y * y) / A)) =
      upward (x / A) (y / A) := by
  rcases (add_nonneg (mul_self_nonneg x) (mul_self_nonneg y)).eq_or_lt with p | p
  · have x0 : x = 0 := by nlinarith [mul_self_nonneg x, mul_self_nonneg y]
    have y0 : y = 0 := by nlinarith [mul_self_nonneg x, mul_self_nonneg y]
    simp [x0, y0]
  · have sp := Real.sqrt_pos.2 p
    generalize Real.sqrt (x * x + y * y) = S at *
    congr 1 <;> field_simp

/-- The direction of the normal moves by no more than the slope. -/
theorem upward_lip (x y D D' : ℝ) (p : 0 < x * x + y * y) :
    nrm (upward (x / Real.sqrt (x * x + y * y) * D') (y / Real.sqrt (x * x + y * y) * D') -
      upward (x / Real.sqrt (x * x + y * y) * D) (y / Real.sqrt (x * x + y * y) * D)) ≤ |D' - D| := by
  have key : ∀ E : ℝ, x / Real.sqrt (x * x + y * y) * E * (x / Real.sqrt (x * x + y * y) * E) +
      y / Real.sqrt (x * x + y * y) * E * (y / Real.sqrt (x * x + y * y) * E) = E * E := fun E => by
    have f := Real.sq_sqrt p.le
    have sp := Real.sqrt_pos.2 p
    generalize Real.sqrt (x * x + y * y) = S at *
    have : x / S * E * (x / S * E) + y / S * E * (y / S * E) = E * E * ((x * x + y * y) / S ^ 2) := by field_simp
    rw [this, f, div_self p.ne', mul_one]
  have cs : (x / Real.sqrt (x * x + y * y)) ^ 2 + (y / Real.sqrt (x * x + y * y)) ^ 2 = 1 := by
    have := key 1
    linarith
  refine nrm_le (abs_nonneg _) ?_
  simp only [upward, key, V3.sub_x, V3.sub_y, V3.sub_z, sq_abs]
  generalize x / Real.sqrt (x * x + y * y) = c1 at *
  generalize y / Real.sqrt (x * x + y * y) = c2 at *
  have a0 : 0 < 1 + D * D := by nlinarith [mul_self_nonneg D]
  have b0 : 0 < 1 + D' * D' := by nlinarith [mul_self_nonneg D']
  have fa := Real.sq_sqrt a0.le
  have fb := Real.sq_sqrt b0.le
  have sa := Real.sqrt_pos.2 a0
  have sb := Real.sqrt_pos.2 b0
  generalize Real.sqrt (1 + D * D) = A at *
  generalize Real.sqrt (1 + D' * D') = B at *
  have P : (A * B) ^ 2 = (1 + D * D') ^ 2 + (D' - D) ^ 2 := by rw [mul_pow, fa, fb]; ring
  have ab := mul_pos sa sb
  have big : 1 + |D * D'| ≤ A * B := by
    refine (sq_le_sq₀ (by positivity) ab.le).1 ?_
    rw [mul_pow, fa, fb]
    have h1 : |D * D'| ^ 2 = (D * D') ^ 2 := sq_abs _
    have h2 : 2 * |D * D'| ≤ D ^ 2 + D' ^ 2 := by
      rw [abs_mul]
      nlinarith [sq_nonneg (|D| - |D'|), sq_abs D, sq_abs D']
    nlinarith
  have e : (-(c1 * D') * (1 / B) - -(c1 * D) * (1 / A)) ^ 2 + (-(c2 * D') * (1 / B) - -(c2 * D) * (1 / A)) ^ 2 + (1 / B - 1 / A) ^ 2 =
      (D' * (1 / B) - D * (1 / A)) ^ 2 + (1 / B - 1 / A) ^ 2 := by
    linear_combination (D' * (1 / B) - D * (1 / A)) ^ 2 * cs
  have e2 : (D' * (1 / B) - D * (1 / A)) ^ 2 + (1 / B - 1 / A) ^ 2 = 2 * (A * B - (1 + D * D')) / (A * B) := by
    field_simp
    nlinarith
  rw [e, e2, div_le_iff₀ ab]
  have l := neg_abs_le (D * D')
  have f : (A * B - (1 + D * D')) * (A * B + (1 + D * D')) = (D' - D) ^ 2 := by linear_combination P
  have g : 2 ≤ A * B + (1 + D * D') := by linarith
  have g1 : 1 ≤ A * B := by linarith [abs_nonneg (D * D')]
  have g0 : 0 ≤ A * B - (1 + D * D') := by linarith [le_abs_self (D * D')]
  rw [← f]
  nlinarith [mul_nonneg g0 (sub_nonneg.2 g), mul_nonneg (mul_nonneg g0 (by linarith : 0 ≤ A * B + (1 + D * D'))) (sub_nonneg.2 g1)]

theorem RadialNormal.upward {D : ℝ} {n : V3 ℝ} (h : RadialNormal x y D n) :
    n = upward (x / Real.sqrt (x * x + y * y) * D) (y / Real.sqrt (x * x + y * y) * D) := by
  obtain ⟨h1, h2, h3, h4, h5⟩ := h
  have n2 := nrm_sq n
  rw [h1] at n2
  rcases (add_nonneg (mul_self_nonneg x) (mul_self_nonneg y)).eq_or_lt with p | p
  · have x0 : x = 0 := by nlinarith [mul_self_nonneg x, mul_self_nonneg y]
    have y0 : y = 0 := by nlinarith [mul_self_nonneg x, mul_self_nonneg y]
    obtain ⟨a, b⟩ := h5 x0 y0
    rw [a, b] at n2
    have : n.z = 1 := by nlinarith
    ext <;> simp [x0, y0, Props.upward, a, b, this]
  · have e : x ^ 2 + y ^ 2 = x * x + y * y := by ring
    rw [e] at h3 h4
    have f := Real.sq_sqrt p.le
    have sp := Real.sqrt_pos.2 p
    unfold Props.upward
    generalize Real.sqrt (x * x + y * y) = S at *
    have a : n.x = -(x / S * D) * n.z := by field_simp; linarith
    have b : n.y = -(y / S * D) * n.z := by field_simp; linarith
    have q : n.z ^ 2 * (1 + (x / S * D * (x / S * D) + y / S * D * (y / S * D))) = 1 := by
      rw [a, b] at n2
      linarith
    have r : 1 + (x / S * D * (x / S * D) + y / S * D * (y / S * D)) = (1 / n.z) ^ 2 := by
      rw [div_pow, one_pow, eq_div_iff (by positivity)]
      linarith
    rw [r, Real.sqrt_sq (by positivity), one_div_one_div]
    ext <;> simp [a, b]

/-- One more term of a sum. -/
theorem sum_step (h : Rounds u rd) (hu1 : u < 1) {k : ℕ} {res res' t t' A ε : ℝ} (hres : |res' - res| ≤ ε * A) (hA : |res| ≤ A)
    (ht : Rel u k t' t) (hk : 2 * (k * u) ≤ ε) (hε : ε ≤ 1) :
    |rd (res' + t') - (res + t)| ≤ (ε + 2 * u) * (A + |t|) ∧ |res + t| ≤ A + |t| := by
  have hu0 := h.nonneg
  have b := ht.close hu0 hu1 (by linarith)
  have hT : |res + t| ≤ A + |t| := (abs_add_le _ _).trans (by linarith)
  refine ⟨?_, hT⟩
  have e := h.err (res' + t')
  have d : |res' + t' - (res + t)| ≤ ε * (A + |t|) := by
    rw [show res' + t' - (res + t) = (res' - res) + (t' - t) by ring]
    refine (abs_add_le _ _).trans ?_
    have := mul_le_mul_of_nonneg_right hk (abs_nonneg t)
    linarith
  have sz : |res' + t'| ≤ (1 + ε) * (A + |t|) := by
    have := abs_add_le (res' + t' - (res + t)) (res + t)
    rw [sub_add_cancel] at this
    linarith
  have A0 : 0 ≤ A + |t| := (abs_nonneg _).trans hT
  have t1 := abs_add_le (rd (res' + t') - (res' + t')) (res' + t' - (res + t))
  rw [sub_add_sub_cancel] at t1
  have := mul_le_mul_of_nonneg_left sz hu0
  have := mul_le_mul_of_nonneg_right hε (mul_nonneg hu0 A0)
  linarith

theorem sagLoop_near (h : Rounds u rd) (hu1 : u < 1) {P p : ℝ} (hp : Rel u 2 p P) {B : ℝ} (hB : B ≤ 1) (N : ℕ)
    (cs : List ℝ) (j : ℕ) (rr res res' A ε : ℝ) (hrr : Rel u (3 * j) rr (P ^ j)) (hres : |res' - res| ≤ ε * A) (hA : |res| ≤ A)
    (hj : j + cs.length ≤ N) (hε : 2 * ((3 * N + 1) * u) ≤ ε) (hεB : ε + 2 * (cs.length * u) ≤ B) :
    ∃ a b, Surface.asphereSagLoop (Flt.fin rd p) (cs.map (Flt.fin rd)) (Flt.fin rd rr, Flt.fin rd res') = (Flt.fin rd a, Flt.fin rd b) ∧
      |b - (res + powerSum P j cs)| ≤ (ε + 2 * (cs.length * u)) * (A + powerSum |P| j (cs.map abs)) := by
  have hu0 := h.nonneg
  induction cs generalizing j rr res res' A ε with
  | nil => exact ⟨rr, res', rfl, by simpa [powerSum] using hres⟩
  | cons a as ih =>
    simp only [List.length_cons, Nat.cast_add, Nat.cast_one] at hj hεB ⊢
    have r1 := h.after hu1 (hrr.mul hu1 hp)
    have r2 := h.after hu1 ((Rel.refl a).mul hu1 r1)
    have NN : ((0 + (3 * j + 2 + 1) + 1 : ℕ) : ℝ) ≤ 3 * N + 1 := by
      have : 0 + (3 * j + 2 + 1) + 1 ≤ 3 * N + 1 := by omega
      exact_mod_cast this
    have lu : 0 ≤ (as.length : ℝ) * u := by positivity
    obtain ⟨s1, s2⟩ := sum_step h hu1 hres hA r2 (by nlinarith) (by linarith)
    obtain ⟨a', b', e1, e2⟩ := ih (j + 1) _ _ _ _ (ε + 2 * u) (by rw [pow_succ]; exact r1.mono hu0 hu1 (by omega)) s1 s2 (by omega) (by linarith)
      (by linarith)
    refine ⟨a', b', ?_, ?_⟩
    · simp only [List.map_cons, Surface.asphereSagLoop, Flt.mul_fin, Flt.add_fin]
      exact e1
    · simp only [powerSum, List.map_cons]
      have ea : |a * (P ^ j * P)| = |a| * |P| ^ (j + 1) := by rw [abs_mul, ← pow_succ, abs_pow]
      rw [ea] at e2
      rw [show a * P ^ (j + 1) = a * (P ^ j * P) by rw [pow_succ], ← add_assoc, ← add_assoc,
        show ε + 2 * ((as.length + 1) * u) = ε + 2 * u + 2 * (as.length * u) by ring]
      exact e2

theorem dzdrLoop_near (h : Rounds u rd) (hu1 : u < 1) {P ρ : ℝ} (hP : Rel u 7 P (ρ ^ 2)) (hr : ρ ≥ 0) (N : ℕ)
    (cs : List ℝ) (j : ℕ) (rr res res' A ε : ℝ) (hrr : Rel u (3 + 8 * j) rr (ρ ^ (2 * j + 1))) (hres : |res' - res| ≤ ε * A) (hA : |res| ≤ A)
    (hj : j + cs.length ≤ N) (hε : 2 * ((8 * N + 6) * u) ≤ ε) (hεB : ε + 2 * (cs.length * u) ≤ 1) :
    ∃ a b, Surface.asphereDzdrLoop (Flt.fin rd P) (Surface.dzdrCoefs (2 * j + 2) (cs.map (Flt.fin rd))) (Flt.fin rd rr, Flt.fin rd res') =
        (Flt.fin rd a, Flt.fin rd b) ∧
      |b - (res + slopeSum ρ j cs)| ≤ (ε + 2 * (cs.length * u)) * (A + slopeSum ρ j (cs.map abs)) := by
  have hu0 := h.nonneg
  induction cs generalizing j rr res res' A ε with
  | nil => exact ⟨rr, res', rfl, by simpa [slopeSum] using hres⟩
  | cons a as ih =>
    simp only [List.length_cons, Nat.cast_add, Nat.cast_one] at hj hεB ⊢
    have r0 := h.after hu1 ((Rel.refl a).mul hu1 (h.rel hu1 ((2 * j + 2 : ℕ) : ℝ)))
    have r1 := h.after hu1 (hrr.mul hu1 hP)
    have r2 := h.after hu1 (r0.mul hu1 hrr)
    have NN : ((0 + 1 + 1 + (3 + 8 * j) + 1 : ℕ) : ℝ) ≤ 8 * N + 6 := by
      have : 0 + 1 + 1 + (3 + 8 * j) + 1 ≤ 8 * N + 6 := by omega
      exact_mod_cast this
    have lu : 0 ≤ (as.length : ℝ) * u := by positivity
    obtain ⟨s1, s2⟩ := sum_step h hu1 hres hA r2 (by nlinarith) (by linarith)
    obtain ⟨a', b', e1, e2⟩ := ih (j + 1) _ _ _ _ (ε + 2 * u)
      (by rw [show 2 * (j + 1) + 1 = 2 * j + 1 + 2 by ring, pow_add]; exact r1.mono hu0 hu1 (by omega)) s1 s2 (by omega) (by linarith)
      (by linarith)
    refine ⟨a', b', ?_, ?_⟩
    · simp only [List.map_cons, Surface.asphereDzdrLoop, Surface.dzdrCoefs, Flt.mul_fin, Flt.add_fin, Flt.const_fin]
      rw [show 2 * j + 2 + 2 = 2 * (j + 1) + 2 by ring]
      push_cast at e1 ⊢
      exact e1
    · simp only [slopeSum, List.map_cons]
      have ea : |a * ((2 * j + 2 : ℕ) : ℝ) * ρ ^ (2 * j + 1)| = |a| * ((2 * j + 2 : ℕ) : ℝ) * ρ ^ (2 * j + 1) := by
        rw [abs_mul, abs_mul, abs_of_nonneg (show (0 : ℝ) ≤ ((2 * j + 2 : ℕ) : ℝ) by positivity), abs_of_nonneg (show 0 ≤ ρ ^ (2 * j + 1) by positivity)]
      rw [ea] at e2
      rw [← add_assoc, ← add_assoc, show ε + 2 * ((as.length + 1) * u) = ε + 2 * u + 2 * (as.length * u) by ring]
      exact e2

/-- The sum of slopes is the derivative of the sum of powers. -/
theorem slopeSum_deriv (ρ : ℝ) (cs : List ℝ) (j : ℕ) : HasDerivAt (fun t => powerSum (t ^ 2) j cs) (slopeSum ρ j cs) ρ := by
  induction cs generalizing j with
  | nil => simpa [powerSum, slopeSum] using hasDerivAt_const ρ (0 : ℝ)
  | cons a as ih =>
    have h1 : HasDerivAt (fun t : ℝ => a * (t ^ 2) ^ (j + 1)) (a * ((2 * j + 2 : ℕ) : ℝ) * ρ ^ (2 * j + 1)) ρ := by
      have := (hasDerivAt_pow (2 * j + 2) ρ).const_mul a
      refine (this.congr_deriv (by rw [show 2 * j + 2 - 1 = 2 * j + 1 by omega]; ring)).congr_of_eventuallyEq ?_
      exact Filter.Eventually.of_forall fun t => by simp only [← pow_mul]; ring_nf
    exact h1.add (ih (j + 1))

/-- The mirror image moves with the normal. -/
theorem mirror_perturb {n n0 : V3 ℝ} (v : V3 ℝ) {e : ℝ} (h0 : nrm n0 = 1) (he : nrm (n - n0) ≤ e) (hs : e ≤ 1 / 10) :
    nrm (mirrorImage n v - mirrorImage n0 v) ≤ 11 * e * nrm v := by
  have e0 : 0 ≤ e := (nrm_nonneg _).trans he
  have v0 := nrm_nonneg v
  have N0 : V3.dot n0 n0 = 1 := by rw [← nrm_sq_dot, h0, one_pow]
  have n1 : nrm n ≤ 1 + e := by have := nrm_close n n0; linarith
  have n2 : 1 - e ≤ nrm n := by have := nrm_close n0 n; rw [nrm_sub_comm] at this; linarith
  have N1 : nrm n ^ 2 = V3.dot n n := nrm_sq_dot n
  have Np : 81 / 100 ≤ V3.dot n n := by rw [← N1]; nlinarith
  have Nd : |1 - V3.dot n n| ≤ 21 / 10 * e := by rw [← N1, abs_le]; constructor <;> nlinarith
  have key : V3.smul (V3.dot n n) (mirrorImage n v - mirrorImage n0 v) =
      V3.smul (-2) (V3.smul (V3.dot v (n - n0)) n + V3.smul (V3.dot v n0) (n - n0) + V3.smul ((1 - V3.dot n n) * V3.dot v n0) n0) := by
    have ne : V3.dot n n ≠ 0 := by linarith
    unfold mirrorImage
    rw [N0]
    generalize hN : V3.dot n n = N at *
    ext <;> simp [V3.dot] <;> field_simp <;> ring
  have k2 := congrArg nrm key
  rw [nrm_smul, nrm_smul, abs_of_nonneg (by linarith : 0 ≤ V3.dot n n)] at k2
  have d1 := dot_le v (n - n0)
  have d2 := dot_le v n0
  rw [h0, mul_one] at d2
  have t1 : nrm (V3.smul (V3.dot v (n - n0)) n) ≤ 11 / 10 * e * nrm v := by
    rw [nrm_smul]
    have : |V3.dot v (n - n0)| ≤ nrm v * e := d1.trans (mul_le_mul_of_nonneg_left he v0)
    calc _ ≤ (nrm v * e) * (11 / 10) := mul_le_mul this (by linarith) (nrm_nonneg _) (by positivity)
      _ = _ := by ring
  have t2 : nrm (V3.smul (V3.dot v n0) (n - n0)) ≤ e * nrm v := by
    rw [nrm_smul]
    calc _ ≤ nrm v * e := mul_le_mul d2 he (nrm_nonneg _) v0
      _ = _ := by ring
  have t3 : nrm (V3.smul ((1 - V3.dot n n) * V3.dot v n0) n0) ≤ 21 / 10 * e * nrm v := by
    rw [nrm_smul, abs_mul, h0, mul_one]
    exact mul_le_mul Nd d2 (abs_nonneg _) (by positivity)
  have t4 := nrm_add (V3.smul (V3.dot v (n - n0)) n + V3.smul (V3.dot v n0) (n - n0)) (V3.smul ((1 - V3.dot n n) * V3.dot v n0) n0)
  have t5 := nrm_add (V3.smul (V3.dot v (n - n0)) n) (V3.smul (V3.dot v n0) (n - n0))
  rw [show |(-2 : ℝ)| = 2 by norm_num] at k2
  have t6 : V3.dot n n * nrm (mirrorImage n v - mirrorImage n0 v) ≤ 84 / 10 * e * nrm v := by rw [k2]; linarith
  have t7 := mul_le_mul_of_nonneg_right Np (nrm_nonneg (mirrorImage n v - mirrorImage n0 v))
  have ev := mul_nonneg e0 v0
  nlinarith

end lemmas

section c125
variable {u : ℝ} {rd : ℝ → ℝ} {κ R x y z : ℝ} {c : ℕ} {n : V3 ℝ}

/-- **C125** (`Quadric`, sag).  Away from the rim the sag has a small relative error. -/
theorem C125_quadric_sag (h : Rounds u rd) (h1 : rd 1 = 1) (hc : 1 ≤ c) (hcu : (24 * c + 14) * u ≤ 1) (hx : OffRim c κ R x y)
    (hz : OnConic κ R x y z) : SagWithin rd (.quadric (Flt.fin rd R) (Flt.fin rd κ)) x y z ((24 * c + 14) * u * |z|) := by
  have hc' : (1 : ℝ) ≤ c := by exact_mod_cast hc
  have hu0 := h.nonneg
  obtain ⟨z', e, r⟩ := quadricSag_rel h h1 hc (by linarith) hz.ne hx
  rw [← hz.height] at r
  refine ⟨z', e, ?_⟩
  have := r.close hu0 (by nlinarith) (by push_cast; linarith)
  push_cast at this
  linarith

/-- **C125** (`Quadric`, normal). -/
theorem C125_quadric_normal (h : Rounds u rd) (h1 : rd 1 = 1) (hc : 1 ≤ c) (hcu : (132 * c + 62) * u ≤ 1) (hx : OffRim c κ R x y)
    (hz : OnConic κ R x y z) (hn : ConicNormal κ R x y z n) :
    NormalWithin rd (.quadric (Flt.fin rd R) (Flt.fin rd κ)) x y n ((132 * c + 62) * u) := by
  have hc' : (1 : ℝ) ≤ c := by exact_mod_cast hc
  have hu0 := h.nonneg
  have hu1 : u < 1 := by nlinarith
  obtain ⟨d, e, r⟩ := quadricDzdr_rel h h1 hc (by nlinarith) hz.ne hx (radius_rel h hu1 x y)
  obtain ⟨n', e', r'⟩ := radialNormal_near h h1 hu1 e r (by push_cast; linarith)
  refine ⟨n', e', ?_⟩
  rw [radial_upward, ← hn.upward hz] at r'
  push_cast at r'
  linarith

/-- **C125** (`Sphere`, normal). -/
theorem C125_sphere_normal (h : Rounds u rd) (h1 : rd 1 = 1) (hc : 1 ≤ c) (hcu : (132 * c + 68) * u ≤ 1) (hx : OffRim c 0 R x y)
    (hz : OnConic 0 R x y z) (hn : ConicNormal 0 R x y z n) :
    NormalWithin rd (.sphere (Flt.fin rd R)) x y n ((132 * c + 68) * u) := by
  have hc' : (1 : ℝ) ≤ c := by exact_mod_cast hc
  have hu0 := h.nonneg
  have hu1 : u < 1 := by nlinarith
  obtain ⟨d, e, r⟩ := sphereDzdr_rel h h1 hc (by nlinarith) hz.ne hx (radius_rel h hu1 x y)
  obtain ⟨n', e', r'⟩ := radialNormal_near h h1 hu1 e r (by push_cast; linarith)
  refine ⟨n', ?_, ?_⟩
  · rw [← e']
    show Surface.sphereNormal _ _ _ = _
    have r2 := r2_rel h hu1 x y
    have rr := radius_rel h hu1 x y
    have req := radius_eq h hu1 x y
    rw [Flt.mul_fin, Flt.mul_fin, Flt.add_fin] at req
    unfold Surface.sphereNormal Surface.radialNormal
    simp only [flt_zero h, Flt.eq_fin, Flt.mul_fin, Flt.add_fin, hz.ne, decide_false, Bool.false_or, req]
    rcases (add_nonneg (mul_self_nonneg x) (mul_self_nonneg y)).eq_or_lt with p | p
    · obtain ⟨θ, q, -⟩ := r2
      rw [← p, zero_mul] at q
      simp [q, h.zero]
    · simp [r2.ne hu1 p.ne', rr.ne hu1 (Real.sqrt_pos.2 p).ne']
  · rw [radial_upward, ← hn.upward hz] at r'
    push_cast at r'
    linarith

/-- **C125** (`Sphere`, sag).  The error is a small part of the radius of curvature, not of the sag: see `C125_sphere_violated`. -/
theorem C125_sphere_sag_partial (h : Rounds u rd) (h1 : rd 1 = 1) (hc : 1 ≤ c) (hcu : (20 * c + 8) * u ≤ 1) (hx : OffRim c 0 R x y)
    (hz : OnConic 0 R x y z) : SagWithin rd (.sphere (Flt.fin rd R)) x y z ((20 * c + 8) * u * |R|) := by
  have hc' : (1 : ℝ) ≤ c := by exact_mod_cast hc
  have hu0 := h.nonneg
  have hu1 : u < 1 := by nlinarith
  have hR := hz.ne
  have q0 := offRim_le hR hx
  have rq := h.after hu1 ((r2_rel h hu1 x y).mul hu1 (h.after hu1 ((h.after hu1 ((Rel.refl 1).div hu1 (Rel.refl R))).div hu1 (Rel.refl R))))
  rw [show (x * x + y * y) * (1 / R / R) = (x * x + y * y) * ((0 + 1) / R / R) by rw [zero_add]] at rq
  have r1 := h.after hu1 (rq.one_sub hu0 hu1 hc q0 (by push_cast; nlinarith [mul_nonneg (Nat.cast_nonneg (α := ℝ) c) hu0]))
  have p := rim_pos q0
  have r2 := h.after hu1 (r1.sqrt hu0 hu1 p.le)
  have one : (1 : Flt rd) = Flt.fin rd 1 := by rw [flt_one, h1]
  refine ⟨rd (R * rd (1 - rd (Real.sqrt (rd (1 - rd (rd (rd (x * x) + rd (y * y)) * rd (rd (1 / R) / R))))))), ?_, ?_⟩
  · show Surface.sphereSag _ _ _ = _
    unfold Surface.sphereSag
    simp only [flt_zero h, one, Flt.eq_fin, hR, decide_false, Bool.false_eq_true, if_false, Flt.mul_fin, Flt.add_fin, Flt.div_fin hR,
      Flt.sub_fin]
    rw [Flt.sqrt_fin (r1.nonneg hu1 p.le), Flt.sub_fin, Flt.mul_fin]
  · have er : Real.sqrt (1 - (x * x + y * y) * ((0 + 1) / R / R)) = rimRoot 0 R x y := rfl
    rw [er] at r2
    generalize rd (Real.sqrt (rd (1 - rd (rd (rd (x * x) + rd (y * y)) * rd (rd (1 / R) / R))))) = s' at *
    have s0 : 0 ≤ rimRoot 0 R x y := Real.sqrt_nonneg _
    have s1 : rimRoot 0 R x y ≤ 1 := by
      refine Real.sqrt_le_iff.2 ⟨zero_le_one, ?_⟩
      have : 0 ≤ (x * x + y * y) * ((0 + 1) / R / R) := by
        rw [show (x * x + y * y) * ((0 + 1) / R / R) = (x * x + y * y) / R ^ 2 by field_simp; ring]
        have := add_nonneg (mul_self_nonneg x) (mul_self_nonneg y)
        positivity
      linarith
    have ez : z = R * (1 - rimRoot 0 R x y) := by
      rw [hz.root]
      field_simp
      ring
    have cl := r2.close hu0 hu1 (by push_cast; nlinarith)
    push_cast at cl
    generalize rimRoot 0 R x y = s at *
    rw [abs_of_nonneg s0] at cl
    have cl' : |s' - s| ≤ (20 * c + 4) * u := by
      have := mul_le_mul_of_nonneg_left s1 (show 0 ≤ 2 * ((2 * (5 * c) + 1 + 1) * u) by positivity)
      linarith
    have e1 := h.err (1 - s')
    have sz : |1 - s'| ≤ 1 + (20 * c + 4) * u := by
      rw [abs_le] at cl' ⊢
      constructor <;> nlinarith
    have e2 : |rd (1 - s') - (1 - s)| ≤ (20 * c + 6) * u := by
      have := abs_add_le (rd (1 - s') - (1 - s')) (s - s')
      rw [show rd (1 - s') - (1 - s') + (s - s') = rd (1 - s') - (1 - s) by ring, abs_sub_comm s s'] at this
      have := mul_le_mul_of_nonneg_left sz hu0
      nlinarith
    have sz2 : |rd (1 - s')| ≤ 1 + (20 * c + 6) * u := by
      rw [abs_le] at e2 ⊢
      constructor <;> nlinarith
    have e3 := h.err (R * rd (1 - s'))
    have := abs_add_le (rd (R * rd (1 - s')) - R * rd (1 - s')) (R * (rd (1 - s') - (1 - s)))
    rw [show rd (R * rd (1 - s')) - R * rd (1 - s') + R * (rd (1 - s') - (1 - s)) = rd (R * rd (1 - s')) - R * (1 - s) by ring, abs_mul R] at this
    rw [abs_mul] at e3
    rw [ez]
    have k1 := mul_le_mul_of_nonneg_left e2 (abs_nonneg R)
    have k2 : u * (|R| * |rd (1 - s')|) ≤ 2 * u * |R| := by
      have : |rd (1 - s')| ≤ 2 := by nlinarith
      have := mul_le_mul_of_nonneg_left this (mul_nonneg hu0 (abs_nonneg R))
      linarith
    linarith

/-- **C125** (`Paraboloid`, sag): everywhere, not only away from a rim. -/
theorem C125_paraboloid_sag (h : Rounds u rd) (hu : 14 * u ≤ 1) (hz : OnConic (-1) R x y z) :
    SagWithin rd (.paraboloid (Flt.fin rd R)) x y z (14 * u * |z|) := by
  have hu0 := h.nonneg
  have hu1 : u < 1 := by linarith
  have hR := hz.ne
  have two : (2 : Flt rd) = Flt.fin rd (rd 2) := by simpa using Flt.ofNat_fin (rd := rd) 2
  have rh := h.after hu1 ((h.rel hu1 1).div hu1 (h.rel hu1 2))
  have r5 := h.after hu1 ((r2_rel h hu1 x y).mul hu1 (h.after hu1 (rh.div hu1 (Rel.refl R))))
  have ez : (x * x + y * y) * (1 / 2 / R) = z := by
    have := hz.1
    field_simp
    linarith
  rw [ez] at r5
  refine ⟨_, ?_, (r5.mono hu0 hu1 (show _ ≤ 7 by norm_num)).near hu0 hu1 14 (by norm_num) hu⟩
  show Surface.paraboloidSag _ _ _ = _
  unfold Surface.paraboloidSag
  simp only [flt_zero h, flt_one, two, Flt.eq_fin, hR, decide_false, Bool.false_eq_true, if_false, Flt.mul_fin, Flt.add_fin]
  rw [Flt.div_fin ((h.rel hu1 2).ne hu1 (by norm_num)), Flt.div_fin hR, Flt.mul_fin]

/-- **C125** (`Paraboloid`, normal). -/
theorem C125_paraboloid_normal (h : Rounds u rd) (hu : 32 * u ≤ 1) (hz : OnConic (-1) R x y z) (hn : ConicNormal (-1) R x y z n) :
    NormalWithin rd (.paraboloid (Flt.fin rd R)) x y n (32 * u) := by
  have hu0 := h.nonneg
  have hu1 : u < 1 := by linarith
  have hR := hz.ne
  have ri := h.after hu1 ((h.rel hu1 1).div hu1 (Rel.refl R))
  have rq := h.after hu1 ((h.after hu1 ((r2_rel h hu1 x y).mul hu1 ri)).mul hu1 ri)
  have q0 : 0 ≤ (x * x + y * y) * (1 / R) * (1 / R) := by
    rw [show (x * x + y * y) * (1 / R) * (1 / R) = (x * x + y * y) / R ^ 2 by field_simp]
    have := add_nonneg (mul_self_nonneg x) (mul_self_nonneg y)
    positivity
  have r1 := h.after hu1 (((h.rel hu1 1).mono hu0 hu1 (by norm_num)).add hu1 rq zero_le_one q0)
  have p : 0 < 1 + (x * x + y * y) * (1 / R) * (1 / R) := by linarith
  have rs := h.after hu1 (r1.sqrt hu0 hu1 p.le)
  have rz := h.after hu1 ((h.rel hu1 1).div hu1 rs)
  have rx := fun t : ℝ => h.after hu1 ((h.after hu1 ((Rel.refl (-t)).mul hu1 ri)).mul hu1 rz)
  have root : rimRoot (-1) R x y = 1 := by simp [rimRoot]
  have en := hn.upward hz
  rw [root, mul_one] at en
  have ea : x / R * (x / R) + y / R * (y / R) = (x * x + y * y) * (1 / R) * (1 / R) := by field_simp
  refine ⟨⟨rd (rd (-x * rd (rd 1 / R)) * rd (rd 1 / rd (Real.sqrt (rd (rd 1 + rd (rd (rd (rd (x * x) + rd (y * y)) * rd (rd 1 / R)) *
      rd (rd 1 / R))))))), rd (rd (-y * rd (rd 1 / R)) * rd (rd 1 / rd (Real.sqrt (rd (rd 1 + rd (rd (rd (rd (x * x) + rd (y * y)) *
      rd (rd 1 / R)) * rd (rd 1 / R))))))), rd (rd 1 / rd (Real.sqrt (rd (rd 1 + rd (rd (rd (rd (x * x) + rd (y * y)) * rd (rd 1 / R)) *
      rd (rd 1 / R))))))⟩, ?_, ?_⟩
  · show Surface.paraboloidNormal _ _ _ = _
    unfold Surface.paraboloidNormal
    simp only [flt_zero h, flt_one, Flt.eq_fin, hR, decide_false, Bool.false_eq_true, if_false, Flt.mul_fin, Flt.add_fin, Flt.div_fin hR]
    rw [Flt.sqrt_fin (r1.nonneg hu1 p.le), Flt.div_fin (rs.ne hu1 (Real.sqrt_pos.2 p).ne'), Flt.neg_fin, Flt.neg_fin, Flt.mul_fin, Flt.mul_fin,
      Flt.mul_fin, Flt.mul_fin]
    rfl
  · have := near_of_rel hu0 hu1 (k := 16) (n := n)
      (n' := ⟨rd (rd (-x * rd (rd 1 / R)) * rd (rd 1 / rd (Real.sqrt (rd (rd 1 + rd (rd (rd (rd (x * x) + rd (y * y)) * rd (rd 1 / R)) *
      rd (rd 1 / R))))))), rd (rd (-y * rd (rd 1 / R)) * rd (rd 1 / rd (Real.sqrt (rd (rd 1 + rd (rd (rd (rd (x * x) + rd (y * y)) *
      rd (rd 1 / R)) * rd (rd 1 / R))))))), rd (rd 1 / rd (Real.sqrt (rd (rd 1 + rd (rd (rd (rd (x * x) + rd (y * y)) * rd (rd 1 / R)) *
      rd (rd 1 / R))))))⟩) ?_ ?_ ?_ (by push_cast; linarith)
    · rw [hn.2.1, mul_one] at this
      push_cast at this
      linarith
    · rw [en, upward, ea, show -(x / R) = -x * (1 / R) by ring]
      exact (rx x).mono hu0 hu1 (by norm_num)
    · rw [en, upward, ea, show -(y / R) = -y * (1 / R) by ring]
      exact (rx y).mono hu0 hu1 (by norm_num)
    · rw [en, upward, ea]
      exact rz.mono hu0 hu1 (by norm_num)

/-- **C125** (`Tilted`, sag). -/
theorem C125_tilted_sag (h : Rounds u rd) (hu : u ≤ 1) (tx ty : ℝ) :
    SagWithin rd (.tilted (Flt.fin rd tx) (Flt.fin rd ty)) x y (x * tx + y * ty) (3 * u * (|x * tx| + |y * ty|)) := by
  have hu0 := h.nonneg
  refine ⟨rd (rd (x * tx) + rd (y * ty)), rfl, ?_⟩
  have a := h.err (x * tx)
  have b := h.err (y * ty)
  have e := h.err (rd (x * tx) + rd (y * ty))
  have s : |rd (x * tx) + rd (y * ty) - (x * tx + y * ty)| ≤ u * (|x * tx| + |y * ty|) := by
    rw [show rd (x * tx) + rd (y * ty) - (x * tx + y * ty) = (rd (x * tx) - x * tx) + (rd (y * ty) - y * ty) by ring]
    exact (abs_add_le _ _).trans (by linarith)
  have t := abs_add_le (x * tx) (y * ty)
  have m : |rd (x * tx) + rd (y * ty)| ≤ (1 + u) * (|x * tx| + |y * ty|) := by
    have := abs_add_le (rd (x * tx) + rd (y * ty) - (x * tx + y * ty)) (x * tx + y * ty)
    rw [sub_add_cancel] at this
    linarith
  have w := abs_add_le (rd (rd (x * tx) + rd (y * ty)) - (rd (x * tx) + rd (y * ty))) (rd (x * tx) + rd (y * ty) - (x * tx + y * ty))
  rw [sub_add_sub_cancel] at w
  have A0 : 0 ≤ |x * tx| + |y * ty| := by positivity
  have k1 := mul_le_mul_of_nonneg_left m hu0
  have k2 := mul_le_mul_of_nonneg_right hu (mul_nonneg hu0 A0)
  linarith

/-- **C125** (`Asphere`, sag).  The error is a small part of the sum of the sizes of the terms. -/
theorem C125_asphere_sag (h : Rounds u rd) (h1 : rd 1 = 1) (hc : 1 ≤ c) (coefs : List ℝ) (hcu : (24 * c + 8 * coefs.length + 16) * u ≤ 1)
    (hx : OffRim c κ R x y) (hz : OnConic κ R x y z) :
    SagWithin rd (.asphere (Flt.fin rd R) (Flt.fin rd κ) (coefs.map (Flt.fin rd))) x y (z + powerSum (x ^ 2 + y ^ 2) 0 coefs)
      ((24 * c + 8 * coefs.length + 16) * u * (|z| + powerSum (x ^ 2 + y ^ 2) 0 (coefs.map abs))) := by
  have hc' : (1 : ℝ) ≤ c := by exact_mod_cast hc
  have hu0 := h.nonneg
  have l0 : (0 : ℝ) ≤ coefs.length := Nat.cast_nonneg _
  have cu : 0 ≤ c * u := by positivity
  have lu : 0 ≤ coefs.length * u := by positivity
  have hu1 : u < 1 := by nlinarith
  obtain ⟨z', e, r⟩ := C125_quadric_sag h h1 hc (by linarith) hx hz
  obtain ⟨a, b, e1, e2⟩ := sagLoop_near h hu1 (r2_rel h hu1 x y) (B := 1) le_rfl coefs.length coefs 0 1 z z' |z|
    ((24 * c + 6 * coefs.length + 16) * u) (by simpa using Rel.refl 1) (r.trans (mul_le_mul_of_nonneg_right (by linarith) (abs_nonneg _))) le_rfl
    (by omega) (by linarith) (by linarith)
  refine ⟨b, ?_, ?_⟩
  · show (Surface.asphereSagLoop _ _ _).2 = _
    rw [show Surface.quadricSag (Flt.fin rd R) (Flt.fin rd κ) (Flt.fin rd x) (Flt.fin rd y) = Flt.fin rd z' from e, flt_one, h1,
      Flt.mul_fin, Flt.mul_fin, Flt.add_fin, e1]
  · rw [abs_of_nonneg (add_nonneg (mul_self_nonneg x) (mul_self_nonneg y))] at e2
    rw [show x ^ 2 + y ^ 2 = x * x + y * y by ring]
    refine e2.trans_eq ?_
    ring

/-- **C125** (`Asphere`, normal).  `E` is the slope of the polynomial part; `S` sums the sizes of the slopes of the parts. -/
theorem C125_asphere_normal (h : Rounds u rd) (h1 : rd 1 = 1) (hc : 1 ≤ c) (coefs : List ℝ) (hcu : (44 * c + 18 * coefs.length + 34) * u ≤ 1)
    (hx : OffRim c κ R x y) (hz : OnConic κ R x y z) {E S : ℝ}
    (hE : HasDerivAt (fun t => powerSum (t ^ 2) 0 coefs) E (Real.sqrt (x ^ 2 + y ^ 2)))
    (hS : HasDerivAt (fun t => powerSum (t ^ 2) 0 (coefs.map abs)) S (Real.sqrt (x ^ 2 + y ^ 2)))
    (hn : RadialNormal x y (Real.sqrt (x ^ 2 + y ^ 2) / (R - (1 + κ) * z) + E) n) :
    NormalWithin rd (.asphere (Flt.fin rd R) (Flt.fin rd κ) (coefs.map (Flt.fin rd))) x y n
      (20 * u + (44 * c + 18 * coefs.length + 14) * u * (|Real.sqrt (x ^ 2 + y ^ 2) / (R - (1 + κ) * z)| + S)) := by
  have hc' : (1 : ℝ) ≤ c := by exact_mod_cast hc
  have hu0 := h.nonneg
  have l0 : (0 : ℝ) ≤ coefs.length := Nat.cast_nonneg _
  have cu : 0 ≤ c * u := by positivity
  have lu : 0 ≤ coefs.length * u := by positivity
  have hu1 : u < 1 := by nlinarith
  have hR := hz.ne
  have er : R * rimRoot κ R x y = R - (1 + κ) * z := by rw [hz.root]; field_simp
  rw [show x ^ 2 + y ^ 2 = x * x + y * y by ring] at *
  have p0 := add_nonneg (mul_self_nonneg x) (mul_self_nonneg y)
  have eE := hE.unique (slopeSum_deriv _ coefs 0)
  have eS := hS.unique (slopeSum_deriv _ (coefs.map abs) 0)
  have rr := radius_rel h hu1 x y
  obtain ⟨d, e, r⟩ := quadricDzdr_rel h h1 hc (by nlinarith) hR hx rr
  rw [er] at r
  have rc := r.close hu0 hu1 (by push_cast; linarith)
  push_cast at rc
  have rP := h.after hu1 (rr.mul hu1 rr)
  rw [← sq (Real.sqrt (x * x + y * y))] at rP
  obtain ⟨a, b, e1, e2⟩ := dzdrLoop_near h hu1 rP (Real.sqrt_nonneg _) coefs.length coefs 0 _ _ d _
    ((44 * c + 16 * coefs.length + 14) * u) (by simpa using rr) (rc.trans (mul_le_mul_of_nonneg_right (by linarith) (abs_nonneg _))) le_rfl
    (by omega) (by linarith) (by linarith)
  rw [← eE, ← eS] at e2
  obtain ⟨n', f1, f2⟩ := radialNormal_near h h1 hu1 (f := Surface.asphereDzdr (Flt.fin rd R) (Flt.fin rd κ) (coefs.map (Flt.fin rd))) (x := x) (y := y)
    (d := b) (K := 0) (D := b) (by
      unfold Surface.asphereDzdr
      rw [e, Flt.mul_fin]
      exact congrArg Prod.snd e1) (Rel.refl b) (by push_cast; linarith)
  refine ⟨n', f1, ?_⟩
  have lip : nrm (upward (x / Real.sqrt (x * x + y * y) * b) (y / Real.sqrt (x * x + y * y) * b) - n) ≤
      (44 * c + 18 * coefs.length + 14) * u * (|Real.sqrt (x * x + y * y) / (R - (1 + κ) * z)| + S) := by
    rcases p0.eq_or_lt with p | p
    · have x0 : x = 0 := by nlinarith [mul_self_nonneg x, mul_self_nonneg y]
      have y0 : y = 0 := by nlinarith [mul_self_nonneg x, mul_self_nonneg y]
      rw [hn.upward]
      have : nrm (upward (x / Real.sqrt (x * x + y * y) * b) (y / Real.sqrt (x * x + y * y) * b) -
          upward (x / Real.sqrt (x * x + y * y) * (Real.sqrt (x * x + y * y) / (R - (1 + κ) * z) + E))
            (y / Real.sqrt (x * x + y * y) * (Real.sqrt (x * x + y * y) / (R - (1 + κ) * z) + E))) = 0 := by
        simp [x0, y0, nrm, V3.normSq, V3.dot]
      rw [this]
      have := (abs_nonneg _).trans e2
      refine this.trans_eq ?_
      ring
    · rw [hn.upward]
      refine (upward_lip x y _ _ p).trans (e2.trans_eq ?_)
      ring
  have := nrm_via n' (upward (x / Real.sqrt (x * x + y * y) * b) (y / Real.sqrt (x * x + y * y) * b)) n
  push_cast at f2
  linarith

/-- **C125** (`Sum`, sag).  Errors add up, with two more roundings for every part. -/
theorem C125_sum_sag (h : Rounds u rd) (parts : List (Surface (Flt rd) × ℝ)) {ε : ℝ} (hε : ε + 2 * (parts.length * u) ≤ 1)
    (hp : ∀ p ∈ parts, SagWithin rd p.1 x y p.2 (ε * |p.2|)) :
    SagWithin rd (.sum (parts.map Prod.fst)) x y (parts.map Prod.snd).sum
      ((ε + 2 * (parts.length * u)) * (parts.map fun p => |p.2|).sum) := by
  have hu0 := h.nonneg
  have main : ∀ (ps : List (Surface (Flt rd) × ℝ)) (res res' A δ : ℝ), (∀ p ∈ ps, SagWithin rd p.1 x y p.2 (ε * |p.2|)) → ε ≤ δ →
      δ + 2 * (ps.length * u) ≤ 1 → |res' - res| ≤ δ * A → |res| ≤ A →
      ∃ z', (ps.map Prod.fst).foldl (fun acc s => acc + s.sag (Flt.fin rd x) (Flt.fin rd y)) (Flt.fin rd res') = Flt.fin rd z' ∧
        |z' - (res + (ps.map Prod.snd).sum)| ≤ (δ + 2 * (ps.length * u)) * (A + (ps.map fun p => |p.2|).sum) := by
    intro ps
    induction ps with
    | nil => intro res res' A δ _ _ _ hr _; exact ⟨res', rfl, by simpa using hr⟩
    | cons p ps ih =>
      intro res res' A δ hps hεδ hδ hr hA
      obtain ⟨t', et, ht⟩ := hps p List.mem_cons_self
      simp only [List.length_cons, Nat.cast_add, Nat.cast_one] at hδ ⊢
      have lu : 0 ≤ (ps.length : ℝ) * u := by positivity
      have step : |rd (res' + t') - (res + p.2)| ≤ (δ + 2 * u) * (A + |p.2|) := by
        have ht' : |t' - p.2| ≤ δ * |p.2| := ht.trans (mul_le_mul_of_nonneg_right hεδ (abs_nonneg _))
        have d : |res' + t' - (res + p.2)| ≤ δ * (A + |p.2|) := by
          rw [show res' + t' - (res + p.2) = (res' - res) + (t' - p.2) by ring]
          exact (abs_add_le _ _).trans (by linarith)
        have hT : |res + p.2| ≤ A + |p.2| := (abs_add_le _ _).trans (by linarith)
        have sz : |res' + t'| ≤ (1 + δ) * (A + |p.2|) := by
          have := abs_add_le (res' + t' - (res + p.2)) (res + p.2)
          rw [sub_add_cancel] at this
          linarith
        have A0 : 0 ≤ A + |p.2| := (abs_nonneg _).trans hT
        have t1 := abs_add_le (rd (res' + t') - (res' + t')) (res' + t' - (res + p.2))
        rw [sub_add_sub_cancel] at t1
        have e := h.err (res' + t')
        have := mul_le_mul_of_nonneg_left sz hu0
        have := mul_le_mul_of_nonneg_right (show δ ≤ 1 by linarith) (mul_nonneg hu0 A0)
        linarith
      obtain ⟨z', e1, e2⟩ := ih _ _ _ (δ + 2 * u) (fun q hq => hps q (List.mem_cons_of_mem _ hq)) (by linarith) (by linarith) step
        ((abs_add_le _ _).trans (by linarith))
      refine ⟨z', ?_, ?_⟩
      · simp only [List.map_cons, List.foldl_cons, et, Flt.add_fin]
        exact e1
      · simp only [List.map_cons, List.sum_cons]
        rw [← add_assoc, ← add_assoc, show δ + 2 * ((ps.length + 1) * u) = δ + 2 * u + 2 * (ps.length * u) by ring]
        exact e2
  obtain ⟨z', e1, e2⟩ := main parts 0 0 0 ε hp le_rfl hε (by simp) (by simp)
  refine ⟨z', ?_, by simpa using e2⟩
  show Surface.sumSag _ _ _ = _
  unfold Surface.sumSag
  rw [flt_zero h]
  exact e1

/-- **C125** (mirrors).  Where the computed normal is within `e` of the true one, the reflected ray leaves in the direction of the mirror
image in the true normal, up to roundings and `11 e`. -/
theorem C125_reflect (h : Rounds u rd) (hu : u ≤ 1 / 1000) {η e : ℝ} {s : Surface (Flt rd)} (hs : UnitNormals rd η s) (hη : η ≤ 1 / 10)
    (ct : CoordTransform (Flt rd)) (co : Option (Coating (Flt rd))) (niter : ℕ) (ray : Ray (Flt rd)) {w : V3 ℝ}
    (hw : (ray.reflect s ct co niter).v = w.flt rd) (hok : (ray.reflect s ct co niter).failed = false)
    (hx : (ray.reflect s ct co niter).r.x = Flt.fin rd x) (hy : (ray.reflect s ct co niter).r.y = Flt.fin rd y)
    (hn : NormalWithin rd s x y n e) (h1 : nrm n = 1) (he : e ≤ 1 / 10) :
    ∃ v : V3 ℝ, ct.forwardVel ray.v = v.flt rd ∧ nrm (w - mirrorImage n v) ≤ (30 * u + 3 * η + 11 * e) * nrm v := by
  obtain ⟨v, m, hv, hm, hd, -⟩ := C115_reflect h hu hs hη ct co niter ray hw hok
  obtain ⟨n', hn', hne⟩ := hn
  rw [hx, hy, hn'] at hm
  have : n' = m := by
    have a := congrArg V3.x hm
    have b := congrArg V3.y hm
    have d := congrArg V3.z hm
    simp only [V3.flt, V3.map, Flt.fin_inj] at a b d
    exact V3.ext a b d
  subst this
  refine ⟨v, hv, ?_⟩
  have := nrm_via w (mirrorImage n' v) (mirrorImage n v)
  have := mirror_perturb v h1 hne he
  linarith

/-- **C125** (conic mirrors): the whole of it for `Quadric`. -/
theorem C125_quadric_mirror (h : Rounds u rd) (h1 : rd 1 = 1) (hc : 1 ≤ c) (hcu : (1320 * c + 1000) * u ≤ 1)
    (ct : CoordTransform (Flt rd)) (co : Option (Coating (Flt rd))) (niter : ℕ) (ray : Ray (Flt rd)) {w : V3 ℝ}
    (hw : (ray.reflect (.quadric (Flt.fin rd R) (Flt.fin rd κ)) ct co niter).v = w.flt rd)
    (hok : (ray.reflect (.quadric (Flt.fin rd R) (Flt.fin rd κ)) ct co niter).failed = false)
    (hx : (ray.reflect (.quadric (Flt.fin rd R) (Flt.fin rd κ)) ct co niter).r.x = Flt.fin rd x)
    (hy : (ray.reflect (.quadric (Flt.fin rd R) (Flt.fin rd κ)) ct co niter).r.y = Flt.fin rd y)
    (hxy : OffRim c κ R x y) (hz : OnConic κ R x y z) (hn : ConicNormal κ R x y z n) :
    ∃ v : V3 ℝ, ct.forwardVel ray.v = v.flt rd ∧ nrm (w - mirrorImage n v) ≤ (1452 * c + 844) * u * nrm v := by
  have hc' : (1 : ℝ) ≤ c := by exact_mod_cast hc
  have hu0 := h.nonneg
  have cu : 0 ≤ c * u := by positivity
  obtain ⟨v, hv, hd⟩ := C125_reflect h (by nlinarith) (C114_quadric h (by nlinarith) _ _) (by nlinarith) ct co niter ray hw hok hx hy
    (C125_quadric_normal h h1 hc (by nlinarith) hxy hz hn) hn.2.1 (by nlinarith)
  refine ⟨v, hv, hd.trans_eq ?_⟩
  ring

/-- In double precision the sag of a unit sphere at `(2⁻³⁰, 0)` is zero, although the sphere is `2⁻⁶¹` high there and the sag of the same
surface given as `Quadric(1, 0)` is right to fifteen digits: `sphere.cpp` subtracts nearly equal numbers. -/
theorem C125_sphere_violated : (Surface.sphere (Flt.fin rd53 1)).sag (Flt.fin rd53 (2 ^ (-30 : ℤ))) (Flt.fin rd53 0) = Flt.fin rd53 0 ∧
    ∃ z : ℝ, OnConic 0 1 (2 ^ (-30 : ℤ)) 0 z ∧ 0 < z ∧
      SagWithin rd53 (.quadric (Flt.fin rd53 1) (Flt.fin rd53 0)) (2 ^ (-30 : ℤ)) 0 z (38 * 2 ^ (-53 : ℤ) * |z|) := by
  constructor
  · have z0 : rd53 0 = 0 := rd53_rounds.zero
    have sq : rd53 (2 ^ (-30 : ℤ) * 2 ^ (-30 : ℤ)) = 2 ^ (-60 : ℤ) := by
      have := rd53_dyadic 1 (-60) (by norm_num)
      rw [← zpow_add₀ (by norm_num)]
      simpa using this
    have s1 : rd53 (2 ^ (-60 : ℤ)) = 2 ^ (-60 : ℤ) := by
      have := rd53_dyadic 1 (-60) (by norm_num)
      simpa using this
    have near : rd53 (1 - 2 ^ (-60 : ℤ)) = 1 := by
      have pos : 0 < |1 - (2 : ℝ) ^ (-60 : ℤ)| := by norm_num [zpow_neg]
      have l1 : Int.log 2 |1 - (2 : ℝ) ^ (-60 : ℤ)| < 0 := by
        rw [← Int.lt_zpow_iff_log_lt (by norm_num) pos]
        norm_num [zpow_neg, abs_of_pos]
      have l2 : -1 ≤ Int.log 2 |1 - (2 : ℝ) ^ (-60 : ℤ)| := by
        rw [← Int.zpow_le_iff_le_log (by norm_num) pos]
        norm_num [zpow_neg, abs_of_pos]
      have l : Int.log 2 |1 - (2 : ℝ) ^ (-60 : ℤ)| = -1 := by omega
      have rn : round ((1 - (2 : ℝ) ^ (-60 : ℤ)) / 2 ^ ((-1 : ℤ) - 52)) = 2 ^ 53 := by
        rw [round_eq, Int.floor_eq_iff]
        norm_num [zpow_neg]
      rw [rd53, l, rn]
      norm_num [zpow_neg]
    show Surface.sphereSag _ _ _ = _
    unfold Surface.sphereSag
    simp only [flt_zero rd53_rounds, flt_one, rd53_one, Flt.eq_fin, one_ne_zero, decide_false, Bool.false_eq_true, if_false, Flt.mul_fin,
      Flt.add_fin, Flt.div_fin one_ne_zero, Flt.sub_fin, sq, mul_zero, z0, add_zero, div_one, mul_one, s1, near]
    rw [Flt.sqrt_fin zero_le_one, Real.sqrt_one, rd53_one, Flt.sub_fin, sub_self, z0, Flt.mul_fin, mul_zero, z0]
  · have s0 : 0 ≤ 1 - (2 ^ (-60 : ℤ) : ℝ) := by norm_num [zpow_neg]
    have s1 : Real.sqrt (1 - 2 ^ (-60 : ℤ)) < 1 := by
      rw [Real.sqrt_lt' one_pos]
      norm_num [zpow_neg]
    have on : OnConic 0 1 (2 ^ (-30 : ℤ)) 0 (1 - Real.sqrt (1 - 2 ^ (-60 : ℤ))) := by
      have f := Real.sq_sqrt s0
      have e : ((2 : ℝ) ^ (-30 : ℤ)) ^ 2 = 2 ^ (-60 : ℤ) := by norm_num [zpow_neg]
      refine ⟨?_, ?_⟩
      · rw [e]; linear_combination f
      · have : 0 < Real.sqrt (1 - 2 ^ (-60 : ℤ)) := Real.sqrt_pos.2 (by norm_num [zpow_neg])
        linarith
    refine ⟨_, on, by linarith, ?_⟩
    have := C125_quadric_sag rd53_rounds rd53_one (c := 1) le_rfl (by norm_num [zpow_neg]) (by unfold OffRim; norm_num [zpow_neg]) on
    norm_num at this ⊢
    exact this

end c125

/-! ## Concrete cases -/

section cases
variable {κ R x y : ℝ} {c : ℕ}

/-- Over every clear point there is a point of the conic, with a normal. -/
theorem conic_exists (hR : R ≠ 0) (h : OffRim c κ R x y) : ∃ z n, OnConic κ R x y z ∧ ConicNormal κ R x y z n := by
  have p := rim_pos (offRim_le hR h)
  have sp : 0 < rimRoot κ R x y := Real.sqrt_pos.2 p
  have f : rimRoot κ R x y ^ 2 = 1 - (x * x + y * y) * ((κ + 1) / R / R) := Real.sq_sqrt p.le
  have f' : (κ + 1) * (x * x + y * y) = R ^ 2 * (1 - rimRoot κ R x y) * (1 + rimRoot κ R x y) := by
    have : (κ + 1) * (x * x + y * y) = R ^ 2 * ((x * x + y * y) * ((κ + 1) / R / R)) := by field_simp
    rw [this]
    linear_combination R ^ 2 * f
  generalize rimRoot κ R x y = s at *
  have ne : 1 + s ≠ 0 := by linarith
  have ez : (1 + κ) * ((x * x + y * y) / (R * (1 + s))) = R * (1 - s) := by
    rw [← mul_div_assoc, div_eq_iff (mul_ne_zero hR ne)]
    linear_combination f'
  have on : OnConic κ R x y ((x * x + y * y) / (R * (1 + s))) := by
    refine ⟨?_, ?_⟩
    · generalize hz : (x * x + y * y) / (R * (1 + s)) = z at *
      rw [div_eq_iff (mul_ne_zero hR ne)] at hz
      linear_combination hz + z * ez
    · rw [ez, show R * (R - R * (1 - s)) = R ^ 2 * s by ring]
      positivity
  refine ⟨_, upward (x / (R * s)) (y / (R * s)), on, ?_, nrm_upward _ _, ?_⟩
  · refine ⟨-(1 / (R * s)) * (1 / Real.sqrt (1 + (x / (R * s) * (x / (R * s)) + y / (R * s) * (y / (R * s))))), ?_⟩
    rw [ez]
    ext
    · simp only [upward]; ring
    · simp only [upward]; ring
    · simp only [upward]
      rw [show R * (1 - s) - R = -(R * s) by ring, mul_comm (-(1 / (R * s))), mul_assoc, neg_mul_neg, one_div_mul_cancel (mul_ne_zero hR sp.ne'),
        mul_one]
  · have : 0 < 1 + (x / (R * s) * (x / (R * s)) + y / (R * s) * (y / (R * s))) := by
      nlinarith [mul_self_nonneg (x / (R * s)), mul_self_nonneg (y / (R * s))]
    have := Real.sqrt_pos.2 this
    simp only [upward]
    positivity

/-- A hyperbolic primary of 20 m radius of curvature, 3 m off the axis, in double precision. -/
example : ∃ z n, OnConic (-1.2) 20 3 1 z ∧ ConicNormal (-1.2) 20 3 1 z n ∧
    SagWithin rd53 (.quadric (Flt.fin rd53 20) (Flt.fin rd53 (-1.2))) 3 1 z (38 * 2 ^ (-53 : ℤ) * |z|) ∧
    NormalWithin rd53 (.quadric (Flt.fin rd53 20) (Flt.fin rd53 (-1.2))) 3 1 n (194 * 2 ^ (-53 : ℤ)) := by
  have hc : OffRim 1 (-1.2) 20 3 1 := by unfold OffRim; norm_num
  obtain ⟨z, n, hz, hn⟩ := conic_exists (by norm_num) hc
  have a := C125_quadric_sag rd53_rounds rd53_one le_rfl (by norm_num [zpow_neg]) hc hz
  have b := C125_quadric_normal rd53_rounds rd53_one le_rfl (by norm_num [zpow_neg]) hc hz hn
  norm_num at a b
  exact ⟨z, n, hz, hn, by norm_num; exact a, by norm_num; exact b⟩

/-- A deep ball lens, at 95% of the rim. -/
example : ∃ z n, OnConic 0 1 0.95 0 z ∧ ConicNormal 0 1 0.95 0 z n ∧
    SagWithin rd53 (.sphere (Flt.fin rd53 1)) 0.95 0 z (208 * 2 ^ (-53 : ℤ) * |1|) ∧
    NormalWithin rd53 (.sphere (Flt.fin rd53 1)) 0.95 0 n (1388 * 2 ^ (-53 : ℤ)) := by
  have hc : OffRim 10 0 1 0.95 0 := by unfold OffRim; norm_num
  obtain ⟨z, n, hz, hn⟩ := conic_exists (by norm_num) hc
  have a := C125_sphere_sag_partial rd53_rounds rd53_one (by norm_num) (by norm_num [zpow_neg]) hc hz
  have b := C125_sphere_normal rd53_rounds rd53_one (by norm_num) (by norm_num [zpow_neg]) hc hz hn
  norm_num at a b
  exact ⟨z, n, hz, hn, by norm_num; exact a, by norm_num; exact b⟩

/-- An asphere with two coefficients, and its normal. -/
example : ∃ z n E S, OnConic 0 10 1 2 z ∧ RadialNormal 1 2 (Real.sqrt (1 ^ 2 + 2 ^ 2) / (10 - (1 + 0) * z) + E) n ∧
    SagWithin rd53 (.asphere (Flt.fin rd53 10) (Flt.fin rd53 0) ([0, 1 / 100].map (Flt.fin rd53))) 1 2 (z + powerSum (1 ^ 2 + 2 ^ 2) 0 [0, 1 / 100])
      ((24 * (1 : ℕ) + 8 * ([0, 1 / 100] : List ℝ).length + 16) * 2 ^ (-53 : ℤ) * (|z| + powerSum (1 ^ 2 + 2 ^ 2) 0 ([0, 1 / 100].map abs))) ∧
    NormalWithin rd53 (.asphere (Flt.fin rd53 10) (Flt.fin rd53 0) ([0, 1 / 100].map (Flt.fin rd53))) 1 2 n
      (20 * 2 ^ (-53 : ℤ) + (44 * (1 : ℕ) + 18 * ([0, 1 / 100] : List ℝ).length + 14) * 2 ^ (-53 : ℤ) *
        (|Real.sqrt (1 ^ 2 + 2 ^ 2) / (10 - (1 + 0) * z)| + S)) := by
  have hc : OffRim 1 0 10 1 2 := by unfold OffRim; norm_num
  obtain ⟨z, -, hz, -⟩ := conic_exists (by norm_num) hc
  have hE := slopeSum_deriv (Real.sqrt (1 ^ 2 + 2 ^ 2)) [0, 1 / 100] 0
  have hS := slopeSum_deriv (Real.sqrt (1 ^ 2 + 2 ^ 2)) ([0, 1 / 100].map abs) 0
  generalize slopeSum (Real.sqrt (1 ^ 2 + 2 ^ 2)) 0 [0, 1 / 100] = E at hE
  generalize slopeSum (Real.sqrt (1 ^ 2 + 2 ^ 2)) 0 ([0, 1 / 100].map abs) = S at hS
  have sp : 0 < Real.sqrt ((1 : ℝ) ^ 2 + 2 ^ 2) := Real.sqrt_pos.2 (by norm_num)
  refine ⟨z, upward (1 / Real.sqrt (1 ^ 2 + 2 ^ 2) * (Real.sqrt (1 ^ 2 + 2 ^ 2) / (10 - (1 + 0) * z) + E))
    (2 / Real.sqrt (1 ^ 2 + 2 ^ 2) * (Real.sqrt (1 ^ 2 + 2 ^ 2) / (10 - (1 + 0) * z) + E)), E, S, hz, ?_,
    C125_asphere_sag rd53_rounds rd53_one le_rfl _ (by norm_num [zpow_neg]) hc hz,
    C125_asphere_normal rd53_rounds rd53_one le_rfl _ (by norm_num [zpow_neg]) hc hz hE hS ?_⟩ <;>
  · generalize Real.sqrt ((1 : ℝ) ^ 2 + 2 ^ 2) / (10 - (1 + 0) * z) + E = D
    refine ⟨nrm_upward _ _, ?_, ?_, ?_, fun h => absurd h one_ne_zero⟩
    · have : 0 < 1 + (1 / Real.sqrt ((1 : ℝ) ^ 2 + 2 ^ 2) * D * (1 / Real.sqrt (1 ^ 2 + 2 ^ 2) * D) +
          2 / Real.sqrt (1 ^ 2 + 2 ^ 2) * D * (2 / Real.sqrt (1 ^ 2 + 2 ^ 2) * D)) := by
        nlinarith [mul_self_nonneg (1 / Real.sqrt ((1 : ℝ) ^ 2 + 2 ^ 2) * D), mul_self_nonneg (2 / Real.sqrt ((1 : ℝ) ^ 2 + 2 ^ 2) * D)]
      have := Real.sqrt_pos.2 this
      simp only [upward]
      positivity
    · simp only [upward]
      generalize Real.sqrt ((1 : ℝ) ^ 2 + 2 ^ 2) = S at *
      field_simp
    · simp only [upward]
      generalize Real.sqrt ((1 : ℝ) ^ 2 + 2 ^ 2) = S at *
      field_simp

/-- A ray from `(2, 0, -1)` upwards is sent sideways by the paraboloid `z = (x² + y²) / 4`. -/
example : ∃ w : V3 ℝ, ((upRay ⟨2, 0, -1⟩).reflect (.paraboloid (Flt.fin rd53 2)) hereT none 0).v = w.flt rd53 ∧
    nrm (w - ⟨1, 0, 0⟩) ≤ 574 * 2 ^ (-53 : ℤ) := by
  have h0 := rd53_rounds.zero
  have e2 : (2 : Flt rd53) = Flt.fin rd53 2 := by exact_mod_cast lit53 (n := 2) (by norm_num)
  have e4 : (4 : Flt rd53) = Flt.fin rd53 4 := by exact_mod_cast lit53 (n := 4) (by norm_num)
  have e1 : (1 : Flt rd53) = Flt.fin rd53 1 := by exact_mod_cast lit53 (n := 1) (by norm_num)
  have i1 := rd53_one
  have i2 : rd53 2 = 2 := by exact_mod_cast rd53_nat 2 (by norm_num)
  have i4 : rd53 4 = 4 := by exact_mod_cast rd53_nat 4 (by norm_num)
  have j1 : rd53 (-1) = -1 := by exact_mod_cast rd53_negNat 1 (by norm_num)
  have j2 : rd53 (-2) = -2 := by exact_mod_cast rd53_negNat 2 (by norm_num)
  have hh : rd53 (1 / 2) = 1 / 2 := by have := rd53_dyadic 1 (-1) (by norm_num); norm_num at this ⊢; exact this
  have hq : rd53 (1 / 4) = 1 / 4 := by have := rd53_dyadic 1 (-2) (by norm_num); norm_num [zpow_neg] at this ⊢; exact this
  have ht : (Surface.paraboloid (Flt.fin rd53 2)).timeToIntersect (V3.flt rd53 ⟨2, 0, -1⟩) (V3.flt rd53 ⟨0, 0, 1⟩) 0 0 =
      (true, Flt.fin rd53 2) := by
    show Surface.paraboloidTime (Flt.fin rd53 2) (V3.flt rd53 ⟨2, 0, -1⟩) (V3.flt rd53 ⟨0, 0, 1⟩) 0 = _
    simp only [Surface.paraboloidTime, V3.flt, V3.map, e2, e4, e1, flt_zero rd53_rounds, Flt.mul_fin, Flt.add_fin, Flt.sub_fin,
      Flt.lt_fin, Flt.neg_fin, Flt.eq_fin, Flt.div_fin (two_ne_zero (α := ℝ))]
    norm_num [h0, i1, i2, i4, j1, j2, hh, hq, Flt.div_fin]
  have f := hereT_forward 2 0 (-1) (by norm_num) (by norm_num) (by norm_num)
  have g := hereT_forward 0 0 1 (by norm_num) (by norm_num) (by norm_num)
  norm_num only [Int.cast_zero, Int.cast_neg, Int.cast_ofNat, Int.cast_one] at f g
  have rp : V3.flt rd53 ⟨2, 0, -1⟩ + (V3.flt rd53 ⟨0, 0, 1⟩).smulR (Flt.fin rd53 2) = V3.flt rd53 ⟨2, 0, 1⟩ := by
    ext <;> simp [V3.flt, V3.map, h0, i2]
    norm_num [i1]
  have s2 : Real.sqrt 2 ^ 2 = 2 := Real.sq_sqrt (by norm_num)
  have sp : 0 < Real.sqrt 2 := Real.sqrt_pos.2 (by norm_num)
  have hz : OnConic (-1) 2 2 0 1 := ⟨by norm_num, by norm_num⟩
  have n1 : nrm ⟨-1 / Real.sqrt 2, 0, 1 / Real.sqrt 2⟩ = 1 := by
    have := nrm_sq ⟨-1 / Real.sqrt 2, 0, 1 / Real.sqrt 2⟩
    simp only [div_pow, s2] at this
    have := nrm_nonneg ⟨-1 / Real.sqrt 2, 0, 1 / Real.sqrt 2⟩
    nlinarith
  have hn : ConicNormal (-1) 2 2 0 1 ⟨-1 / Real.sqrt 2, 0, 1 / Real.sqrt 2⟩ :=
    ⟨⟨-1 / (2 * Real.sqrt 2), by ext <;> simp <;> field_simp⟩, n1, by positivity⟩
  have nw := C125_paraboloid_normal rd53_rounds (by norm_num [zpow_neg]) hz hn
  obtain ⟨n', en, -⟩ := id nw
  have er : (upRay ⟨2, 0, -1⟩).reflect (.paraboloid (Flt.fin rd53 2)) hereT none 0 =
      { upRay ⟨2, 0, -1⟩ with
        r := V3.flt rd53 ⟨2, 0, 1⟩
        v := V3.flt rd53 ⟨0, 0, 1⟩ - V3.smul (2 * V3.dot (V3.flt rd53 ⟨0, 0, 1⟩) (n'.flt rd53)) (n'.flt rd53)
        t := 0 + Flt.fin rd53 2 } := by
    unfold Ray.reflect
    simp only [upRay, f.1, g.2, ht, Bool.false_eq_true, if_false, rp]
    rw [show (V3.flt rd53 ⟨2, 0, 1⟩).x = Flt.fin rd53 2 from rfl, show (V3.flt rd53 ⟨2, 0, 1⟩).y = Flt.fin rd53 0 from rfl, en]
  have hw : ∃ w : V3 ℝ, ((upRay ⟨2, 0, -1⟩).reflect (.paraboloid (Flt.fin rd53 2)) hereT none 0).v = w.flt rd53 := by
    rw [er]
    refine V3.stored ?_ ?_ ?_ <;>
    · simp only [V3.dot, V3.sub_x, V3.sub_y, V3.sub_z, V3.smul_x, V3.smul_y, V3.smul_z, V3.flt, V3.map, e2, Flt.mul_fin, Flt.add_fin, Flt.sub_fin]
      exact stored_fin _
  obtain ⟨w, hw⟩ := hw
  refine ⟨w, hw, ?_⟩
  obtain ⟨v, hv, hd⟩ := C125_reflect rd53_rounds (by norm_num [zpow_neg]) (C114_paraboloid rd53_rounds (by norm_num [zpow_neg]) 2)
    (by norm_num [zpow_neg]) hereT none 0 (upRay ⟨2, 0, -1⟩) hw (by rw [er]; rfl) (x := 2) (y := 0) (by rw [er]; rfl) (by rw [er]; rfl) nw n1
    (by norm_num [zpow_neg])
  have ev : v = ⟨0, 0, 1⟩ := by
    rw [show (upRay ⟨2, 0, -1⟩).v = V3.flt rd53 ⟨0, 0, 1⟩ from rfl, g.2] at hv
    have a := congrArg V3.x hv
    have b := congrArg V3.y hv
    have d := congrArg V3.z hv
    simp only [V3.flt, V3.map, Flt.fin_inj] at a b d
    exact V3.ext a.symm b.symm d.symm
  have em : mirrorImage ⟨-1 / Real.sqrt 2, 0, 1 / Real.sqrt 2⟩ v = ⟨1, 0, 0⟩ := by
    rw [ev]
    ext <;> simp [mirrorImage, V3.dot] <;> field_simp <;> norm_num
  have nv : nrm v = 1 := by rw [ev]; simp [nrm, V3.normSq, V3.dot]
  rw [em, nv] at hd
  refine hd.trans_eq ?_
  ring

end cases
end Batoid.Props
