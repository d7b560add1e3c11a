import Verif.Props.RoundCalc

/-!
# Property C114: normals in arithmetic with rounding

Specification vocabulary: `UnitNormals rd η s`, every normal the surface computes has length 1 up to `η`.
-/

namespace Batoid.Props
open Batoid

section spec

/-- Wherever the computed normal consists of numbers, the square of its length is 1 up to `η`. -/
def UnitNormals (rd : ℝ → ℝ) (η : ℝ) (s : Surface (Flt rd)) : Prop :=
  ∀ (x y : Flt rd) (n : V3 ℝ), s.normal x y = n.flt rd → |nrm n ^ 2 - 1| ≤ η

end spec

section lemmas
variable {u : ℝ} {rd : ℝ → ℝ}

theorem flt_one : (1 : Flt rd) = Flt.fin rd (rd 1) := by simpa using Flt.ofNat_fin (rd := rd) 1
theorem flt_zero (h : Rounds u rd) : (0 : Flt rd) = Flt.fin rd 0 := by simpa [h.zero] using Flt.ofNat_fin (rd := rd) 0

theorem v3_flt {a b c : Flt rd} {n : V3 ℝ} (h : (⟨a, b, c⟩ : V3 (Flt rd)) = n.flt rd) :
    a = Flt.fin rd n.x ∧ b = Flt.fin rd n.y ∧ c = Flt.fin rd n.z :=
  ⟨congrArg V3.x h, congrArg V3.y h, congrArg V3.z h⟩

/-- Squares of components known to `k` relative errors. -/
theorem unit_of_rel (hu0 : 0 ≤ u) (hu1 : u < 1) {k : ℕ} {n : V3 ℝ} {X Y Z K : ℝ} (hx : Rel u k n.x X) (hy : Rel u k n.y Y)
    (hz : Rel u k n.z Z) (one : X * X + Y * Y + Z * Z = 1) (hK : 2 * ((k + k : ℕ) : ℝ) = K) (hKu : K * u ≤ 1) :
    |nrm n ^ 2 - 1| ≤ K * u := by
  have h1 := ((hx.mul hu1 hx).add hu1 (hy.mul hu1 hy) (mul_self_nonneg _) (mul_self_nonneg _)).add hu1 (hz.mul hu1 hz)
    (add_nonneg (mul_self_nonneg _) (mul_self_nonneg _)) (mul_self_nonneg _)
  rw [one] at h1
  have h2 := h1.near hu0 hu1 K hK hKu
  rw [nrm_sq, show n.x ^ 2 + n.y ^ 2 + n.z ^ 2 = n.x * n.x + n.y * n.y + n.z * n.z by ring]
  simpa using h2

theorem upright_unit (h : Rounds u rd) (hu : u ≤ 1 / 1000) {n : V3 ℝ} (e : (⟨0, 0, 1⟩ : V3 (Flt rd)) = n.flt rd) :
    |nrm n ^ 2 - 1| ≤ 4 * u := by
  have hu0 := h.nonneg
  have hu1 : u < 1 := by linarith
  rw [flt_one, flt_zero h] at e
  obtain ⟨e1, e2, e3⟩ := v3_flt e
  rw [Flt.fin_inj] at e1 e2 e3
  refine unit_of_rel hu0 hu1 (k := 1) (X := 0) (Y := 0) (Z := 1) ?_ ?_ ?_ (by norm_num) (by norm_num) (by linarith)
  · rw [← e1]; exact (Rel.refl 0).mono hu0 hu1 (by norm_num)
  · rw [← e2]; exact (Rel.refl 0).mono hu0 hu1 (by norm_num)
  · rw [← e3]; exact h.rel hu1 1

/-- The normal computed from slopes `g1`, `g2` as `(g1 nz, g2 nz, nz)` where `q` is near `1 + g1² + g2²`. -/
theorem slopes_unit (h : Rounds u rd) (hu : u ≤ 1 / 1000) {g1 g2 q : ℝ} (hq : Rel u 3 q (1 + g1 * g1 + g2 * g2)) {n : V3 ℝ}
    (e : (⟨Flt.fin rd g1 * (1 / Arith.sqrt (Flt.fin rd q)), Flt.fin rd g2 * (1 / Arith.sqrt (Flt.fin rd q)),
      1 / Arith.sqrt (Flt.fin rd q)⟩ : V3 (Flt rd)) = n.flt rd) : |nrm n ^ 2 - 1| ≤ 28 * u := by
  have hu0 := h.nonneg
  have hu1 : u < 1 := by linarith
  have pos : 0 < 1 + g1 * g1 + g2 * g2 := by nlinarith [mul_self_nonneg g1, mul_self_nonneg g2]
  have rs := h.after hu1 (hq.sqrt hu0 hu1 pos.le)
  have sp := Real.sqrt_pos.2 pos
  rw [Flt.sqrt_fin (hq.pos hu1 pos).le, flt_one, Flt.div_fin (rs.ne hu1 sp.ne'), Flt.mul_fin, Flt.mul_fin] at e
  obtain ⟨e1, e2, e3⟩ := v3_flt e
  rw [Flt.fin_inj] at e1 e2 e3
  have rz := h.after hu1 ((h.rel hu1 1).div hu1 rs)
  refine unit_of_rel hu0 hu1 (k := 7) (X := g1 * (1 / Real.sqrt (1 + g1 * g1 + g2 * g2)))
    (Y := g2 * (1 / Real.sqrt (1 + g1 * g1 + g2 * g2))) (Z := 1 / Real.sqrt (1 + g1 * g1 + g2 * g2)) ?_ ?_ ?_ ?_ (by norm_num)
    (by linarith)
  · rw [← e1]; exact (h.after hu1 ((Rel.refl g1).mul hu1 rz)).mono hu0 hu1 (by norm_num)
  · rw [← e2]; exact (h.after hu1 ((Rel.refl g2).mul hu1 rz)).mono hu0 hu1 (by norm_num)
  · rw [← e3]; exact rz.mono hu0 hu1 (by norm_num)
  · have f := Real.sq_sqrt pos.le
    generalize Real.sqrt (1 + g1 * g1 + g2 * g2) = S at *
    have : g1 * (1 / S) * (g1 * (1 / S)) + g2 * (1 / S) * (g2 * (1 / S)) + 1 / S * (1 / S) = (1 + g1 * g1 + g2 * g2) / S ^ 2 := by
      field_simp; ring
    rw [this, ← f, div_self (by positivity)]

theorem slopes_sum (h : Rounds u rd) (hu : u ≤ 1 / 1000) (g1 g2 : ℝ) :
    Rel u 3 (rd (rd (rd (g1 * g1) + rd (g2 * g2)) + rd 1)) (1 + g1 * g1 + g2 * g2) := by
  have hu0 := h.nonneg
  have hu1 : u < 1 := by linarith
  have r1 := h.after hu1 ((h.rel hu1 (g1 * g1)).add hu1 (h.rel hu1 (g2 * g2)) (mul_self_nonneg _) (mul_self_nonneg _))
  have r2 := h.after hu1 (r1.add hu1 ((h.rel hu1 1).mono hu0 hu1 (by norm_num)) (add_nonneg (mul_self_nonneg _) (mul_self_nonneg _))
    (by norm_num))
  rwa [show g1 * g1 + g2 * g2 + 1 = 1 + g1 * g1 + g2 * g2 by ring] at r2

end lemmas

section c114
variable {u : ℝ} {rd : ℝ → ℝ}

theorem C114_plane (h : Rounds u rd) (hu : u ≤ 1 / 1000) : UnitNormals rd (4 * u) Surface.plane :=
  fun _ _ _ e => upright_unit h hu e

/-- Spheres, quadrics and aspheres: whatever the slope `dzdr` is. -/
theorem radial_unit (h : Rounds u rd) (hu : u ≤ 1 / 1000) {a b x y r d : Flt rd} (hr : r = Arith.sqrt (x * x + y * y))
    (hne : ¬ (Arith.eq (x * x + y * y) 0 = true ∧ Arith.eq r 0 = true)) {n : V3 ℝ}
    (ha : a = -x / r * d * (1 / Arith.sqrt (1 + d * d))) (hb : b = -y / r * d * (1 / Arith.sqrt (1 + d * d)))
    (e : (⟨a, b, 1 / Arith.sqrt (1 + d * d)⟩ : V3 (Flt rd)) = n.flt rd) : |nrm n ^ 2 - 1| ≤ 44 * u := by
  have hu0 := h.nonneg
  have hu1 : u < 1 := by linarith
  obtain ⟨e1, e2, e3⟩ := v3_flt e
  have sa : Stored (-x / r * d * (1 / Arith.sqrt (1 + d * d))) := ⟨_, ha.symm.trans e1⟩
  have sb : Stored (-y / r * d * (1 / Arith.sqrt (1 + d * d))) := ⟨_, hb.symm.trans e2⟩
  obtain ⟨x', rfl⟩ := sa.mul.1.mul.1.div.neg
  obtain ⟨y', rfl⟩ := sb.mul.1.mul.1.div.neg
  obtain ⟨d', rfl⟩ := sa.mul.1.mul.2
  have rq := h.after hu1 ((h.rel hu1 (x' * x')).add hu1 (h.rel hu1 (y' * y')) (mul_self_nonneg _) (mul_self_nonneg _))
  have q0 : 0 ≤ x' * x' + y' * y' := add_nonneg (mul_self_nonneg _) (mul_self_nonneg _)
  rw [Flt.mul_fin, Flt.mul_fin, Flt.add_fin] at hr hne
  rw [Flt.sqrt_fin (rq.nonneg hu1 q0)] at hr
  subst hr
  have qpos : 0 < x' * x' + y' * y' := by
    refine lt_of_le_of_ne q0 fun e0 => hne ?_
    obtain ⟨θ, et, -⟩ := rq
    rw [flt_zero h, Flt.eq_fin, Flt.eq_fin, et, ← e0, zero_mul, Real.sqrt_zero, h.zero]
    simp
  have rr := h.after hu1 (rq.sqrt hu0 hu1 q0)
  have sp := Real.sqrt_pos.2 qpos
  have dpos : 0 < 1 + d' * d' := by nlinarith [mul_self_nonneg d']
  have rd1 := h.after hu1 ((h.rel hu1 1).add hu1 (h.rel hu1 (d' * d')) (by norm_num) (mul_self_nonneg _))
  have rs := h.after hu1 (rd1.sqrt hu0 hu1 dpos.le)
  have tp := Real.sqrt_pos.2 dpos
  have rz := h.after hu1 ((h.rel hu1 1).div hu1 rs)
  have ez : (1 : Flt rd) / Arith.sqrt (1 + Flt.fin rd d' * Flt.fin rd d') =
      Flt.fin rd (rd (rd 1 / rd (Real.sqrt (rd (rd 1 + rd (d' * d')))))) := by
    rw [flt_one, Flt.mul_fin, Flt.add_fin, Flt.sqrt_fin (rd1.nonneg hu1 dpos.le), Flt.div_fin (rs.ne hu1 tp.ne')]
  rw [ez] at ha hb e3
  rw [Flt.neg_fin, Flt.div_fin (rr.ne hu1 sp.ne'), Flt.mul_fin, Flt.mul_fin] at ha hb
  rw [ha, Flt.fin_inj] at e1
  rw [hb, Flt.fin_inj] at e2
  rw [Flt.fin_inj] at e3
  refine unit_of_rel hu0 hu1 (k := 11) (X := -x' / Real.sqrt (x' * x' + y' * y') * d' * (1 / Real.sqrt (1 + d' * d')))
    (Y := -y' / Real.sqrt (x' * x' + y' * y') * d' * (1 / Real.sqrt (1 + d' * d'))) (Z := 1 / Real.sqrt (1 + d' * d'))
    ?_ ?_ ?_ ?_ (by norm_num) (by linarith)
  · rw [← e1]
    exact (h.after hu1 ((h.after hu1 ((h.after hu1 ((Rel.refl (-x')).div hu1 rr)).mul hu1 (Rel.refl d'))).mul hu1 rz)).mono hu0 hu1
      (by norm_num)
  · rw [← e2]
    exact (h.after hu1 ((h.after hu1 ((h.after hu1 ((Rel.refl (-y')).div hu1 rr)).mul hu1 (Rel.refl d'))).mul hu1 rz)).mono hu0 hu1
      (by norm_num)
  · rw [← e3]
    exact rz.mono hu0 hu1 (by norm_num)
  · have f1 := Real.sq_sqrt q0
    have f2 := Real.sq_sqrt dpos.le
    generalize Real.sqrt (x' * x' + y' * y') = S at *
    generalize Real.sqrt (1 + d' * d') = T at *
    have : -x' / S * d' * (1 / T) * (-x' / S * d' * (1 / T)) + -y' / S * d' * (1 / T) * (-y' / S * d' * (1 / T)) + 1 / T * (1 / T) =
        ((x' * x' + y' * y') / S ^ 2 * (d' * d') + 1) / T ^ 2 := by
      field_simp
    rw [this, ← f1, div_self (by positivity), f2, one_mul, add_comm, div_self dpos.ne']

theorem radialNormal_unit (h : Rounds u rd) (hu : u ≤ 1 / 1000) (dzdr : Flt rd → Flt rd) {x y : Flt rd} {n : V3 ℝ}
    (e : Surface.radialNormal dzdr x y = n.flt rd) : |nrm n ^ 2 - 1| ≤ 44 * u := by
  have hu0 := h.nonneg
  unfold Surface.radialNormal at e
  simp only at e
  split_ifs at e with h0
  · exact (upright_unit h hu e).trans (by linarith)
  · refine radial_unit h hu rfl ?_ rfl rfl e
    exact fun h1 => h0 h1.2

/-- C114: computed normals of quadrics and aspheres. -/
theorem C114_quadric (h : Rounds u rd) (hu : u ≤ 1 / 1000) (R conic : Flt rd) : UnitNormals rd (44 * u) (Surface.quadric R conic) :=
  fun _ _ _ e => radialNormal_unit h hu _ e
theorem C114_asphere (h : Rounds u rd) (hu : u ≤ 1 / 1000) (R conic : Flt rd) (coefs : List (Flt rd)) :
    UnitNormals rd (44 * u) (Surface.asphere R conic coefs) :=
  fun _ _ _ e => radialNormal_unit h hu _ e
/-- C114: of spheres. -/
theorem C114_sphere (h : Rounds u rd) (hu : u ≤ 1 / 1000) (R : Flt rd) : UnitNormals rd (44 * u) (Surface.sphere R) := by
  have hu0 := h.nonneg
  intro x y n e
  change Surface.sphereNormal R x y = _ at e
  unfold Surface.sphereNormal at e
  simp only [Bool.or_eq_true] at e
  split_ifs at e with h0
  · exact (upright_unit h hu e).trans (by linarith)
  · exact radial_unit h hu rfl (fun h1 => h0 (Or.inr h1.1)) rfl rfl e

/-- C114: of paraboloids. -/
theorem C114_paraboloid (h : Rounds u rd) (hu : u ≤ 1 / 1000) (R : ℝ) :
    UnitNormals rd (64 * u) (Surface.paraboloid (Flt.fin rd R)) := by
  have hu0 := h.nonneg
  have hu1 : u < 1 := by linarith
  intro x y n e
  change Surface.paraboloidNormal (Flt.fin rd R) x y = _ at e
  unfold Surface.paraboloidNormal at e
  split_ifs at e with h0
  · exact (upright_unit h hu e).trans (by linarith)
  · simp only at e
    have hR : R ≠ 0 := by
      rintro rfl
      rw [flt_zero h, Flt.eq_fin] at h0
      simp at h0
    obtain ⟨e1, e2, e3⟩ := v3_flt e
    have sa : Stored _ := ⟨_, e1⟩
    have sb : Stored _ := ⟨_, e2⟩
    obtain ⟨x, rfl⟩ := sa.mul.1.mul.1.neg
    obtain ⟨y, rfl⟩ := sb.mul.1.mul.1.neg
    have ri := h.after hu1 ((h.rel hu1 1).div hu1 (Rel.refl R))
    have rq := h.after hu1 ((h.rel hu1 (x * x)).add hu1 (h.rel hu1 (y * y)) (mul_self_nonneg _) (mul_self_nonneg _))
    have q0 : 0 ≤ x * x + y * y := add_nonneg (mul_self_nonneg _) (mul_self_nonneg _)
    have rp := h.after hu1 ((h.after hu1 (rq.mul hu1 ri)).mul hu1 ri)
    have p0 : 0 ≤ (x * x + y * y) * (1 / R) * (1 / R) := by
      rw [mul_assoc]; exact mul_nonneg q0 (mul_self_nonneg _)
    have r1 := h.after hu1 (((h.rel hu1 1).mono hu0 hu1 (show 1 ≤ 2 + 2 + 1 + 2 + 1 by norm_num)).add hu1
      (rp.mono hu0 hu1 (by norm_num)) (by norm_num) p0)
    have pos : 0 < 1 + (x * x + y * y) * (1 / R) * (1 / R) := by linarith
    have rs := h.after hu1 (r1.sqrt hu0 hu1 pos.le)
    have sp := Real.sqrt_pos.2 pos
    have rz := h.after hu1 ((h.rel hu1 1).div hu1 rs)
    rw [flt_one, Flt.mul_fin, Flt.mul_fin, Flt.add_fin, Flt.div_fin hR, Flt.mul_fin, Flt.mul_fin, Flt.add_fin,
      Flt.sqrt_fin (r1.nonneg hu1 pos.le), Flt.div_fin (rs.ne hu1 sp.ne'), Flt.fin_inj] at e3
    rw [flt_one, Flt.mul_fin, Flt.mul_fin, Flt.add_fin, Flt.div_fin hR, Flt.mul_fin, Flt.mul_fin, Flt.add_fin,
      Flt.sqrt_fin (r1.nonneg hu1 pos.le), Flt.div_fin (rs.ne hu1 sp.ne'), Flt.neg_fin, Flt.mul_fin, Flt.mul_fin, Flt.fin_inj] at e1 e2
    refine unit_of_rel hu0 hu1 (k := 16) (X := -x * (1 / R) * (1 / Real.sqrt (1 + (x * x + y * y) * (1 / R) * (1 / R))))
      (Y := -y * (1 / R) * (1 / Real.sqrt (1 + (x * x + y * y) * (1 / R) * (1 / R))))
      (Z := 1 / Real.sqrt (1 + (x * x + y * y) * (1 / R) * (1 / R))) ?_ ?_ ?_ ?_ (by norm_num) (by linarith)
    · rw [← e1]
      exact (h.after hu1 ((h.after hu1 ((Rel.refl (-x)).mul hu1 ri)).mul hu1 rz)).mono hu0 hu1 (by norm_num)
    · rw [← e2]
      exact (h.after hu1 ((h.after hu1 ((Rel.refl (-y)).mul hu1 ri)).mul hu1 rz)).mono hu0 hu1 (by norm_num)
    · rw [← e3]
      exact rz.mono hu0 hu1 (by norm_num)
    · have f1 := Real.sq_sqrt pos.le
      have h1 : Real.sqrt (1 + (x * x + y * y) * (1 / R) * (1 / R)) ≠ 0 := sp.ne'
      generalize Real.sqrt (1 + (x * x + y * y) * (1 / R) * (1 / R)) = S at *
      have : -x * (1 / R) * (1 / S) * (-x * (1 / R) * (1 / S)) + -y * (1 / R) * (1 / S) * (-y * (1 / R) * (1 / S)) + 1 / S * (1 / S) =
          (1 + (x * x + y * y) * (1 / R) * (1 / R)) / S ^ 2 := by field_simp; ring
      rw [this, ← f1, div_self (by positivity)]

/-- C114: of polynomial surfaces. -/
theorem C114_polynomial (h : Rounds u rd) (hu : u ≤ 1 / 1000) (p : Surface.PolyData (Flt rd)) :
    UnitNormals rd (28 * u) (Surface.polynomial p) := by
  have hu1 : u < 1 := by linarith
  intro x y n e
  change Surface.polyNormal p x y = _ at e
  unfold Surface.polyNormal at e
  simp only at e
  obtain ⟨e1, e2, e3⟩ := v3_flt e
  have sa : Stored _ := ⟨_, e1⟩
  have sb : Stored _ := ⟨_, e2⟩
  obtain ⟨g1, h1⟩ := sa.mul.1
  obtain ⟨g2, h2⟩ := sb.mul.1
  rw [h1, h2, Flt.mul_fin, Flt.mul_fin, Flt.add_fin, flt_one, Flt.add_fin, ← flt_one] at e
  exact slopes_unit h hu (slopes_sum h hu g1 g2) e

/-- C114: of tables. -/
theorem C114_bicubic (h : Rounds u rd) (hu : u ≤ 1 / 1000) (T : Surface.Table (Flt rd)) :
    UnitNormals rd (28 * u) (Surface.bicubic T) := by
  have hu0 := h.nonneg
  have hu1 : u < 1 := by linarith
  intro x y n e
  change Surface.bicubicNormal T x y = _ at e
  unfold Surface.bicubicNormal at e
  simp only at e
  split_ifs at e
  · have := (v3_flt e).1
    exact absurd (congrArg Flt.val this) (by simp [Arith.nan, Flt.fin])
  · obtain ⟨e1, e2, e3⟩ := v3_flt e
    have sa : Stored _ := ⟨_, e1⟩
    have sb : Stored _ := ⟨_, e2⟩
    obtain ⟨g1, h1⟩ := sa.mul.1.neg
    obtain ⟨g2, h2⟩ := sb.mul.1.neg
    rw [h1, h2, Flt.mul_fin, Flt.mul_fin, flt_one, Flt.add_fin, Flt.add_fin, ← flt_one, Flt.neg_fin, Flt.neg_fin] at e
    refine slopes_unit h hu ?_ e
    have r1 := h.after hu1 ((h.rel hu1 1).add hu1 (h.rel hu1 (g1 * g1)) (by norm_num) (mul_self_nonneg _))
    have r2 := h.after hu1 (r1.add hu1 ((h.rel hu1 (g2 * g2)).mono hu0 hu1 (by norm_num)) (add_nonneg (by norm_num) (mul_self_nonneg _)) (mul_self_nonneg _))
    rwa [neg_mul_neg, neg_mul_neg]

/-- C114: of sums. -/
theorem C114_sum (h : Rounds u rd) (hu : u ≤ 1 / 1000) (ss : List (Surface (Flt rd))) : UnitNormals rd (28 * u) (Surface.sum ss) := by
  intro x y n e
  change Surface.sumNormal ss x y = _ at e
  unfold Surface.sumNormal at e
  simp only at e
  generalize ss.foldl _ _ = g at e
  obtain ⟨e1, e2, e3⟩ := v3_flt e
  have sa : Stored _ := ⟨_, e1⟩
  have sb : Stored _ := ⟨_, e2⟩
  obtain ⟨g1, h1⟩ := sa.mul.1
  obtain ⟨g2, h2⟩ := sb.mul.1
  rw [h1, h2, Flt.mul_fin, Flt.mul_fin, Flt.add_fin, flt_one, Flt.add_fin, ← flt_one] at e
  exact slopes_unit h hu (slopes_sum h hu g1 g2) e

/-- C114: of tilted planes, where the normal is a number at all (slopes up to one). -/
theorem C114_tilted (h : Rounds u rd) (hu : u ≤ 1 / 1000) (tx ty : ℝ) :
    UnitNormals rd (12 * u) (Surface.tilted (Flt.fin rd tx) (Flt.fin rd ty)) := by
  have hu0 := h.nonneg
  have hu1 : u < 1 := by linarith
  intro x y n e
  obtain ⟨e1, e2, e3⟩ := v3_flt e
  rw [Flt.neg_fin, Flt.fin_inj] at e1 e2
  rw [flt_one, Flt.mul_fin, Flt.mul_fin, Flt.sub_fin, Flt.sub_fin] at e3
  have hq : 0 ≤ rd (rd (rd 1 - rd (tx * tx)) - rd (ty * ty)) := by
    by_contra hneg
    have := congrArg Flt.val e3
    rw [Flt.fin] at this
    change (Flt.rnd rd (Arith.sqrt (Dbl.fin _))).val = _ at this
    rw [Dbl.sqrt_fin_neg (not_le.1 hneg)] at this
    simp [Flt.rnd, Flt.fin] at this
  rw [Flt.sqrt_fin hq, Flt.fin_inj] at e3
  rw [nrm_sq, ← e1, ← e2, ← e3]
  have s1 := h.err 1
  have s2 := h.err (tx * tx)
  have s3 := h.err (ty * ty)
  have s4 := h.err (rd 1 - rd (tx * tx))
  have s5 := h.err (rd (rd 1 - rd (tx * tx)) - rd (ty * ty))
  have s6 := (h.rel hu1 (Real.sqrt (rd (rd (rd 1 - rd (tx * tx)) - rd (ty * ty)))))
  have s7 := (s6.mul hu1 s6).near hu0 hu1 4 (by norm_num) (by linarith)
  rw [Real.mul_self_sqrt hq, abs_of_nonneg hq] at s7
  have x0 := mul_self_nonneg tx
  have y0 := mul_self_nonneg ty
  rw [show (-tx) ^ 2 = tx * tx by ring, show (-ty) ^ 2 = ty * ty by ring, pow_two]
  generalize rd (Real.sqrt (rd (rd (rd 1 - rd (tx * tx)) - rd (ty * ty)))) = Z at *
  generalize rd (rd (rd 1 - rd (tx * tx)) - rd (ty * ty)) = q at *
  generalize rd (rd 1 - rd (tx * tx)) = c at *
  generalize rd (tx * tx) = a at *
  generalize rd (ty * ty) = b at *
  generalize rd 1 = o at *
  generalize tx * tx = X at *
  generalize ty * ty = Y at *
  rw [abs_one, mul_one, abs_le] at s1
  rw [abs_of_nonneg x0, abs_le] at s2
  rw [abs_of_nonneg y0, abs_le] at s3
  rw [abs_le] at s7
  have cb : 0 ≤ c - b := by
    by_contra hn
    rw [abs_of_neg (not_le.1 hn), abs_le] at s5
    nlinarith
  rw [abs_of_nonneg cb, abs_le] at s5
  have b0 : 0 ≤ b := by nlinarith
  have oa : 0 ≤ o - a := by
    by_contra hn
    rw [abs_of_neg (not_le.1 hn), abs_le] at s4
    nlinarith
  rw [abs_of_nonneg oa, abs_le] at s4
  have a0 : 0 ≤ a := by nlinarith
  have o1 : o ≤ 1001 / 1000 := by linarith
  have u1 : u * (o - a) ≤ u * (1001 / 1000) := mul_le_mul_of_nonneg_left (by linarith) hu0
  have c1 : c ≤ 1003 / 1000 := by nlinarith
  have u2 : u * (c - b) ≤ u * (1003 / 1000) := mul_le_mul_of_nonneg_left (by linarith) hu0
  have q1 : q ≤ 1005 / 1000 := by nlinarith
  have u3 : u * q ≤ u * (1005 / 1000) := mul_le_mul_of_nonneg_left q1 hu0
  have X1 : X ≤ 1003 / 1000 := by nlinarith
  have Y1 : Y ≤ 1005 / 1000 := by nlinarith
  have u4 : u * X ≤ u * (1003 / 1000) := mul_le_mul_of_nonneg_left X1 hu0
  have u5 : u * Y ≤ u * (1005 / 1000) := mul_le_mul_of_nonneg_left Y1 hu0
  rw [abs_le]
  constructor <;> linarith

end c114

end Batoid.Props
