import Verif.Props.Intersect
import Mathlib.Analysis.SpecialFunctions.Sqrt
import Mathlib.Analysis.Calculus.Deriv.Inv
import Mathlib.Analysis.Calculus.Deriv.Add
import Mathlib.Analysis.Calculus.Deriv.Pow
import Mathlib.Topology.Instances.Real.Lemmas

/-!
# Sag and normal of the surfaces (C22, C24, C28, C29)

The specification of a normal is geometric: `NormalTo f x y n` says that `n` is a unit vector pointing up and
perpendicular to both tangent vectors of the graph of `f`, whose slopes are the derivatives of `f` in the sense of
analysis (`HasDerivAt`).
-/

namespace Batoid.Props
open Batoid Batoid.Surface Topology Filter

/-! ## Specification -/

/-- The real number behind a double; only used where the value is known to be finite. -/
noncomputable def realOf : Dbl → ℝ
  | .fin r => r
  | _ => 0

@[simp] theorem realOf_fin (r : ℝ) : realOf (.fin r) = r := rfl

/-- `n` is the upward unit normal of the graph of `f` at `(x, y)`. -/
structure NormalTo (f : ℝ → ℝ → ℝ) (x y : ℝ) (n : V3 ℝ) : Prop where
  unit : IsUnit' n
  upward : 0 < n.z
  perp : ∃ gx gy, HasDerivAt (fun u => f u y) gx x ∧ HasDerivAt (fun w => f x w) gy y ∧
    V3.dot n ⟨1, 0, gx⟩ = 0 ∧ V3.dot n ⟨0, 1, gy⟩ = 0

/-- On the set `D` the surface has a finite sag and its reported normal is the normal of the graph of the sag. -/
structure TrueNormals (s : Surface Dbl) (D : Set (ℝ × ℝ)) : Prop where
  finite : ∀ p ∈ D, Dbl.IsFin (s.sag (.fin p.1) (.fin p.2))
  normal : ∀ p ∈ D, ∃ n : V3 ℝ, s.normal (.fin p.1) (.fin p.2) = n.fin ∧
    NormalTo (fun x y => realOf (s.sag (.fin x) (.fin y))) p.1 p.2 n

/-! ## General lemmas -/

/-- Upward unit normal from slopes. -/
noncomputable def unitNormal (gx gy : ℝ) : V3 ℝ :=
  let nz := 1 / Real.sqrt (1 + gx * gx + gy * gy)
  ⟨-gx * nz, -gy * nz, nz⟩

theorem slope_pos (gx gy : ℝ) : 0 < 1 + gx * gx + gy * gy := by nlinarith [mul_self_nonneg gx, mul_self_nonneg gy]

theorem unitNormal_spec {f : ℝ → ℝ → ℝ} {x y gx gy : ℝ} (hx : HasDerivAt (fun u => f u y) gx x)
    (hy : HasDerivAt (fun w => f x w) gy y) : NormalTo f x y (unitNormal gx gy) := by
  have hp := slope_pos gx gy
  have hs := Real.sqrt_pos.mpr hp
  have hss := Real.mul_self_sqrt hp.le
  refine ⟨?_, ?_, gx, gy, hx, hy, ?_, ?_⟩
  · simp only [IsUnit', V3.dot, unitNormal]
    generalize Real.sqrt (1 + gx * gx + gy * gy) = q at hs hss
    have := hs.ne'
    field_simp
    linear_combination -hss
  · simp only [unitNormal]; positivity
  · simp only [V3.dot, unitNormal]; ring
  · simp only [V3.dot, unitNormal]; ring

/-- A normal determines the slopes. -/
theorem NormalTo.slopes {f : ℝ → ℝ → ℝ} {x y : ℝ} {n : V3 ℝ} (h : NormalTo f x y n) :
    HasDerivAt (fun u => f u y) (-n.x / n.z) x ∧ HasDerivAt (fun w => f x w) (-n.y / n.z) y := by
  obtain ⟨gx, gy, hx, hy, h1, h2⟩ := h.perp
  have hz := h.upward.ne'
  simp only [V3.dot] at h1 h2
  have e1 : -n.x / n.z = gx := by field_simp; linarith
  have e2 : -n.y / n.z = gy := by field_simp; linarith
  rw [e1, e2]; exact ⟨hx, hy⟩

/-- Assemble `TrueNormals` from explicit sag and slopes on an open set. -/
theorem trueNormals_of {s : Surface Dbl} {D : Set (ℝ × ℝ)} (hD : IsOpen D) (f gx gy : ℝ → ℝ → ℝ)
    (hsag : ∀ x y, (x, y) ∈ D → s.sag (.fin x) (.fin y) = .fin (f x y))
    (hx : ∀ x y, (x, y) ∈ D → HasDerivAt (fun u => f u y) (gx x y) x)
    (hy : ∀ x y, (x, y) ∈ D → HasDerivAt (fun w => f x w) (gy x y) y)
    (hn : ∀ x y, (x, y) ∈ D → s.normal (.fin x) (.fin y) = (unitNormal (gx x y) (gy x y)).fin) :
    TrueNormals s D := by
  refine ⟨fun p hp => ⟨_, hsag p.1 p.2 hp⟩, fun p hp => ⟨_, hn p.1 p.2 hp, unitNormal_spec ?_ ?_⟩⟩
  · refine (hx p.1 p.2 hp).congr_of_eventuallyEq ?_
    have : ∀ᶠ u in 𝓝 p.1, (u, p.2) ∈ D :=
      (Continuous.prodMk_left p.2).continuousAt.preimage_mem_nhds (hD.mem_nhds hp)
    filter_upwards [this] with u hu
    rw [hsag u p.2 hu, realOf_fin]
  · refine (hy p.1 p.2 hp).congr_of_eventuallyEq ?_
    have : ∀ᶠ w in 𝓝 p.2, (p.1, w) ∈ D :=
      (Continuous.prodMk_right p.1).continuousAt.preimage_mem_nhds (hD.mem_nhds hp)
    filter_upwards [this] with w hw
    rw [hsag p.1 w hw, realOf_fin]

/-- Slopes of a surface of revolution given as a function of `r^2`. -/
theorem radial_slopes {h : ℝ → ℝ} {d x y : ℝ} (hd : HasDerivAt h d (x * x + y * y)) :
    HasDerivAt (fun u => h (u * u + y * y)) (2 * x * d) x ∧ HasDerivAt (fun w => h (x * x + w * w)) (2 * y * d) y := by
  constructor
  · have h1 : HasDerivAt (fun u : ℝ => u * u + y * y) (2 * x) x := by
      have := HasDerivAt.add_const (y * y) ((hasDerivAt_id' x).fun_mul (hasDerivAt_id' x))
      exact this.congr_deriv (by ring)
    have := HasDerivAt.comp x (h₂ := h) (h := fun u => u * u + y * y) hd h1
    exact this.congr_deriv (by ring)
  · have h1 : HasDerivAt (fun w : ℝ => x * x + w * w) (2 * y) y := by
      have := HasDerivAt.const_add (x * x) ((hasDerivAt_id' y).fun_mul (hasDerivAt_id' y))
      exact this.congr_deriv (by ring)
    have := HasDerivAt.comp y (h₂ := h) (h := fun w => x * x + w * w) hd h1
    exact this.congr_deriv (by ring)

theorem radius_zero {x y : ℝ} (h : x * x + y * y = 0) : x = 0 ∧ y = 0 := by
  constructor
  · apply mul_self_eq_zero.mp; nlinarith [mul_self_nonneg x, mul_self_nonneg y]
  · apply mul_self_eq_zero.mp; nlinarith [mul_self_nonneg x, mul_self_nonneg y]

theorem unitNormal_zero : (unitNormal 0 0).fin = (⟨0, 0, 1⟩ : V3 Dbl) := by
  simp only [unitNormal, V3.fin, V3.map, Dbl.zero_dbl, Dbl.one_dbl]
  norm_num

/-- The common tail of the radial normals. -/
theorem radial_tail {x y r d : ℝ} (hr : r ≠ 0) (hrr : r * r = x * x + y * y) :
    (⟨-(Dbl.fin x) / Dbl.fin r * Dbl.fin (2 * r * d) * (1 / Arith.sqrt (1 + Dbl.fin (2 * r * d) * Dbl.fin (2 * r * d))),
      -(Dbl.fin y) / Dbl.fin r * Dbl.fin (2 * r * d) * (1 / Arith.sqrt (1 + Dbl.fin (2 * r * d) * Dbl.fin (2 * r * d))),
      1 / Arith.sqrt (1 + Dbl.fin (2 * r * d) * Dbl.fin (2 * r * d))⟩ : V3 Dbl) =
    (unitNormal (2 * x * d) (2 * y * d)).fin := by
  have hp : 0 < 1 + 2 * r * d * (2 * r * d) := by nlinarith [mul_self_nonneg (2 * r * d)]
  have hs := (Real.sqrt_pos.mpr hp).ne'
  have e : 1 + 2 * x * d * (2 * x * d) + 2 * y * d * (2 * y * d) = 1 + 2 * r * d * (2 * r * d) := by
    linear_combination (-4 * d * d) * hrr
  simp only [Dbl.one_dbl, Dbl.mul_fin, Dbl.add_fin, Dbl.sqrt_fin hp.le, Dbl.div_fin hs, Dbl.neg_fin, Dbl.div_fin hr]
  simp only [unitNormal, e, V3.fin, V3.map]
  congr 2 <;> (field_simp)

theorem radialNormal_fin {dzdr : Dbl → Dbl} {x y d : ℝ}
    (hd : dzdr (.fin (Real.sqrt (x * x + y * y))) = .fin (2 * Real.sqrt (x * x + y * y) * d)) :
    radialNormal dzdr (.fin x) (.fin y) = (unitNormal (2 * x * d) (2 * y * d)).fin := by
  have h0 : 0 ≤ x * x + y * y := by nlinarith [mul_self_nonneg x, mul_self_nonneg y]
  unfold radialNormal
  simp only [Dbl.mul_fin, Dbl.add_fin, Dbl.sqrt_fin h0, Dbl.zero_dbl, Dbl.eq_fin, decide_eq_true_eq, hd]
  by_cases hr : Real.sqrt (x * x + y * y) = 0
  · rw [if_pos hr]
    obtain ⟨rfl, rfl⟩ := radius_zero ((Real.sqrt_eq_zero h0).mp hr)
    simp only [mul_zero, zero_mul]
    rw [unitNormal_zero, Dbl.zero_dbl]
  · rw [if_neg hr]
    exact radial_tail hr (Real.mul_self_sqrt h0)

theorem isOpen_radial (p q : ℝ) : IsOpen {z : ℝ × ℝ | p * (z.1 * z.1 + z.2 * z.2) < q} := by
  apply isOpen_lt <;> fun_prop

/-! ## Plane and paraboloid -/

theorem C22_plane : TrueNormals (plane (F := Dbl)) Set.univ := by
  refine trueNormals_of isOpen_univ (fun _ _ => 0) (fun _ _ => 0) (fun _ _ => 0) ?_ ?_ ?_ ?_
  · intro x y _; simp [plane, Dbl.zero_dbl]
  · intro x y _; exact hasDerivAt_const _ _
  · intro x y _; exact hasDerivAt_const _ _
  · intro x y _; rw [unitNormal_zero]; rfl

theorem paraboloidSag_fin {R : ℝ} (hR : R ≠ 0) (x y : ℝ) :
    paraboloidSag (Dbl.fin R) (.fin x) (.fin y) = .fin ((x * x + y * y) * (1 / 2 / R)) := by
  unfold paraboloidSag
  simp [Dbl.zero_dbl, hR, Dbl.one_dbl, Dbl.ofNat_dbl']

theorem paraboloidNormal_fin {R : ℝ} (hR : R ≠ 0) (x y : ℝ) : paraboloidNormal (Dbl.fin R) (Dbl.fin x) (Dbl.fin y) =
    (unitNormal (2 * x * (1 / 2 / R)) (2 * y * (1 / 2 / R))).fin := by
  have hp : 0 < 1 + (x * x + y * y) * (1 / R) * (1 / R) := by
    have : (x * x + y * y) * (1 / R) * (1 / R) = (x / R) ^ 2 + (y / R) ^ 2 := by field_simp
    rw [this]; positivity
  have hs := (Real.sqrt_pos.mpr hp).ne'
  unfold paraboloidNormal
  simp only [Dbl.zero_dbl, Dbl.eq_fin, hR, decide_false, Bool.false_eq_true, if_false, Dbl.one_dbl, Dbl.div_fin hR,
    Dbl.mul_fin, Dbl.add_fin, Dbl.sqrt_fin hp.le, Dbl.div_fin hs, Dbl.neg_fin]
  have e : 1 + 2 * x * (1 / 2 / R) * (2 * x * (1 / 2 / R)) + 2 * y * (1 / 2 / R) * (2 * y * (1 / 2 / R)) =
      1 + (x * x + y * y) * (1 / R) * (1 / R) := by field_simp; ring
  simp only [unitNormal, e, V3.fin, V3.map]
  congr 2 <;> (field_simp)

theorem C22_paraboloid {R : ℝ} (hR : R ≠ 0) : TrueNormals (paraboloid (Dbl.fin R)) Set.univ := by
  refine trueNormals_of isOpen_univ (fun x y => (x * x + y * y) * (1 / 2 / R)) (fun x _ => 2 * x * (1 / 2 / R))
    (fun _ y => 2 * y * (1 / 2 / R)) ?_ ?_ ?_ ?_
  · intro x y _; exact paraboloidSag_fin hR x y
  · intro x y _; exact (radial_slopes (h := fun p => p * (1 / 2 / R)) (x := x) (y := y)
      (by simpa using (hasDerivAt_id (x * x + y * y)).mul_const (1 / 2 / R))).1
  · intro x y _; exact (radial_slopes (h := fun p => p * (1 / 2 / R)) (x := x) (y := y)
      (by simpa using (hasDerivAt_id (x * x + y * y)).mul_const (1 / 2 / R))).2
  · intro x y _; exact paraboloidNormal_fin hR x y

/-! ## Sphere -/

theorem sphereSag_fin {R x y : ℝ} (hR : R ≠ 0) (h : x * x + y * y ≤ R * R) :
    sphereSag (Dbl.fin R) (.fin x) (.fin y) = .fin (R * (1 - Real.sqrt (1 - (x * x + y * y) * (1 / R / R)))) := by
  have hRR : 0 < R * R := mul_self_pos.mpr hR
  have hq : 0 ≤ 1 - (x * x + y * y) * (1 / R / R) := by
    have : (x * x + y * y) * (1 / R / R) = (x * x + y * y) / (R * R) := by field_simp
    rw [this]; have := (div_le_one hRR).mpr h; linarith
  unfold sphereSag
  simp only [Dbl.zero_dbl, Dbl.eq_fin, hR, decide_false, Bool.false_eq_true, if_false, Dbl.one_dbl, Dbl.div_fin hR, Dbl.mul_fin,
    Dbl.add_fin, Dbl.sub_fin, Dbl.sqrt_fin hq]

theorem sphere_root_pos {R x y : ℝ} (hR : R ≠ 0) (h : x * x + y * y < R * R) :
    0 < 1 - (x * x + y * y) * (1 / R / R) := by
  have hRR : 0 < R * R := mul_self_pos.mpr hR
  have : (x * x + y * y) * (1 / R / R) = (x * x + y * y) / (R * R) := by field_simp
  rw [this]; have := (div_lt_one hRR).mpr h; linarith

/-- Derivative with respect to `r^2` of the sag of a sphere. -/
theorem sphere_deriv {R p : ℝ} (hR : R ≠ 0) (h : 0 < 1 - p * (1 / R / R)) :
    HasDerivAt (fun p => R * (1 - Real.sqrt (1 - p * (1 / R / R)))) (1 / (2 * R * Real.sqrt (1 - p * (1 / R / R)))) p := by
  have h1 : HasDerivAt (fun p : ℝ => 1 - p * (1 / R / R)) (-(1 / R / R)) p := by
    exact (HasDerivAt.const_sub 1 ((hasDerivAt_id' p).mul_const (1 / R / R))).congr_deriv (by ring)
  have h2 := (HasDerivAt.const_sub 1 (h1.sqrt h.ne')).const_mul R
  have hs := (Real.sqrt_pos.mpr h).ne'
  refine h2.congr_deriv ?_
  field_simp

theorem sphereNormal_fin {R x y : ℝ} (hR : R ≠ 0) (h : x * x + y * y < R * R) :
    sphereNormal (Dbl.fin R) (Dbl.fin x) (Dbl.fin y) =
      (unitNormal (2 * x * (1 / (2 * R * Real.sqrt (1 - (x * x + y * y) * (1 / R / R)))))
        (2 * y * (1 / (2 * R * Real.sqrt (1 - (x * x + y * y) * (1 / R / R)))))).fin := by
  have h0 : 0 ≤ x * x + y * y := by nlinarith [mul_self_nonneg x, mul_self_nonneg y]
  have hq := sphere_root_pos hR h
  unfold sphereNormal
  simp only [Dbl.zero_dbl, Dbl.eq_fin, hR, decide_false, Bool.false_or, Dbl.mul_fin, Dbl.add_fin, decide_eq_true_eq]
  by_cases hr : x * x + y * y = 0
  · rw [if_pos hr]
    obtain ⟨rfl, rfl⟩ := radius_zero hr
    simp only [mul_zero, zero_mul]
    rw [unitNormal_zero, Dbl.zero_dbl]
  · rw [if_neg hr]
    have hs0 : Real.sqrt (x * x + y * y) ≠ 0 := by rwa [Ne, Real.sqrt_eq_zero h0]
    have hss := Real.mul_self_sqrt h0
    have e1 : 1 - Real.sqrt (x * x + y * y) * (1 / R) * (Real.sqrt (x * x + y * y) * (1 / R)) =
        1 - (x * x + y * y) * (1 / R / R) := by
      linear_combination (-(1 / R) * (1 / R)) * hss
    have e2 : sphereDzdr (Dbl.fin R) (Dbl.fin (Real.sqrt (x * x + y * y))) =
        .fin (2 * Real.sqrt (x * x + y * y) * (1 / (2 * R * Real.sqrt (1 - (x * x + y * y) * (1 / R / R))))) := by
      unfold sphereDzdr
      simp only [Dbl.one_dbl, Dbl.div_fin hR, Dbl.mul_fin, Dbl.sub_fin, e1, Dbl.sqrt_fin hq.le,
        Dbl.div_fin (Real.sqrt_pos.mpr hq).ne']
      congr 1; field_simp
    simp only [Dbl.sqrt_fin h0, e2]
    exact radial_tail hs0 hss

theorem C22_sphere {R : ℝ} (hR : R ≠ 0) : TrueNormals (sphere (Dbl.fin R)) {p | p.1 * p.1 + p.2 * p.2 < R * R} := by
  have hop : IsOpen {p : ℝ × ℝ | p.1 * p.1 + p.2 * p.2 < R * R} := by simpa using isOpen_radial 1 (R * R)
  refine trueNormals_of hop (fun x y => R * (1 - Real.sqrt (1 - (x * x + y * y) * (1 / R / R))))
    (fun x y => 2 * x * (1 / (2 * R * Real.sqrt (1 - (x * x + y * y) * (1 / R / R)))))
    (fun x y => 2 * y * (1 / (2 * R * Real.sqrt (1 - (x * x + y * y) * (1 / R / R))))) ?_ ?_ ?_ ?_
  · intro x y h; exact sphereSag_fin hR (le_of_lt h)
  · intro x y h; exact (radial_slopes (sphere_deriv hR (sphere_root_pos hR h))).1
  · intro x y h; exact (radial_slopes (sphere_deriv hR (sphere_root_pos hR h))).2
  · intro x y h; exact sphereNormal_fin hR h

/-! ## Quadric -/

/-- The domain of a quadric. -/
def quadricDomain (R k : ℝ) : Set (ℝ × ℝ) := {p | (1 + k) * (p.1 * p.1 + p.2 * p.2) < R * R}

theorem quadricDomain_open (R k : ℝ) : IsOpen (quadricDomain R k) := isOpen_radial (1 + k) (R * R)

/-- Real sag of the conic as function of `r^2`. -/
noncomputable def conicSag (R k p : ℝ) : ℝ := p / (R * (1 + Real.sqrt (1 - p * ((k + 1) / R / R))))

theorem quadric_root_pos {R k x y : ℝ} (hR : R ≠ 0) (h : (x, y) ∈ quadricDomain R k) :
    0 < 1 - (x * x + y * y) * ((k + 1) / R / R) := by
  have hRR : 0 < R * R := mul_self_pos.mpr hR
  have : (x * x + y * y) * ((k + 1) / R / R) = (1 + k) * (x * x + y * y) / (R * R) := by field_simp; ring
  rw [this]; have := (div_lt_one hRR).mpr h; linarith

theorem quadricSag_fin {R k x y : ℝ} (hR : R ≠ 0) (hq : 0 ≤ 1 - (x * x + y * y) * ((k + 1) / R / R)) :
    quadricSag (Dbl.fin R) (.fin k) (.fin x) (.fin y) = .fin (conicSag R k (x * x + y * y)) := by
  have hd : R * (1 + Real.sqrt (1 - (x * x + y * y) * ((k + 1) / R / R))) ≠ 0 :=
    mul_ne_zero hR (by have := Real.sqrt_nonneg (1 - (x * x + y * y) * ((k + 1) / R / R)); linarith)
  unfold quadricSag
  simp only [Dbl.zero_dbl, Dbl.eq_fin, hR, decide_false, Bool.false_eq_true, if_false, Dbl.one_dbl, Dbl.div_fin hR, Dbl.mul_fin,
    Dbl.add_fin, Dbl.sub_fin, Dbl.sqrt_fin hq, Dbl.div_fin hd, conicSag]

theorem conic_deriv {R k p : ℝ} (hR : R ≠ 0) (h : 0 < 1 - p * ((k + 1) / R / R)) :
    HasDerivAt (conicSag R k) (1 / (2 * R * Real.sqrt (1 - p * ((k + 1) / R / R)))) p := by
  have h1 : HasDerivAt (fun p : ℝ => 1 - p * ((k + 1) / R / R)) (-((k + 1) / R / R)) p := by
    exact (HasDerivAt.const_sub 1 ((hasDerivAt_id' p).mul_const ((k + 1) / R / R))).congr_deriv (by ring)
  have hs := Real.sqrt_pos.mpr h
  have hss := Real.mul_self_sqrt h.le
  have hd : R * (1 + Real.sqrt (1 - p * ((k + 1) / R / R))) ≠ 0 := mul_ne_zero hR (by linarith)
  have h2 := (hasDerivAt_id' p).fun_div ((HasDerivAt.const_add 1 (h1.sqrt h.ne')).const_mul R) hd
  unfold conicSag
  refine h2.congr_deriv ?_
  generalize Real.sqrt (1 - p * ((k + 1) / R / R)) = s at hs hss hd
  have h1s : 1 + s ≠ 0 := by linarith
  have hR2 : R ^ 2 * (s * s) = R ^ 2 - p * (k + 1) := by rw [hss]; field_simp
  field_simp
  linear_combination hR2

theorem quadricDzdr_fin {R k r : ℝ} (hR : R ≠ 0) (h : 0 < 1 - r * r * ((k + 1) / R / R)) :
    quadricDzdr (Dbl.fin R) (.fin k) (.fin r) = .fin (2 * r * (1 / (2 * R * Real.sqrt (1 - r * r * ((k + 1) / R / R))))) := by
  have hs := (Real.sqrt_pos.mpr h).ne'
  unfold quadricDzdr
  simp only [Dbl.zero_dbl, Dbl.eq_fin, hR, decide_false, Bool.false_eq_true, if_false, Dbl.one_dbl, Dbl.div_fin hR, Dbl.mul_fin,
    Dbl.add_fin, Dbl.sub_fin, Dbl.sqrt_fin h.le, Dbl.div_fin (mul_ne_zero hR hs)]
  congr 1; field_simp

theorem quadricDzdr_at {R k x y : ℝ} (hR : R ≠ 0) (h : (x, y) ∈ quadricDomain R k) :
    quadricDzdr (Dbl.fin R) (.fin k) (.fin (Real.sqrt (x * x + y * y))) =
      .fin (2 * Real.sqrt (x * x + y * y) * (1 / (2 * R * Real.sqrt (1 - (x * x + y * y) * ((k + 1) / R / R))))) := by
  have h0 : 0 ≤ x * x + y * y := by nlinarith [mul_self_nonneg x, mul_self_nonneg y]
  have hq := quadric_root_pos hR h
  have := quadricDzdr_fin (r := Real.sqrt (x * x + y * y)) (k := k) hR (by rw [Real.mul_self_sqrt h0]; exact hq)
  rw [this, Real.mul_self_sqrt h0]

theorem C22_quadric {R k : ℝ} (hR : R ≠ 0) : TrueNormals (quadric (Dbl.fin R) (Dbl.fin k)) (quadricDomain R k) := by
  refine trueNormals_of (quadricDomain_open R k) (fun x y => conicSag R k (x * x + y * y))
    (fun x y => 2 * x * (1 / (2 * R * Real.sqrt (1 - (x * x + y * y) * ((k + 1) / R / R)))))
    (fun x y => 2 * y * (1 / (2 * R * Real.sqrt (1 - (x * x + y * y) * ((k + 1) / R / R))))) ?_ ?_ ?_ ?_
  · intro x y h; exact quadricSag_fin hR (quadric_root_pos hR h).le
  · intro x y h; exact (radial_slopes (conic_deriv hR (quadric_root_pos hR h))).1
  · intro x y h; exact (radial_slopes (conic_deriv hR (quadric_root_pos hR h))).2
  · intro x y h
    exact radialNormal_fin (quadricDzdr_at hR h)

/-! ## Asphere (C24) -/

/-- The documented even polynomial `sum_i coefs[i] r^(2 (i + imin))` as function of `p = r^2`. -/
def evenPoly (imin : ℕ) : List ℝ → ℝ → ℝ
  | [], _ => 0
  | c :: cs, p => c * p ^ imin + evenPoly (imin + 1) cs p

/-- Derivative of `evenPoly` with respect to `p`. -/
def evenPolyDeriv (imin : ℕ) : List ℝ → ℝ → ℝ
  | [], _ => 0
  | c :: cs, p => c * (imin * p ^ (imin - 1)) + evenPolyDeriv (imin + 1) cs p

theorem evenPoly_deriv (cs : List ℝ) : ∀ (imin : ℕ) (p : ℝ), HasDerivAt (evenPoly imin cs) (evenPolyDeriv imin cs p) p := by
  induction cs with
  | nil => intro i p; exact hasDerivAt_const _ _
  | cons c cs ih =>
    intro i p
    exact ((hasDerivAt_pow i p).const_mul c).add (ih (i + 1) p)

theorem evenPoly_zeros (n : ℕ) (cs : List ℝ) (p : ℝ) : ∀ imin,
    evenPoly imin (List.replicate n 0 ++ cs) p = evenPoly (imin + n) cs p := by
  induction n with
  | zero => intro i; simp
  | succ n ih => intro i; simp only [List.replicate_succ, List.cons_append, evenPoly, ih]; rw [zero_mul, zero_add]; congr 1; omega

theorem evenPolyDeriv_zeros (n : ℕ) (cs : List ℝ) (p : ℝ) : ∀ imin,
    evenPolyDeriv imin (List.replicate n 0 ++ cs) p = evenPolyDeriv (imin + n) cs p := by
  induction n with
  | zero => intro i; simp
  | succ n ih =>
    intro i; simp only [List.replicate_succ, List.cons_append, evenPolyDeriv, ih]; rw [zero_mul, zero_add]; congr 1; omega

theorem asphereSagLoop_fin (p : ℝ) (cs : List ℝ) : ∀ (i : ℕ) (acc : ℝ),
    (asphereSagLoop (Dbl.fin p) (cs.map Dbl.fin) (.fin (p ^ i), .fin acc)).2 = .fin (acc + evenPoly (i + 1) cs p) := by
  induction cs with
  | nil => intro i acc; simp [asphereSagLoop, evenPoly]
  | cons c cs ih =>
    intro i acc
    simp only [List.map_cons, asphereSagLoop, Dbl.mul_fin, Dbl.add_fin, ← pow_succ, evenPoly]
    rw [ih (i + 1)]; congr 1; ring

theorem asphereDzdrLoop_fin (r : ℝ) (cs : List ℝ) : ∀ (i : ℕ) (acc : ℝ),
    (asphereDzdrLoop (Dbl.fin (r * r)) (dzdrCoefs (2 * (i + 1)) (cs.map Dbl.fin)) (.fin (r * (r * r) ^ i), .fin acc)).2 =
      .fin (acc + 2 * r * evenPolyDeriv (i + 1) cs (r * r)) := by
  induction cs with
  | nil => intro i acc; simp [asphereDzdrLoop, dzdrCoefs, evenPolyDeriv]
  | cons c cs ih =>
    intro i acc
    simp only [List.map_cons, dzdrCoefs, asphereDzdrLoop, Dbl.mul_fin, Dbl.add_fin, Dbl.const_dbl, evenPolyDeriv]
    rw [show 2 * (i + 1) + 2 = 2 * (i + 1 + 1) by ring, show r * (r * r) ^ i * (r * r) = r * (r * r) ^ (i + 1) by ring, ih (i + 1)]
    congr 1
    push_cast
    ring

theorem asphereSag_fin {R k x y : ℝ} (cs : List ℝ) (hR : R ≠ 0) (hq : 0 ≤ 1 - (x * x + y * y) * ((k + 1) / R / R)) :
    asphereSag (Dbl.fin R) (.fin k) (cs.map Dbl.fin) (.fin x) (.fin y) =
      .fin (conicSag R k (x * x + y * y) + evenPoly 1 cs (x * x + y * y)) := by
  unfold asphereSag
  rw [quadricSag_fin hR hq]
  have := asphereSagLoop_fin (x * x + y * y) cs 0 (conicSag R k (x * x + y * y))
  simpa [Dbl.one_dbl] using this

theorem asphereDzdr_at {R k x y : ℝ} (cs : List ℝ) (hR : R ≠ 0) (h : (x, y) ∈ quadricDomain R k) :
    asphereDzdr (Dbl.fin R) (.fin k) (cs.map Dbl.fin) (.fin (Real.sqrt (x * x + y * y))) =
      .fin (2 * Real.sqrt (x * x + y * y) * (1 / (2 * R * Real.sqrt (1 - (x * x + y * y) * ((k + 1) / R / R))) +
        evenPolyDeriv 1 cs (x * x + y * y))) := by
  have h0 : 0 ≤ x * x + y * y := by nlinarith [mul_self_nonneg x, mul_self_nonneg y]
  unfold asphereDzdr
  rw [quadricDzdr_at hR h]
  have := asphereDzdrLoop_fin (Real.sqrt (x * x + y * y)) cs 0
    (2 * Real.sqrt (x * x + y * y) * (1 / (2 * R * Real.sqrt (1 - (x * x + y * y) * ((k + 1) / R / R)))))
  simp only [zero_add, pow_zero, mul_one, Real.mul_self_sqrt h0] at this
  rw [Dbl.mul_fin, Real.mul_self_sqrt h0, this]
  congr 1; ring

theorem C22_asphere {R k : ℝ} (hR : R ≠ 0) (cs : List ℝ) :
    TrueNormals (asphere (Dbl.fin R) (Dbl.fin k) (cs.map Dbl.fin)) (quadricDomain R k) := by
  have hd : ∀ x y, (x, y) ∈ quadricDomain R k →
      HasDerivAt (fun p => conicSag R k p + evenPoly 1 cs p)
        (1 / (2 * R * Real.sqrt (1 - (x * x + y * y) * ((k + 1) / R / R))) + evenPolyDeriv 1 cs (x * x + y * y)) (x * x + y * y) :=
    fun x y h => (conic_deriv hR (quadric_root_pos hR h)).add (evenPoly_deriv cs 1 _)
  refine trueNormals_of (quadricDomain_open R k) (fun x y => conicSag R k (x * x + y * y) + evenPoly 1 cs (x * x + y * y))
    (fun x y => 2 * x * (1 / (2 * R * Real.sqrt (1 - (x * x + y * y) * ((k + 1) / R / R))) + evenPolyDeriv 1 cs (x * x + y * y)))
    (fun x y => 2 * y * (1 / (2 * R * Real.sqrt (1 - (x * x + y * y) * ((k + 1) / R / R))) + evenPolyDeriv 1 cs (x * x + y * y)))
    ?_ ?_ ?_ ?_
  · intro x y h; exact asphereSag_fin cs hR (quadric_root_pos hR h).le
  · intro x y h; exact (radial_slopes (hd x y h)).1
  · intro x y h; exact (radial_slopes (hd x y h)).2
  · intro x y h; exact radialNormal_fin (asphereDzdr_at cs hR h)

theorem evenPoly_sum (cs : List ℝ) (p : ℝ) : ∀ i, evenPoly i cs p = ∑ j : Fin cs.length, cs[j] * p ^ (j.val + i) := by
  induction cs with
  | nil => intro i; simp [evenPoly]
  | cons c cs ih =>
    intro i
    rw [evenPoly, ih]
    simp only [List.length_cons, Fin.sum_univ_succ]
    simp only [Fin.getElem_fin, Fin.val_zero, List.getElem_cons_zero, zero_add, Fin.val_succ, List.getElem_cons_succ]
    congr 1
    apply Finset.sum_congr rfl
    intro j _
    congr 2; omega

theorem evenPolyDeriv_sum (cs : List ℝ) (p : ℝ) : ∀ i, evenPolyDeriv i cs p =
    ∑ j : Fin cs.length, cs[j] * ((j.val + i : ℕ) * p ^ (j.val + i - 1)) := by
  induction cs with
  | nil => intro i; simp [evenPolyDeriv]
  | cons c cs ih =>
    intro i
    rw [evenPolyDeriv, ih]
    simp only [List.length_cons, Fin.sum_univ_succ]
    simp only [Fin.getElem_fin, Fin.val_zero, List.getElem_cons_zero, zero_add, Fin.val_succ, List.getElem_cons_succ]
    congr 1
    apply Finset.sum_congr rfl
    intro j _
    rw [show j.val + (i + 1) = j.val + 1 + i by omega]

theorem asphereCtor_ok {imin : ℤ} {cs : List ℝ} {padded : List Dbl}
    (h : asphereCtor imin (cs.map Dbl.fin) = .ok padded) :
    0 < imin ∧ padded = (List.replicate (imin.toNat - 1) 0 ++ cs).map Dbl.fin := by
  unfold asphereCtor at h
  split at h
  · cases h
  · rename_i h0
    push Not at h0
    refine ⟨h0, ?_⟩
    split at h
    · cases h
      rw [List.map_append, List.map_replicate, Dbl.zero_dbl]
      congr 2; omega
    · rename_i h1
      push Not at h1
      subst h1
      cases h; simp

/-- C24: the sag of the documented constructor, `coefs[i]` multiplying `r^(2 (i + imin))`. -/
theorem C24_sag {R k x y : ℝ} {imin : ℤ} (cs : List ℝ) (padded : List Dbl) (hR : R ≠ 0)
    (hctor : asphereCtor imin (cs.map Dbl.fin) = .ok padded) (h : (1 + k) * (x ^ 2 + y ^ 2) ≤ R ^ 2) :
    (asphere (Dbl.fin R) (Dbl.fin k) padded).sag (.fin x) (.fin y) =
      .fin ((x ^ 2 + y ^ 2) / (R * (1 + Real.sqrt (1 - (x ^ 2 + y ^ 2) / R ^ 2 * (1 + k)))) +
        ∑ i : Fin cs.length, cs[i] * (Real.sqrt (x ^ 2 + y ^ 2)) ^ (2 * (i.val + imin.toNat))) := by
  obtain ⟨hi, rfl⟩ := asphereCtor_ok hctor
  have hR2 : 0 < R ^ 2 := by positivity
  have h0 : 0 ≤ x ^ 2 + y ^ 2 := by positivity
  have e : (x * x + y * y) * ((k + 1) / R / R) = (x ^ 2 + y ^ 2) / R ^ 2 * (1 + k) := by field_simp; ring
  have hq : 0 ≤ 1 - (x * x + y * y) * ((k + 1) / R / R) := by
    rw [e, div_mul_eq_mul_div, mul_comm (x ^ 2 + y ^ 2)]
    have := (div_le_one hR2).mpr h; linarith
  show asphereSag _ _ _ _ _ = _
  rw [asphereSag_fin _ hR hq, conicSag, e, evenPoly_zeros, show 1 + (imin.toNat - 1) = imin.toNat by omega, evenPoly_sum,
    show x * x + y * y = x ^ 2 + y ^ 2 by ring]
  congr 2
  apply Finset.sum_congr rfl
  intro j _
  rw [pow_mul, Real.sq_sqrt h0]

/-- Non-positive `imin` is rejected. -/
theorem C24_imin {F : Type} [Arith F] (imin : ℤ) (cs : List F) :
    (∃ l, asphereCtor imin cs = .ok l) ↔ 0 < imin := by
  unfold asphereCtor
  split
  · simp only [reduceCtorEq, exists_false, false_iff]; omega
  · split <;> simp only [Except.ok.injEq, exists_eq', true_iff] <;> omega

/-- The sphere of points of the conicoid next to the vertex is the graph of its sag. -/
theorem nearSheet_sag {R k : ℝ} (hR : R ≠ 0) {p : V3 ℝ} (h : OnNearSheet R k p) :
    0 ≤ 1 - (p.x * p.x + p.y * p.y) * ((k + 1) / R / R) ∧ conicSag R k (p.x * p.x + p.y * p.y) = p.z := by
  obtain ⟨h1, h2⟩ := h
  unfold OnQuadric at h1
  have hR2 : 0 < R * R := mul_self_pos.mpr hR
  have e : 1 - (p.x * p.x + p.y * p.y) * ((k + 1) / R / R) = (1 - (1 + k) * p.z / R) ^ 2 := by
    field_simp; linear_combination (-(1 + k)) * h1
  have hs : 0 ≤ 1 - (1 + k) * p.z / R := by
    have : 1 - (1 + k) * p.z / R = (R - (1 + k) * p.z) * R / (R * R) := by field_simp
    rw [this]; positivity
  refine ⟨by rw [e]; positivity, ?_⟩
  unfold conicSag
  rw [e, Real.sqrt_sq hs]
  have hd : R * (1 + (1 - (1 + k) * p.z / R)) ≠ 0 := mul_ne_zero hR (by linarith)
  rw [div_eq_iff hd]
  field_simp
  linear_combination h1

theorem evenPoly_all_zero (n : ℕ) (p : ℝ) (i : ℕ) : evenPoly i (List.replicate n 0) p = 0 := by
  rw [evenPoly_sum]; simp

theorem evenPolyDeriv_all_zero (n : ℕ) (p : ℝ) (i : ℕ) : evenPolyDeriv i (List.replicate n 0) p = 0 := by
  rw [evenPolyDeriv_sum]; simp

/-- C24: with all coefficients zero sag and normal are those of the Quadric. -/
theorem C24_zero_coefs {R k x y : ℝ} (n : ℕ) (hR : R ≠ 0) (h : (1 + k) * (x * x + y * y) < R * R) :
    (asphere (Dbl.fin R) (Dbl.fin k) (List.replicate n (Dbl.fin 0))).sag (.fin x) (.fin y) =
      (quadric (Dbl.fin R) (Dbl.fin k)).sag (.fin x) (.fin y) ∧
    (asphere (Dbl.fin R) (Dbl.fin k) (List.replicate n (Dbl.fin 0))).normal (.fin x) (.fin y) =
      (quadric (Dbl.fin R) (Dbl.fin k)).normal (.fin x) (.fin y) := by
  have e : List.replicate n (Dbl.fin 0) = (List.replicate n (0:ℝ)).map Dbl.fin := by simp
  rw [e]
  constructor
  · show asphereSag _ _ _ _ _ = quadricSag _ _ _ _
    rw [asphereSag_fin _ hR (quadric_root_pos hR h).le, quadricSag_fin hR (quadric_root_pos hR h).le, evenPoly_all_zero, add_zero]
  · show radialNormal _ _ _ = radialNormal _ _ _
    rw [radialNormal_fin (asphereDzdr_at _ hR h), radialNormal_fin (quadricDzdr_at hR h), evenPolyDeriv_all_zero, add_zero]

/-- C24: and a ray that the Quadric solver puts on the sheet next to the vertex is put at the same point, for every
number of Newton steps. -/
theorem C24_zero_coefs_time {R k : ℝ} (n : ℕ) (hR : R ≠ 0) {r v : V3 ℝ} {dt : Dbl} {niter : ℕ} {t : ℝ}
    (hq : (quadric (Dbl.fin R) (Dbl.fin k)).timeToIntersect r.fin v.fin dt niter = (true, .fin t))
    (hnear : OnNearSheet R k (pointAt r v t))
    (hdom : (1 + k) * ((pointAt r v t).x * (pointAt r v t).x + (pointAt r v t).y * (pointAt r v t).y) < R * R)
    (hgraze : ∀ m : V3 ℝ, (quadric (Dbl.fin R) (Dbl.fin k)).normal (.fin (pointAt r v t).x) (.fin (pointAt r v t).y) = m.fin →
      V3.dot m v ≠ 0) :
    (asphere (Dbl.fin R) (Dbl.fin k) (List.replicate n (Dbl.fin 0))).timeToIntersect r.fin v.fin dt niter = (true, .fin t) := by
  obtain ⟨hroot, hsag⟩ := nearSheet_sag hR hnear
  obtain ⟨es, en⟩ := C24_zero_coefs n hR hdom
  obtain ⟨m, hm, hN⟩ := (C22_quadric (k := k) hR).normal ((pointAt r v t).x, (pointAt r v t).y) hdom
  have hs' : (asphere (Dbl.fin R) (Dbl.fin k) (List.replicate n (Dbl.fin 0))).sag (.fin (pointAt r v t).x)
      (.fin (pointAt r v t).y) = .fin (pointAt r v t).z := by
    rw [es]; show quadricSag _ _ _ _ = _
    rw [quadricSag_fin hR hroot, hsag]
  have hfix : ∀ j, newtonIter (asphere (Dbl.fin R) (Dbl.fin k) (List.replicate n (Dbl.fin 0))).sag
      (asphere (Dbl.fin R) (Dbl.fin k) (List.replicate n (Dbl.fin 0))).normal r.fin v.fin j (.fin t) = .fin t := by
    intro j
    induction j with
    | zero => rfl
    | succ j ih =>
      rw [newtonIter, (C23_fixed_points hs' (en.trans hm) hN.upward.ne' (hgraze m hm)).mpr rfl, ih]
  change quadricTime _ _ _ _ _ = _ at hq
  simp only [asphere, hq]
  show newton (asphere (Dbl.fin R) (Dbl.fin k) (List.replicate n (Dbl.fin 0))).sag
    (asphere (Dbl.fin R) (Dbl.fin k) (List.replicate n (Dbl.fin 0))).normal _ _ _ _ = _
  unfold newton
  have ex : (r + v.smulR t).x = (pointAt r v t).x := by simp only [V3.add_x, V3.smulR_x, pointAt]; ring
  have ey : (r + v.smulR t).y = (pointAt r v t).y := by simp only [V3.add_y, V3.smulR_y, pointAt]; ring
  have ez : (r + v.smulR t).z = (pointAt r v t).z := by simp only [V3.add_z, V3.smulR_z, pointAt]; ring
  simp only [hfix, V3.fin_smulR, V3.fin_add, V3.fin_x, V3.fin_y, V3.fin_z, ex, ey, ez, hs', Dbl.sub_fin, sub_self, Dbl.abs_fin,
    Dbl.const_dbl, Dbl.lt_fin]
  norm_num

/-! ## C29: special cases of the Quadric -/

theorem C29_sphere {R x y : ℝ} (hR : R ≠ 0) (h : x * x + y * y < R * R) :
    (quadric (Dbl.fin R) (Dbl.fin 0)).sag (.fin x) (.fin y) = (sphere (Dbl.fin R)).sag (.fin x) (.fin y) ∧
    (quadric (Dbl.fin R) (Dbl.fin 0)).normal (.fin x) (.fin y) = (sphere (Dbl.fin R)).normal (.fin x) (.fin y) := by
  have hq := sphere_root_pos hR h
  have hdom : (x, y) ∈ quadricDomain R 0 := by simpa [quadricDomain] using h
  constructor
  · show quadricSag _ _ _ _ = sphereSag _ _ _
    rw [sphereSag_fin hR h.le, quadricSag_fin hR (by simpa using hq.le), conicSag, zero_add]
    congr 1
    have hs := Real.sqrt_nonneg (1 - (x * x + y * y) * (1 / R / R))
    have hss := Real.mul_self_sqrt hq.le
    generalize Real.sqrt (1 - (x * x + y * y) * (1 / R / R)) = s at hs hss
    have h1 : 1 + s ≠ 0 := by linarith
    rw [div_eq_iff (mul_ne_zero hR h1)]
    have : R ^ 2 * (s * s) = R ^ 2 - (x * x + y * y) := by rw [hss]; field_simp
    linear_combination this
  · show radialNormal _ _ _ = sphereNormal _ _ _
    rw [radialNormal_fin (quadricDzdr_at hR hdom), sphereNormal_fin hR h, zero_add]

theorem C29_paraboloid {R : ℝ} (hR : R ≠ 0) (x y : ℝ) :
    (quadric (Dbl.fin R) (Dbl.fin (-1))).sag (.fin x) (.fin y) = (paraboloid (Dbl.fin R)).sag (.fin x) (.fin y) ∧
    (quadric (Dbl.fin R) (Dbl.fin (-1))).normal (.fin x) (.fin y) = (paraboloid (Dbl.fin R)).normal (.fin x) (.fin y) := by
  have hdom : (x, y) ∈ quadricDomain R (-1) := by
    have : 0 < R * R := mul_self_pos.mpr hR
    simpa [quadricDomain] using this
  constructor
  · show quadricSag _ _ _ _ = paraboloidSag _ _ _
    rw [paraboloidSag_fin hR, quadricSag_fin hR (quadric_root_pos hR hdom).le, conicSag]
    congr 1
    norm_num
    field_simp
  · show radialNormal _ _ _ = paraboloidNormal _ _ _
    rw [radialNormal_fin (quadricDzdr_at hR hdom), paraboloidNormal_fin hR]
    norm_num
    congr 2 <;> field_simp

/-- Wherever the sag of a Quadric is a number, the point satisfies the conic equation; and the sag is a number exactly on
the domain of the square root. -/
theorem C29_conic_equation {R k x y : ℝ} (hR : R ≠ 0) :
    (∀ z, (quadric (Dbl.fin R) (Dbl.fin k)).sag (.fin x) (.fin y) = .fin z → x ^ 2 + y ^ 2 = 2 * R * z - (1 + k) * z ^ 2) ∧
    (Dbl.IsFin ((quadric (Dbl.fin R) (Dbl.fin k)).sag (.fin x) (.fin y)) ↔ (1 + k) * (x ^ 2 + y ^ 2) ≤ R ^ 2) := by
  have hR2 : 0 < R ^ 2 := by positivity
  have e : (x * x + y * y) * ((k + 1) / R / R) = (1 + k) * (x ^ 2 + y ^ 2) / R ^ 2 := by field_simp; ring
  have hiff : 0 ≤ 1 - (x * x + y * y) * ((k + 1) / R / R) ↔ (1 + k) * (x ^ 2 + y ^ 2) ≤ R ^ 2 := by
    rw [e, sub_nonneg, div_le_one hR2]
  have hnan : ¬ 0 ≤ 1 - (x * x + y * y) * ((k + 1) / R / R) →
      (quadric (Dbl.fin R) (Dbl.fin k)).sag (.fin x) (.fin y) = .nan := by
    intro hq
    show quadricSag _ _ _ _ = _
    unfold quadricSag
    simp only [Dbl.zero_dbl, Dbl.eq_fin, hR, decide_false, Bool.false_eq_true, if_false, Dbl.one_dbl, Dbl.div_fin hR, Dbl.mul_fin,
      Dbl.add_fin, Dbl.sub_fin, Dbl.sqrt_fin_neg (not_le.mp hq)]
    simp
  by_cases hq : 0 ≤ 1 - (x * x + y * y) * ((k + 1) / R / R)
  · have hs := quadricSag_fin hR hq
    refine ⟨?_, ?_⟩
    · intro z hz
      change quadricSag _ _ _ _ = _ at hz
      rw [hs, Dbl.fin_inj] at hz
      subst hz
      unfold conicSag
      have hs0 := Real.sqrt_nonneg (1 - (x * x + y * y) * ((k + 1) / R / R))
      have hss := Real.mul_self_sqrt hq
      generalize Real.sqrt (1 - (x * x + y * y) * ((k + 1) / R / R)) = s at hs0 hss
      have h1 : 1 + s ≠ 0 := by linarith
      have : R ^ 2 * (s * s) = R ^ 2 - (x * x + y * y) * (k + 1) := by rw [hss]; field_simp
      field_simp
      linear_combination (x ^ 2 + y ^ 2) * this
    · exact ⟨fun _ => hiff.mp hq, fun _ => ⟨_, hs⟩⟩
  · rw [hnan hq]
    refine ⟨fun z hz => (by cases hz), ?_⟩
    constructor
    · intro h; exact absurd h (by simp)
    · intro h; exact absurd (hiff.mpr h) hq

/-! ## Tilted: the normal is right only without tilt -/

theorem tilted_normal_fin {tanx tany x y : ℝ} {n : V3 ℝ}
    (h : (tilted (Dbl.fin tanx) (Dbl.fin tany)).normal (.fin x) (.fin y) = n.fin) :
    n = ⟨-tanx, -tany, Real.sqrt (1 - tanx * tanx - tany * tany)⟩ ∧ 0 ≤ 1 - tanx * tanx - tany * tany := by
  simp only [tilted, Dbl.one_dbl, Dbl.mul_fin, Dbl.sub_fin, Dbl.neg_fin] at h
  have hz := congrArg V3.z h
  simp only [V3.fin_z] at hz
  by_cases hq : 0 ≤ 1 - tanx * tanx - tany * tany
  · refine ⟨?_, hq⟩
    have hx := congrArg V3.x h
    have hy := congrArg V3.y h
    simp only [V3.fin_x, V3.fin_y, Dbl.fin_inj] at hx hy
    rw [Dbl.sqrt_fin hq, Dbl.fin_inj] at hz
    ext <;> simp [*]
  · rw [Dbl.sqrt_fin_neg (not_le.mp hq)] at hz; cases hz

/-- C22 for Tilted: at no point and for no actual tilt is the reported normal the normal of the tilted plane. -/
theorem C22_tilted_violated {tanx tany : ℝ} (ht : ¬ (tanx = 0 ∧ tany = 0)) {x y : ℝ} {n : V3 ℝ}
    (h : (tilted (Dbl.fin tanx) (Dbl.fin tany)).normal (.fin x) (.fin y) = n.fin) :
    ¬ NormalTo (fun x y => realOf ((tilted (Dbl.fin tanx) (Dbl.fin tany)).sag (.fin x) (.fin y))) x y n := by
  intro hN
  obtain ⟨hn, hq⟩ := tilted_normal_fin h
  have hf : ∀ x y : ℝ, realOf ((tilted (Dbl.fin tanx) (Dbl.fin tany)).sag (.fin x) (.fin y)) = x * tanx + y * tany := by
    intro x y; simp [tilted]
  obtain ⟨gx, gy, hx, hy, p1, p2⟩ := hN.perp
  simp only [hf] at hx hy
  have ex : gx = tanx := hx.unique
    ((HasDerivAt.add_const (y * tany) ((hasDerivAt_id' x).mul_const tanx)).congr_deriv (by ring))
  have ey : gy = tany := hy.unique
    ((HasDerivAt.const_add (x * tanx) ((hasDerivAt_id' y).mul_const tany)).congr_deriv (by ring))
  have hss := Real.mul_self_sqrt hq
  simp only [V3.dot, hn, ex, ey] at p1 p2
  generalize Real.sqrt (1 - tanx * tanx - tany * tany) = s at p1 p2 hss
  have h1 : tanx * (s - 1) = 0 := by linear_combination p1
  have h2 : tany * (s - 1) = 0 := by linear_combination p2
  apply ht
  have h3 : ∀ w, w * (s - 1) = 0 → w = 0 := by
    intro w hw
    rcases mul_eq_zero.mp hw with h | h
    · exact h
    · exfalso
      have hs : s = 1 := by linarith
      rw [hs] at hss
      apply ht
      exact radius_zero (by linarith)
  exact ⟨h3 _ h1, h3 _ h2⟩

/-- Without tilt it is right. -/
theorem C22_tilted_flat : TrueNormals (tilted (Dbl.fin 0) (Dbl.fin 0)) Set.univ := by
  refine trueNormals_of isOpen_univ (fun _ _ => 0) (fun _ _ => 0) (fun _ _ => 0) ?_ ?_ ?_ ?_
  · intro x y _; simp [tilted]
  · intro x y _; exact hasDerivAt_const _ _
  · intro x y _; exact hasDerivAt_const _ _
  · intro x y _; rw [unitNormal_zero]; simp [tilted, Dbl.zero_dbl, Dbl.one_dbl]

/-! ## C28: sums of surfaces -/

theorem Dbl.add_comm' (a b : Dbl) : a + b = b + a := by
  cases a <;> cases b <;> first | rfl | (simp only [Dbl.add_fin]; rw [add_comm])

theorem Dbl.add_assoc' (a b c : Dbl) : a + b + c = a + (b + c) := by
  cases a <;> cases b <;> cases c <;> first | rfl | (simp only [Dbl.add_fin]; rw [add_assoc])

theorem Dbl.zero_add' (a : Dbl) : Dbl.fin 0 + a = a := by
  cases a <;> first | rfl | (simp only [Dbl.add_fin]; rw [zero_add])

/-- Sum of a list of doubles. -/
noncomputable def dsum (l : List Dbl) : Dbl := l.foldr (· + ·) (.fin 0)

theorem foldl_dsum {α : Type} (f : α → Dbl) (l : List α) : ∀ acc, l.foldl (fun a s => a + f s) acc = acc + dsum (l.map f) := by
  induction l with
  | nil => intro acc; rw [Dbl.add_comm']; simp only [List.foldl_nil, List.map_nil, dsum, List.foldr_nil]; rw [Dbl.zero_add']
  | cons a l ih => intro acc; rw [List.foldl_cons, ih, Dbl.add_assoc']; rfl

theorem dsum_append (a b : List Dbl) : dsum (a ++ b) = dsum a + dsum b := by
  induction a with
  | nil => exact (Dbl.zero_add' _).symm
  | cons x a ih => simp only [List.cons_append, dsum, List.foldr_cons] at ih ⊢; rw [ih, Dbl.add_assoc']

theorem dsum_perm {a b : List Dbl} (h : a.Perm b) : dsum a = dsum b := by
  induction h with
  | nil => rfl
  | cons x _ ih => simp only [dsum, List.foldr_cons] at ih ⊢; rw [ih]
  | swap x y l => simp only [dsum, List.foldr_cons]; rw [← Dbl.add_assoc', Dbl.add_comm' y x, Dbl.add_assoc']
  | trans _ _ h1 h2 => exact h1.trans h2

theorem sumSag_eq (ss : List (Surface Dbl)) (x y : Dbl) : sumSag ss x y = dsum (ss.map fun s => s.sag x y) := by
  unfold sumSag; rw [foldl_dsum, Dbl.zero_dbl, Dbl.zero_add']

/-- The accumulated slopes of `Sum::normal`. -/
theorem sum_fold_pair (ss : List (Surface Dbl)) (x y : Dbl) : ∀ acc : Dbl × Dbl,
    ss.foldl (fun (acc : Dbl × Dbl) s => (acc.1 + (s.normal x y).x / (s.normal x y).z, acc.2 + (s.normal x y).y / (s.normal x y).z)) acc =
      (acc.1 + dsum (ss.map fun s => (s.normal x y).x / (s.normal x y).z),
       acc.2 + dsum (ss.map fun s => (s.normal x y).y / (s.normal x y).z)) := by
  induction ss with
  | nil =>
    intro acc
    simp only [List.foldl_nil, List.map_nil, dsum, List.foldr_nil]
    rw [Dbl.add_comm' acc.1, Dbl.zero_add', Dbl.add_comm' acc.2, Dbl.zero_add']
  | cons s ss ih =>
    intro acc
    rw [List.foldl_cons, ih]
    simp only [Dbl.add_assoc']
    rfl

theorem sumNormal_eq (ss : List (Surface Dbl)) (x y : Dbl) :
    sumNormal ss x y =
      let gx := dsum (ss.map fun s => (s.normal x y).x / (s.normal x y).z)
      let gy := dsum (ss.map fun s => (s.normal x y).y / (s.normal x y).z)
      let nz := 1 / Arith.sqrt (gx * gx + gy * gy + 1)
      ⟨gx * nz, gy * nz, nz⟩ := by
  unfold sumNormal
  simp only [sum_fold_pair, Dbl.zero_dbl, Dbl.zero_add']

theorem dsum_fin (l : List ℝ) : dsum (l.map Dbl.fin) = .fin l.sum := by
  induction l with
  | nil => rfl
  | cons a l ih => simp only [List.map_cons, dsum, List.foldr_cons, List.sum_cons] at ih ⊢; rw [ih, Dbl.add_fin]

/-- Order does not matter, even for non-finite values. -/
theorem C28_order {ss ss' : List (Surface Dbl)} (h : ss.Perm ss') (x y : Dbl) :
    (Surface.sum ss).sag x y = (Surface.sum ss').sag x y ∧ (Surface.sum ss).normal x y = (Surface.sum ss').normal x y := by
  constructor
  · show sumSag _ _ _ = sumSag _ _ _
    rw [sumSag_eq, sumSag_eq, dsum_perm (h.map _)]
  · show sumNormal _ _ _ = sumNormal _ _ _
    rw [sumNormal_eq, sumNormal_eq]
    rw [dsum_perm (h.map fun s => (s.normal x y).x / (s.normal x y).z), dsum_perm (h.map fun s => (s.normal x y).y / (s.normal x y).z)]

/-- The sag of a sum is the sum of the sags. -/
theorem C28_sag {ss : List (Surface Dbl)} (f : Surface Dbl → ℝ) (x y : ℝ)
    (h : ∀ s ∈ ss, s.sag (.fin x) (.fin y) = .fin (f s)) :
    (Surface.sum ss).sag (.fin x) (.fin y) = .fin (ss.map f).sum := by
  show sumSag _ _ _ = _
  rw [sumSag_eq, ← dsum_fin, List.map_map]
  congr 1
  exact List.map_congr_left h

/-- Grouping does not matter for the sag, even for non-finite values. -/
theorem C28_grouping_sag (groups : List (List (Surface Dbl))) (x y : Dbl) :
    (Surface.sum (groups.map Surface.sum)).sag x y = (Surface.sum groups.flatten).sag x y := by
  show sumSag _ _ _ = sumSag _ _ _
  rw [sumSag_eq, sumSag_eq]
  induction groups with
  | nil => rfl
  | cons g gs ih =>
    rw [List.flatten_cons, List.map_append, dsum_append, ← ih, ← sumSag_eq g]
    rfl

theorem list_sum_hasDerivAt {α : Type} (l : List α) (f : α → ℝ → ℝ) (f' : α → ℝ) (x : ℝ)
    (h : ∀ a ∈ l, HasDerivAt (f a) (f' a) x) : HasDerivAt (fun u => (l.map fun a => f a u).sum) (l.map f').sum x := by
  induction l with
  | nil => simpa using hasDerivAt_const x (0:ℝ)
  | cons a l ih =>
    simp only [List.map_cons, List.sum_cons]
    exact (h a (by simp)).fun_add (ih fun b hb => h b (by simp [hb]))

theorem neg_list_sum {α : Type} (l : List α) (f : α → ℝ) : (l.map fun a => -f a).sum = -(l.map f).sum := by
  induction l with
  | nil => simp
  | cons a l ih => simp only [List.map_cons, List.sum_cons, ih]; ring

/-- C28/C22: if the members have true normals on an open set, so has the sum: its normal is the normal of the summed
surface. -/
theorem C28_normal {ss : List (Surface Dbl)} {D : Set (ℝ × ℝ)} (hD : IsOpen D) (h : ∀ s ∈ ss, TrueNormals s D) :
    TrueNormals (Surface.sum ss) D := by
  classical
  -- slopes of the members
  let sx : ℝ → ℝ → Surface Dbl → ℝ := fun x y s => -realOf (s.normal (.fin x) (.fin y)).x / realOf (s.normal (.fin x) (.fin y)).z
  let sy : ℝ → ℝ → Surface Dbl → ℝ := fun x y s => -realOf (s.normal (.fin x) (.fin y)).y / realOf (s.normal (.fin x) (.fin y)).z
  have hfin : ∀ x y, (x, y) ∈ D → ∀ s ∈ ss, s.sag (.fin x) (.fin y) = .fin (realOf (s.sag (.fin x) (.fin y))) := by
    intro x y hp s hs
    obtain ⟨r, hr⟩ := (h s hs).finite (x, y) hp
    simp only at hr
    rw [hr]; rfl
  refine trueNormals_of hD (fun x y => (ss.map fun s => realOf (s.sag (.fin x) (.fin y))).sum)
    (fun x y => (ss.map (sx x y)).sum) (fun x y => (ss.map (sy x y)).sum) ?_ ?_ ?_ ?_
  · intro x y hp
    exact C28_sag _ x y (hfin x y hp)
  · intro x y hp
    refine list_sum_hasDerivAt ss (fun s u => realOf (s.sag (.fin u) (.fin y))) _ x ?_
    intro s hs
    obtain ⟨n, hn, hN⟩ := (h s hs).normal (x, y) hp
    simp only at hn hN
    have := hN.slopes.1
    simp only [sx, hn, V3.fin_x, V3.fin_z, realOf_fin]
    exact this
  · intro x y hp
    refine list_sum_hasDerivAt ss (fun s w => realOf (s.sag (.fin x) (.fin w))) _ y ?_
    intro s hs
    obtain ⟨n, hn, hN⟩ := (h s hs).normal (x, y) hp
    simp only at hn hN
    have := hN.slopes.2
    simp only [sy, hn, V3.fin_y, V3.fin_z, realOf_fin]
    exact this
  · intro x y hp
    show sumNormal _ _ _ = _
    rw [sumNormal_eq]
    have ex : (ss.map fun s => (s.normal (.fin x) (.fin y)).x / (s.normal (.fin x) (.fin y)).z) =
        (ss.map fun s => -(sx x y s)).map Dbl.fin := by
      rw [List.map_map]
      apply List.map_congr_left
      intro s hs
      obtain ⟨n, hn, hN⟩ := (h s hs).normal (x, y) hp
      simp only at hn
      simp only [sx, hn, V3.fin_x, V3.fin_z, realOf_fin, Dbl.div_fin hN.upward.ne', Function.comp]
      congr 1; ring
    have ey : (ss.map fun s => (s.normal (.fin x) (.fin y)).y / (s.normal (.fin x) (.fin y)).z) =
        (ss.map fun s => -(sy x y s)).map Dbl.fin := by
      rw [List.map_map]
      apply List.map_congr_left
      intro s hs
      obtain ⟨n, hn, hN⟩ := (h s hs).normal (x, y) hp
      simp only at hn
      simp only [sy, hn, V3.fin_y, V3.fin_z, realOf_fin, Dbl.div_fin hN.upward.ne', Function.comp]
      congr 1; ring
    rw [ex, ey, dsum_fin, dsum_fin, neg_list_sum, neg_list_sum]
    generalize (ss.map (sx x y)).sum = gx
    generalize (ss.map (sy x y)).sum = gy
    have hp' := slope_pos gx gy
    have e : -gx * -gx + -gy * -gy + 1 = 1 + gx * gx + gy * gy := by ring
    have hs := (Real.sqrt_pos.mpr hp').ne'
    simp only [Dbl.one_dbl, Dbl.mul_fin, Dbl.add_fin, e, Dbl.sqrt_fin hp'.le, Dbl.div_fin hs]
    rfl

/-- Unit normals of the same slopes are equal, so grouping and the sum of one surface do not matter for normals either. -/
theorem NormalTo.unique {f : ℝ → ℝ → ℝ} {x y : ℝ} {n m : V3 ℝ} (hn : NormalTo f x y n) (hm : NormalTo f x y m) : n = m := by
  obtain ⟨a1, b1⟩ := hn.slopes
  obtain ⟨a2, b2⟩ := hm.slopes
  have hx := a1.unique a2
  have hy := b1.unique b2
  have hnz := hn.upward; have hmz := hm.upward
  have un := hn.unit; have um := hm.unit
  simp only [IsUnit', V3.dot] at un um
  rw [div_eq_div_iff hnz.ne' hmz.ne'] at hx hy
  have hx' : n.x * m.z = m.x * n.z := by linarith
  have hy' : n.y * m.z = m.y * n.z := by linarith
  have hz2 : n.z * n.z = m.z * m.z := by
    have h1 : m.z * m.z = (n.x * m.z) * (n.x * m.z) + (n.y * m.z) * (n.y * m.z) + n.z * n.z * (m.z * m.z) := by
      linear_combination (-(m.z * m.z)) * un
    rw [hx', hy'] at h1
    linear_combination -h1 + (-(n.z * n.z)) * um
  have hz : n.z = m.z := by nlinarith
  rw [hz] at hx' hy'
  ext
  · exact mul_right_cancel₀ hmz.ne' hx'
  · exact mul_right_cancel₀ hmz.ne' hy'
  · exact hz

theorem C28_grouping_normal {groups : List (List (Surface Dbl))} {D : Set (ℝ × ℝ)} (hD : IsOpen D)
    (h : ∀ g ∈ groups, ∀ s ∈ g, TrueNormals s D) {x y : ℝ} (hp : (x, y) ∈ D) :
    (Surface.sum (groups.map Surface.sum)).normal (.fin x) (.fin y) = (Surface.sum groups.flatten).normal (.fin x) (.fin y) := by
  have h1 : TrueNormals (Surface.sum (groups.map Surface.sum)) D := by
    apply C28_normal hD
    intro s hs
    obtain ⟨g, hg, rfl⟩ := List.mem_map.mp hs
    exact C28_normal hD (h g hg)
  have h2 : TrueNormals (Surface.sum groups.flatten) D := by
    apply C28_normal hD
    intro s hs
    obtain ⟨g, hg, hsg⟩ := List.mem_flatten.mp hs
    exact h g hg s hsg
  obtain ⟨n, hn, hN⟩ := h1.normal (x, y) hp
  obtain ⟨m, hm, hM⟩ := h2.normal (x, y) hp
  simp only [C28_grouping_sag] at hN
  simp only at hn hm
  rw [hn, hm, hN.unique hM]

/-- The sum of one surface has its sag and normal, and a successful intersection with it is within 1e-12 of it. -/
theorem C28_single {s : Surface Dbl} {D : Set (ℝ × ℝ)} (hD : IsOpen D) (h : TrueNormals s D) {x y : ℝ} (hp : (x, y) ∈ D) :
    (Surface.sum [s]).sag (.fin x) (.fin y) = s.sag (.fin x) (.fin y) ∧
    (Surface.sum [s]).normal (.fin x) (.fin y) = s.normal (.fin x) (.fin y) := by
  have hsag : ∀ x y, (Surface.sum [s]).sag x y = s.sag x y := by
    intro x y
    show sumSag _ _ _ = _
    rw [sumSag_eq]; simp only [List.map_cons, List.map_nil, dsum, List.foldr_cons, List.foldr_nil]
    rw [Dbl.add_comm', Dbl.zero_add']
  refine ⟨hsag _ _, ?_⟩
  have h1 : TrueNormals (Surface.sum [s]) D := C28_normal hD (by simpa using h)
  obtain ⟨n, hn, hN⟩ := h1.normal (x, y) hp
  obtain ⟨m, hm, hM⟩ := h.normal (x, y) hp
  simp only [hsag] at hN
  simp only at hn hm
  rw [hn, hm, hN.unique hM]

theorem C28_intersection (ss : List (Surface Dbl)) (r v : V3 ℝ) (dt : Dbl) (niter : ℕ)
    (h : ((Surface.sum ss).timeToIntersect r.fin v.fin dt niter).1 = true) :
    ∃ t z : ℝ, ((Surface.sum ss).timeToIntersect r.fin v.fin dt niter).2 = .fin t ∧
      dsum (ss.map fun s => s.sag (.fin (pointAt r v t).x) (.fin (pointAt r v t).y)) = .fin z ∧
      |z - (pointAt r v t).z| < 1 / 10 ^ 12 := by
  simp only [Surface.sum, sumTime] at h ⊢
  split at h
  · simp at h
  · rename_i s tl
    split at h
    · simp at h
    · rename_i dt' e
      obtain ⟨t, z, h1, h2, h3⟩ := C23_residual_real _ _ r v dt' niter h
      exact ⟨t, z, h1, by rw [← sumSag_eq]; exact h2, h3⟩

/-! ## Concrete cases -/

/-- An LSST-like asphere: 1 m off axis is inside its domain. -/
example : ((1:ℝ), (0:ℝ)) ∈ quadricDomain 20 (-1.2) := by norm_num [quadricDomain]

example : asphereCtor 2 ([3] : List Dbl) = .ok [0, 3] := by simp [asphereCtor]

/-- A paraboloid plus a plane meets the hypotheses of `C28_normal`. -/
example : TrueNormals (Surface.sum [paraboloid (Dbl.fin 10), plane]) Set.univ :=
  C28_normal isOpen_univ (by simp only [List.mem_cons, List.not_mem_nil, or_false, forall_eq_or_imp, forall_eq]
                             exact ⟨C22_paraboloid (by norm_num), C22_plane⟩)

/-- A tilt of 45 degrees in x: the reported normal is (-1, 0, 0), that of the surface (-1, 0, 1)/sqrt 2. -/
example : (tilted (Dbl.fin 1) (Dbl.fin 0)).normal (.fin 0) (.fin 0) = (⟨-1, 0, 0⟩ : V3 ℝ).fin := by
  simp only [tilted, V3.fin, V3.map, Dbl.one_dbl, Dbl.neg_fin, Dbl.mul_fin, Dbl.sub_fin]
  norm_num

end Batoid.Props
