import Verif.Projection
import Mathlib.Tactic.FieldSimp
import Mathlib.Tactic.LinearCombination
import Mathlib.Tactic.Positivity
import Mathlib.Analysis.Real.Pi.Bounds

/-!
# Property C59: field projections
-/

namespace Batoid.Props
open Batoid Batoid.Projection

/-! ## Specification -/

/-- The six projections. -/
inductive Proj where
  | postel | zemax | gnomonic | stereographic | lambert | orthographic

namespace Proj

/-- The name the user gives. -/
def name : Proj → String
  | postel => "postel"
  | zemax => "zemax"
  | gnomonic => "gnomonic"
  | stereographic => "stereographic"
  | lambert => "lambert"
  | orthographic => "orthographic"

/-- The natural domain of the field coordinates. -/
def Field : Proj → ℝ → ℝ → Prop
  | postel, u, v => u * u + v * v < Real.pi * Real.pi
  | zemax, u, v => |u| < Real.pi / 2 ∧ |v| < Real.pi / 2
  | gnomonic, _, _ => True
  | stereographic, _, _ => True
  | lambert, u, v => u * u + v * v < 4
  | orthographic, u, v => u * u + v * v ≤ 1

/-- The directions a projection can show, by their z-component (`-1` is straight down, the centre of the field): the
sphere without its top, the open or the closed lower hemisphere. -/
def Sees : Proj → ℝ → Prop
  | postel, c => c < 1
  | zemax, c => c < 0
  | gnomonic, c => c < 0
  | stereographic, c => c < 1
  | lambert, c => c < 1
  | orthographic, c => c ≤ 0

/-- Textbook laws.  All but Zemax are azimuthal: the direction at angle `θ` from the axis (a ray going straight down)
is shown at the same azimuth, at a distance from the centre that is the given function of `θ`. -/
noncomputable def radius : Proj → ℝ → ℝ
  | postel, θ => θ
  | zemax, θ => Real.tan θ
  | gnomonic, θ => Real.tan θ
  | stereographic, θ => 2 * Real.tan (θ / 2)
  | lambert, θ => 2 * Real.sin (θ / 2)
  | orthographic, θ => Real.sin θ

/-- `(a, b, c)` is the direction shown at `(u, v)`. -/
def Shows : Proj → ℝ → ℝ → ℝ → ℝ → ℝ → Prop
  | zemax, u, v, a, b, c => a = -c * Real.tan u ∧ b = -c * Real.tan v
  | p, u, v, a, b, c => ∃ θ, 0 ≤ θ ∧ θ < Real.pi ∧ c = -Real.cos θ ∧ Real.sqrt (u * u + v * v) = p.radius θ ∧
      ∃ k, 0 < k ∧ a = k * u ∧ b = k * v

end Proj

/-- Unit vectors. -/
def UnitDir (a b c : ℝ) : Prop := a * a + b * b + c * c = 1

/-! ## Azimuthal projections -/

theorem rho_pos {u v : ℝ} (h : u * u + v * v ≠ 0) : 0 < Real.sqrt (u * u + v * v) :=
  Real.sqrt_pos.mpr (lt_of_le_of_ne (add_nonneg (mul_self_nonneg u) (mul_self_nonneg v)) (Ne.symm h))

theorem az_there {u v ρ θ : ℝ} (h0 : 0 < ρ) (hρ : ρ * ρ = u * u + v * v) (hθ : 0 < θ) (hπ : θ < Real.pi) :
    UnitDir (u / ρ * Real.sin θ) (v / ρ * Real.sin θ) (-Real.cos θ) ∧ Real.arccos (- -Real.cos θ) = θ ∧
      (u / ρ * Real.sin θ) * ρ / Real.sin θ = u ∧ (v / ρ * Real.sin θ) * ρ / Real.sin θ = v ∧
      -1 < -Real.cos θ ∧ -Real.cos θ < 1 := by
  have hs := Real.sin_pos_of_pos_of_lt_pi hθ hπ
  have hsc := Real.sin_sq_add_cos_sq θ
  refine ⟨?_, ?_, ?_, ?_, ?_, ?_⟩
  · unfold UnitDir
    have e : u / ρ * Real.sin θ * (u / ρ * Real.sin θ) + v / ρ * Real.sin θ * (v / ρ * Real.sin θ) = Real.sin θ ^ 2 := by
      field_simp; rw [show ρ ^ 2 = u * u + v * v by rw [sq, hρ]]; ring
    rw [e]; linear_combination hsc
  · rw [neg_neg, Real.arccos_cos hθ.le hπ.le]
  · field_simp
  · field_simp
  · have : Real.cos θ < 1 := by nlinarith [Real.cos_le_one θ]
    linarith
  · have : -1 < Real.cos θ := by nlinarith [Real.neg_one_le_cos θ]
    linarith

theorem az_back {a b c R : ℝ} (h : UnitDir a b c) (hc : -1 < c) (hc1 : c < 1) (hR : 0 < R) :
    let θ := Real.arccos (-c)
    let s := Real.sin θ
    (a * R / s) * (a * R / s) + (b * R / s) * (b * R / s) = R * R ∧ 0 < s ∧
      a * R / s / R * s = a ∧ b * R / s / R * s = b ∧ -Real.cos θ = c ∧ 0 < θ ∧ θ < Real.pi := by
  intro θ s
  have hcos : Real.cos θ = -c := Real.cos_arccos (by linarith) (by linarith)
  have h0 : 0 < θ := Real.arccos_pos.mpr (by linarith)
  have hlt : θ < Real.pi := by
    refine lt_of_le_of_ne (Real.arccos_le_pi _) ?_
    intro e
    rw [e, Real.cos_pi] at hcos; linarith
  have hs : 0 < s := Real.sin_pos_of_pos_of_lt_pi h0 hlt
  have hss : s ^ 2 = 1 - c ^ 2 := by
    have := Real.sin_sq_add_cos_sq θ
    rw [hcos] at this; linear_combination this
  unfold UnitDir at h
  have hab : a ^ 2 + b ^ 2 = s ^ 2 := by rw [hss]; linear_combination h
  refine ⟨?_, hs, ?_, ?_, ?_, h0, hlt⟩
  · field_simp; linear_combination hab
  · field_simp
  · field_simp
  · rw [hcos, neg_neg]

theorem sees_zero {a b c : ℝ} (h : UnitDir a b c) (hc : ¬ -1 < c) : a = 0 ∧ b = 0 ∧ c = -1 := by
  unfold UnitDir at h
  have : c = -1 := by nlinarith [mul_self_nonneg a, mul_self_nonneg b]
  subst this
  refine ⟨?_, ?_, rfl⟩
  · nlinarith [mul_self_nonneg a, mul_self_nonneg b]
  · nlinarith [mul_self_nonneg a, mul_self_nonneg b]

/-! ### Postel -/

theorem postel_fwd {u v : ℝ} (h : u * u + v * v ≠ 0) :
    postelToDirCos (Dbl.fin u) (Dbl.fin v) = (Dbl.fin (u / Real.sqrt (u * u + v * v) * Real.sin (Real.sqrt (u * u + v * v))),
      Dbl.fin (v / Real.sqrt (u * u + v * v) * Real.sin (Real.sqrt (u * u + v * v))), Dbl.fin (-Real.cos (Real.sqrt (u * u + v * v)))) := by
  have hp : (0:ℝ) ≤ u * u + v * v := add_nonneg (mul_self_nonneg u) (mul_self_nonneg v)
  have h0 := (rho_pos h).ne'
  simp [postelToDirCos, Dbl.sqrt_fin hp, h0, Dbl.div_fin h0]

theorem postel_bwd {a b c : ℝ} (hc : -1 < c) (hc1 : c < 1) :
    dirCosToPostel (Dbl.fin a) (Dbl.fin b) (Dbl.fin c) =
      (Dbl.fin (a * Real.arccos (-c) / Real.sin (Real.arccos (-c))), Dbl.fin (b * Real.arccos (-c) / Real.sin (Real.arccos (-c)))) := by
  have hs : Real.sin (Real.arccos (-c)) ≠ 0 := by
    rw [Real.sin_arccos]
    exact (Real.sqrt_pos.mpr (by nlinarith)).ne'
  have hne : c ≠ -1 := hc.ne'
  simp [dirCosToPostel, hne, Dbl.acos_fin (a := -c) ⟨by linarith, by linarith⟩, Dbl.div_fin hs]

/-! ### Stereographic -/

theorem stereographic_fwd {u v : ℝ} (h : u * u + v * v ≠ 0) :
    let θ := 2 * Real.arctan (Real.sqrt (u * u + v * v) / 2)
    stereographicToDirCos (Dbl.fin u) (Dbl.fin v) = (Dbl.fin (u / Real.sqrt (u * u + v * v) * Real.sin θ),
      Dbl.fin (v / Real.sqrt (u * u + v * v) * Real.sin θ), Dbl.fin (-Real.cos θ)) := by
  intro θ
  have hp : (0:ℝ) ≤ u * u + v * v := add_nonneg (mul_self_nonneg u) (mul_self_nonneg v)
  have h0 := (rho_pos h).ne'
  simp [stereographicToDirCos, Dbl.sqrt_fin hp, h0, Dbl.div_fin h0, θ]

theorem half_angle {θ : ℝ} (h0 : 0 < θ) (hπ : θ < Real.pi) : 0 < Real.cos (θ / 2) ∧ 0 < Real.sin (θ / 2) :=
  ⟨Real.cos_pos_of_mem_Ioo ⟨by linarith, by linarith⟩, Real.sin_pos_of_pos_of_lt_pi (by linarith) (by linarith)⟩

theorem stereographic_bwd {a b c : ℝ} (hc : -1 < c) (hc1 : c < 1) :
    let θ := Real.arccos (-c)
    let R := 2 * Real.tan (θ / 2)
    dirCosToStereographic (Dbl.fin a) (Dbl.fin b) (Dbl.fin c) =
      (Dbl.fin (a * R / Real.sin θ), Dbl.fin (b * R / Real.sin θ)) := by
  intro θ R
  have hs : Real.sin (Real.arccos (-c)) ≠ 0 := by
    rw [Real.sin_arccos]
    exact (Real.sqrt_pos.mpr (by nlinarith)).ne'
  have hne : c ≠ -1 := hc.ne'
  have h0 : 0 < θ := Real.arccos_pos.mpr (by linarith)
  have hlt : θ < Real.pi := by
    refine lt_of_le_of_ne (Real.arccos_le_pi _) ?_
    intro e
    apply hs; show Real.sin θ = 0; rw [e, Real.sin_pi]
  have hcos := (half_angle h0 hlt).1.ne'
  simp [dirCosToStereographic, hne, Dbl.acos_fin (a := -c) ⟨by linarith, by linarith⟩, Dbl.div_fin hs, Dbl.tan_fin hcos, θ, R]

/-! ### Lambert -/

/-- The angle of a Lambert radius. -/
theorem lambert_angle {ρ : ℝ} (h0 : 0 < ρ) (h2 : ρ * ρ < 4) :
    let θ := Real.arccos ((2 - ρ * ρ) / 2)
    0 < θ ∧ θ < Real.pi ∧ Real.cos θ = (2 - ρ * ρ) / 2 ∧ Real.sin θ = Real.sqrt (1 - (2 - ρ * ρ) / 2 * ((2 - ρ * ρ) / 2)) ∧
      2 * Real.sin (θ / 2) = ρ := by
  intro θ
  have hcos : Real.cos θ = (2 - ρ * ρ) / 2 := Real.cos_arccos (by nlinarith) (by nlinarith)
  have hp : 0 < θ := Real.arccos_pos.mpr (by nlinarith)
  have hlt : θ < Real.pi := by
    refine lt_of_le_of_ne (Real.arccos_le_pi _) ?_
    intro e
    rw [e, Real.cos_pi] at hcos; nlinarith
  refine ⟨hp, hlt, hcos, ?_, ?_⟩
  · show Real.sin (Real.arccos _) = _
    rw [Real.sin_arccos, sq]
  · have h1 := (half_angle hp hlt).2
    have h3 : Real.cos θ = 1 - 2 * Real.sin (θ / 2) ^ 2 := by
      have := Real.cos_two_mul (θ / 2)
      rw [show 2 * (θ / 2) = θ by ring] at this
      rw [this, Real.cos_sq']; ring
    nlinarith

theorem lambert_fwd {u v : ℝ} (h : u * u + v * v ≠ 0) (h4 : u * u + v * v < 4) :
    let θ := Real.arccos ((2 - Real.sqrt (u * u + v * v) * Real.sqrt (u * u + v * v)) / 2)
    lambertToDirCos (Dbl.fin u) (Dbl.fin v) = (Dbl.fin (u / Real.sqrt (u * u + v * v) * Real.sin θ),
      Dbl.fin (v / Real.sqrt (u * u + v * v) * Real.sin θ), Dbl.fin (-Real.cos θ)) := by
  intro θ
  have hp : (0:ℝ) ≤ u * u + v * v := add_nonneg (mul_self_nonneg u) (mul_self_nonneg v)
  have h0 := (rho_pos h).ne'
  have hρ : Real.sqrt (u * u + v * v) * Real.sqrt (u * u + v * v) = u * u + v * v := Real.mul_self_sqrt hp
  obtain ⟨_, _, hc, hs, _⟩ := lambert_angle (rho_pos h) (by rw [hρ]; exact h4)
  have h1 : (0:ℝ) ≤ 1 - (2 - (u * u + v * v)) / 2 * ((2 - (u * u + v * v)) / 2) := by nlinarith
  rw [hρ] at hc hs
  have hc' : Real.cos θ = (2 - (u * u + v * v)) / 2 := by simp only [θ, hρ]; exact hc
  have hs' : Real.sin θ = Real.sqrt (1 - (2 - (u * u + v * v)) / 2 * ((2 - (u * u + v * v)) / 2)) := by simp only [θ, hρ]; exact hs
  rw [hc', hs']
  simp only [lambertToDirCos, Dbl.mul_fin, Dbl.add_fin, Dbl.zero_dbl, Dbl.eq_fin, h, decide_false, Bool.false_eq_true, if_false,
    Dbl.ofNat_dbl', Dbl.one_dbl, Dbl.sub_fin, Dbl.sqrt_fin hp, Dbl.div_fin two_ne_zero, Dbl.sqrt_fin h1, Dbl.div_fin h0, Dbl.neg_fin]
  congr 1
  · rw [Dbl.fin_inj]; ring
  · congr 1
    rw [Dbl.fin_inj]; ring

theorem lambert_bwd {a b c : ℝ} (hc : -1 < c) (hc1 : c < 1) :
    let θ := Real.arccos (-c)
    let R := 2 * Real.sin (θ / 2)
    dirCosToLambert (Dbl.fin a) (Dbl.fin b) (Dbl.fin c) =
      (Dbl.fin (a * R / Real.sin θ), Dbl.fin (b * R / Real.sin θ)) := by
  intro θ R
  have h1 : (0:ℝ) < 1 - c * c := by nlinarith
  have h2 : (0:ℝ) ≤ 2 + 2 * c := by linarith
  have hne : c ≠ -1 := hc.ne'
  have hs : Real.sin θ = Real.sqrt (1 - c * c) := by
    show Real.sin (Real.arccos _) = _
    rw [Real.sin_arccos]; congr 1; ring
  have hR : R = Real.sqrt (2 + 2 * c) := by
    have hm := lambert_angle (ρ := Real.sqrt (2 + 2 * c)) (Real.sqrt_pos.mpr (by linarith)) (by rw [Real.mul_self_sqrt h2]; linarith)
    rw [Real.mul_self_sqrt h2, show (2 - (2 + 2 * c)) / 2 = -c by ring] at hm
    exact hm.2.2.2.2
  have hq := (Real.sqrt_pos.mpr h1).ne'
  rw [hs, hR]
  simp [dirCosToLambert, hne, Dbl.sqrt_fin h1.le, Dbl.sqrt_fin h2, Dbl.div_fin hq]

/-! ### The others -/

theorem gnomonic_norm (u v : ℝ) : 0 < Real.sqrt (1 + u * u + v * v) ∧
    Real.sqrt (1 + u * u + v * v) * Real.sqrt (1 + u * u + v * v) = 1 + u * u + v * v := by
  have h : 0 < 1 + u * u + v * v := by nlinarith [mul_self_nonneg u, mul_self_nonneg v]
  exact ⟨Real.sqrt_pos.mpr h, Real.mul_self_sqrt h.le⟩

theorem gnomonic_fwd (u v : ℝ) : gnomonicToDirCos (Dbl.fin u) (Dbl.fin v) =
    (Dbl.fin (u * (1 / Real.sqrt (1 + u * u + v * v))), Dbl.fin (v * (1 / Real.sqrt (1 + u * u + v * v))),
      Dbl.fin (-(1 / Real.sqrt (1 + u * u + v * v)))) := by
  have h : 0 ≤ 1 + u * u + v * v := by nlinarith [mul_self_nonneg u, mul_self_nonneg v]
  simp only [gnomonicToDirCos, Dbl.mul_fin, Dbl.add_fin, Dbl.one_dbl, Dbl.sqrt_fin h, Dbl.div_fin (gnomonic_norm u v).1.ne', Dbl.neg_fin]

theorem zemax_fwd {u v : ℝ} (hu : Real.cos u ≠ 0) (hv : Real.cos v ≠ 0) : zemaxToDirCos (Dbl.fin u) (Dbl.fin v) =
    (Dbl.fin (Real.tan u / Real.sqrt (1 + Real.tan u * Real.tan u + Real.tan v * Real.tan v)),
      Dbl.fin (Real.tan v / Real.sqrt (1 + Real.tan u * Real.tan u + Real.tan v * Real.tan v)),
      Dbl.fin (-1 / Real.sqrt (1 + Real.tan u * Real.tan u + Real.tan v * Real.tan v))) := by
  have h : 0 ≤ 1 + Real.tan u * Real.tan u + Real.tan v * Real.tan v := by
    nlinarith [mul_self_nonneg (Real.tan u), mul_self_nonneg (Real.tan v)]
  simp only [zemaxToDirCos, Dbl.tan_fin hu, Dbl.tan_fin hv, Dbl.mul_fin, Dbl.add_fin, Dbl.one_dbl, Dbl.sqrt_fin h,
    Dbl.div_fin (gnomonic_norm (Real.tan u) (Real.tan v)).1.ne', Dbl.const_dbl]
  norm_num

theorem cos_ne_of_abs {u : ℝ} (h : |u| < Real.pi / 2) : Real.cos u ≠ 0 :=
  (Real.cos_pos_of_mem_Ioo ⟨by linarith [neg_abs_le u], by linarith [le_abs_self u]⟩).ne'

theorem orthographic_fwd {u v : ℝ} (h : u * u + v * v ≤ 1) : orthographicToDirCos (Dbl.fin u) (Dbl.fin v) =
    (Dbl.fin u, Dbl.fin v, Dbl.fin (-Real.sqrt (1 - (u * u + v * v)))) := by
  have hp : (0:ℝ) ≤ u * u + v * v := add_nonneg (mul_self_nonneg u) (mul_self_nonneg v)
  have h1 : Real.sqrt (u * u + v * v) ≤ 1 := by rw [← Real.sqrt_one]; exact Real.sqrt_le_sqrt h
  have h2 : -1 ≤ Real.sqrt (u * u + v * v) := by linarith [Real.sqrt_nonneg (u * u + v * v)]
  simp only [orthographicToDirCos, Dbl.mul_fin, Dbl.add_fin, Dbl.sqrt_fin hp, Dbl.asin_fin ⟨h2, h1⟩, Dbl.cos_fin, Dbl.neg_fin,
    Real.cos_arcsin, Real.sq_sqrt hp]

/-! ## From the field to directions and back -/

/-- What an azimuthal projection has to satisfy for a point off the centre of the field. -/
theorem shows_az {p : Proj} (hp : p ≠ .zemax) {u v θ : ℝ} (h : u * u + v * v ≠ 0) (hθ : 0 < θ) (hπ : θ < Real.pi)
    (hR : Real.sqrt (u * u + v * v) = p.radius θ) :
    p.Shows u v (u / Real.sqrt (u * u + v * v) * Real.sin θ) (v / Real.sqrt (u * u + v * v) * Real.sin θ) (-Real.cos θ) := by
  have hs := Real.sin_pos_of_pos_of_lt_pi hθ hπ
  have := rho_pos h
  have key : ∃ θ', 0 ≤ θ' ∧ θ' < Real.pi ∧ -Real.cos θ = -Real.cos θ' ∧ Real.sqrt (u * u + v * v) = p.radius θ' ∧
      ∃ k, 0 < k ∧ u / Real.sqrt (u * u + v * v) * Real.sin θ = k * u ∧ v / Real.sqrt (u * u + v * v) * Real.sin θ = k * v :=
    ⟨θ, hθ.le, hπ, rfl, hR, Real.sin θ / Real.sqrt (u * u + v * v), by positivity, by ring, by ring⟩
  cases p <;> first | exact key | exact absurd rfl hp

theorem shows_centre {p : Proj} (h0 : p.radius 0 = 0) : p.Shows 0 0 0 0 (-1) := by
  have key : ∃ θ', 0 ≤ θ' ∧ θ' < Real.pi ∧ -1 = -Real.cos θ' ∧ Real.sqrt (0 * 0 + 0 * 0 : ℝ) = p.radius θ' ∧
      ∃ k, 0 < k ∧ (0:ℝ) = k * 0 ∧ (0:ℝ) = k * 0 :=
    ⟨0, le_refl _, Real.pi_pos, by simp, by simp [h0], 1, one_pos, by simp, by simp⟩
  cases p <;> first | exact key | simp [Proj.Shows]

theorem centre_of_zero {u v : ℝ} (h : u * u + v * v = 0) : u = 0 ∧ v = 0 := by
  constructor <;> nlinarith [mul_self_nonneg u, mul_self_nonneg v]

/-- The whole of the forward half: the result is the unit vector the textbook law asks for, and the inverse takes it
back. -/
def ShownWell (p : Proj) (u v a b c : ℝ) : Prop :=
  fieldToDirCos (Dbl.fin u) (Dbl.fin v) p.name = .ok (Dbl.fin a, Dbl.fin b, Dbl.fin c) ∧ UnitDir a b c ∧ p.Sees c ∧
    p.Shows u v a b c ∧ dirCosToField (Dbl.fin a) (Dbl.fin b) (Dbl.fin c) p.name = .ok (Dbl.fin u, Dbl.fin v)

theorem good_postel {u v : ℝ} (h : Proj.postel.Field u v) : ∃ a b c, ShownWell .postel u v a b c := by
  by_cases h0 : u * u + v * v = 0
  · obtain ⟨rfl, rfl⟩ := centre_of_zero h0
    refine ⟨0, 0, -1, ?_, by simp [UnitDir], by simp [Proj.Sees], shows_centre rfl, ?_⟩
    · simp [fieldToDirCos, Proj.name, postelToDirCos]
    · simp [dirCosToField, Proj.name, dirCosToPostel]
  · have hp : (0:ℝ) ≤ u * u + v * v := add_nonneg (mul_self_nonneg u) (mul_self_nonneg v)
    have hρ := Real.mul_self_sqrt hp
    have hpos := rho_pos h0
    have hlt : Real.sqrt (u * u + v * v) < Real.pi := by
      have : Real.sqrt (u * u + v * v) * Real.sqrt (u * u + v * v) < Real.pi * Real.pi := by rw [hρ]; exact h
      nlinarith [Real.pi_pos]
    obtain ⟨a1, a2, a3, a4, a5, a6⟩ := az_there hpos hρ hpos hlt
    refine ⟨_, _, _, ?_, a1, a6, shows_az (by simp) h0 hpos hlt rfl, ?_⟩
    · simp only [fieldToDirCos, Proj.name, if_true]; rw [postel_fwd h0]
    · simp only [dirCosToField, Proj.name, if_true]
      rw [postel_bwd a5 a6, a2, a3, a4]

theorem good_stereographic (u v : ℝ) : ∃ a b c, ShownWell .stereographic u v a b c := by
  by_cases h0 : u * u + v * v = 0
  · obtain ⟨rfl, rfl⟩ := centre_of_zero h0
    refine ⟨0, 0, -1, ?_, by simp [UnitDir], by simp [Proj.Sees], shows_centre (by simp [Proj.radius]), ?_⟩
    · simp [fieldToDirCos, Proj.name, stereographicToDirCos]
    · simp [dirCosToField, Proj.name, dirCosToStereographic]
  · have hp : (0:ℝ) ≤ u * u + v * v := add_nonneg (mul_self_nonneg u) (mul_self_nonneg v)
    have hρ := Real.mul_self_sqrt hp
    have hpos := rho_pos h0
    have hθ : 0 < 2 * Real.arctan (Real.sqrt (u * u + v * v) / 2) := by
      have : 0 < Real.arctan (Real.sqrt (u * u + v * v) / 2) := Real.arctan_pos.mpr (by linarith)
      linarith
    have hlt : 2 * Real.arctan (Real.sqrt (u * u + v * v) / 2) < Real.pi := by
      linarith [Real.arctan_lt_pi_div_two (Real.sqrt (u * u + v * v) / 2)]
    have hR : Real.sqrt (u * u + v * v) = 2 * Real.tan (2 * Real.arctan (Real.sqrt (u * u + v * v) / 2) / 2) := by
      rw [mul_div_cancel_left₀ _ two_ne_zero, Real.tan_arctan]; ring
    obtain ⟨a1, a2, a3, a4, a5, a6⟩ := az_there hpos hρ hθ hlt
    refine ⟨_, _, _, ?_, a1, a6, shows_az (by simp) h0 hθ hlt hR, ?_⟩
    · simp only [fieldToDirCos, Proj.name]; rw [stereographic_fwd h0]; simp
    · simp only [dirCosToField, Proj.name]
      rw [stereographic_bwd a5 a6, a2, ← hR, a3, a4]; simp

theorem good_lambert {u v : ℝ} (h : Proj.lambert.Field u v) : ∃ a b c, ShownWell .lambert u v a b c := by
  by_cases h0 : u * u + v * v = 0
  · obtain ⟨rfl, rfl⟩ := centre_of_zero h0
    refine ⟨0, 0, -1, ?_, by simp [UnitDir], by simp [Proj.Sees], shows_centre (by simp [Proj.radius]), ?_⟩
    · simp [fieldToDirCos, Proj.name, lambertToDirCos]
    · simp [dirCosToField, Proj.name, dirCosToLambert]
  · have hp : (0:ℝ) ≤ u * u + v * v := add_nonneg (mul_self_nonneg u) (mul_self_nonneg v)
    have hρ := Real.mul_self_sqrt hp
    have hpos := rho_pos h0
    obtain ⟨hθ, hlt, hc, hs, hR⟩ := lambert_angle hpos (by rw [hρ]; exact h)
    obtain ⟨a1, a2, a3, a4, a5, a6⟩ := az_there hpos hρ hθ hlt
    refine ⟨_, _, _, ?_, a1, a6, shows_az (by simp) h0 hθ hlt hR.symm, ?_⟩
    · simp only [fieldToDirCos, Proj.name]; rw [lambert_fwd h0 h]; simp
    · simp only [dirCosToField, Proj.name]
      rw [lambert_bwd a5 a6, a2, hR, a3, a4]; simp

theorem good_gnomonic (u v : ℝ) : ∃ a b c, ShownWell .gnomonic u v a b c := by
  obtain ⟨hn, hnn⟩ := gnomonic_norm u v
  have hp : (0:ℝ) ≤ u * u + v * v := add_nonneg (mul_self_nonneg u) (mul_self_nonneg v)
  refine ⟨u * (1 / Real.sqrt (1 + u * u + v * v)), v * (1 / Real.sqrt (1 + u * u + v * v)), -(1 / Real.sqrt (1 + u * u + v * v)),
    ?_, ?_, ?_, ?_, ?_⟩
  · simp only [fieldToDirCos, Proj.name]; rw [gnomonic_fwd]; simp
  · have e : 1 / Real.sqrt (1 + u * u + v * v) * (1 / Real.sqrt (1 + u * u + v * v)) * (1 + u * u + v * v) = 1 := by
      rw [div_mul_div_comm, hnn, one_mul, one_div_mul_cancel]
      rw [← hnn]; positivity
    unfold UnitDir; linear_combination e
  · simp only [Proj.Sees]; rw [neg_lt_zero]; positivity
  · refine ⟨Real.arctan (Real.sqrt (u * u + v * v)), Real.arctan_nonneg.mpr (Real.sqrt_nonneg _), ?_, ?_, ?_,
      1 / Real.sqrt (1 + u * u + v * v), by positivity, by ring, by ring⟩
    · linarith [Real.arctan_lt_pi_div_two (Real.sqrt (u * u + v * v)), Real.pi_pos]
    · rw [Real.cos_arctan, Real.sq_sqrt hp]; ring_nf
    · simp only [Proj.radius, Real.tan_arctan]
  · have hne : -(1 / Real.sqrt (1 + u * u + v * v)) ≠ 0 := by
      rw [neg_ne_zero]; positivity
    simp only [dirCosToField, Proj.name, dirCosToGnomonic, Dbl.neg_fin, Dbl.div_fin hne]
    have e : ∀ x : ℝ, -(x * (1 / Real.sqrt (1 + u * u + v * v))) / -(1 / Real.sqrt (1 + u * u + v * v)) = x := by
      intro x; field_simp
    rw [e, e]; simp

theorem good_zemax {u v : ℝ} (h : Proj.zemax.Field u v) : ∃ a b c, ShownWell .zemax u v a b c := by
  obtain ⟨hu, hv⟩ := h
  obtain ⟨hn, hnn⟩ := gnomonic_norm (Real.tan u) (Real.tan v)
  have hat : ∀ x : ℝ, |x| < Real.pi / 2 → Real.arctan (Real.tan x) = x := fun x hx =>
    Real.arctan_tan (by linarith [neg_abs_le x]) (by linarith [le_abs_self x])
  generalize hN : Real.sqrt (1 + Real.tan u * Real.tan u + Real.tan v * Real.tan v) = N at hn hnn
  refine ⟨Real.tan u / N, Real.tan v / N, -1 / N, ?_, ?_, ?_, ?_, ?_⟩
  · simp only [fieldToDirCos, Proj.name]; rw [zemax_fwd (cos_ne_of_abs hu) (cos_ne_of_abs hv), hN]; simp
  · unfold UnitDir; field_simp; rw [sq N, hnn]; ring
  · simp only [Proj.Sees]; exact div_neg_of_neg_of_pos (by norm_num) hn
  · constructor
    · field_simp
    · field_simp
  · have hne : -1 / N ≠ 0 := (div_neg_of_neg_of_pos (by norm_num) hn).ne
    have e : ∀ x : ℝ, -(x / N) / (-1 / N) = x := by intro x; field_simp
    simp only [dirCosToField, Proj.name, dirCosToZemax, Dbl.neg_fin, Dbl.div_fin hne, Dbl.atan_fin]
    rw [e, e, hat u hu, hat v hv]; simp

theorem good_orthographic {u v : ℝ} (h : Proj.orthographic.Field u v) : ∃ a b c, ShownWell .orthographic u v a b c := by
  have hp : (0:ℝ) ≤ u * u + v * v := add_nonneg (mul_self_nonneg u) (mul_self_nonneg v)
  have h1 : Real.sqrt (u * u + v * v) ≤ 1 := by rw [← Real.sqrt_one]; exact Real.sqrt_le_sqrt h
  have h2 : -1 ≤ Real.sqrt (u * u + v * v) := by linarith [Real.sqrt_nonneg (u * u + v * v)]
  have h3 : 0 ≤ 1 - (u * u + v * v) := by simp only [Proj.Field] at h; linarith
  refine ⟨u, v, -Real.sqrt (1 - (u * u + v * v)), ?_, ?_, ?_, ?_, ?_⟩
  · simp only [fieldToDirCos, Proj.name]; rw [orthographic_fwd h]; simp
  · unfold UnitDir
    rw [neg_mul_neg, Real.mul_self_sqrt h3]; ring
  · simp only [Proj.Sees]; linarith [Real.sqrt_nonneg (1 - (u * u + v * v))]
  · refine ⟨Real.arcsin (Real.sqrt (u * u + v * v)), Real.arcsin_nonneg.mpr (Real.sqrt_nonneg _), ?_, ?_, ?_, 1, one_pos, by ring, by ring⟩
    · linarith [Real.arcsin_le_pi_div_two (Real.sqrt (u * u + v * v)), Real.pi_pos]
    · rw [Real.cos_arcsin, Real.sq_sqrt hp]
    · simp only [Proj.radius, Real.sin_arcsin h2 h1]
  · simp only [dirCosToField, Proj.name, dirCosToOrthographic]; simp

/-- **C59**: on the natural domain of each projection the forward map gives a unit vector, the one its textbook law
prescribes, and the inverse map takes it back to the same field point. -/
theorem C59_there_and_back (p : Proj) (u v : ℝ) (h : p.Field u v) : ∃ a b c,
    fieldToDirCos (Dbl.fin u) (Dbl.fin v) p.name = .ok (Dbl.fin a, Dbl.fin b, Dbl.fin c) ∧ UnitDir a b c ∧ p.Sees c ∧
      p.Shows u v a b c ∧ dirCosToField (Dbl.fin a) (Dbl.fin b) (Dbl.fin c) p.name = .ok (Dbl.fin u, Dbl.fin v) := by
  cases p
  · exact good_postel h
  · exact good_zemax h
  · exact good_gnomonic u v
  · exact good_stereographic u v
  · exact good_lambert h
  · exact good_orthographic h

/-- **C59**: the centre of every field is the direction straight down. -/
theorem C59_centre (p : Proj) : fieldToDirCos (Dbl.fin 0) (Dbl.fin 0) p.name = .ok (Dbl.fin 0, Dbl.fin 0, Dbl.fin (-1)) := by
  have hF : p.Field 0 0 := by
    cases p <;> simp [Proj.Field, Real.pi_pos]
  obtain ⟨a, b, c, h1, hU, hS, hL, _⟩ := C59_there_and_back p 0 0 hF
  rw [h1]
  have hab : a = 0 ∧ b = 0 := by
    cases p <;> simp only [Proj.Shows, mul_zero, Real.tan_zero] at hL <;>
      first | exact hL | (obtain ⟨_, _, _, _, _, _, _, ha, hb⟩ := hL; exact ⟨ha, hb⟩)
  obtain ⟨rfl, rfl⟩ := hab
  have hc : c = -1 := by
    unfold UnitDir at hU
    have hcc : (c - 1) * (c + 1) = 0 := by linear_combination hU
    rcases mul_eq_zero.mp hcc with h | h
    · exfalso
      have : c = 1 := by linarith
      subst this
      cases p <;> simp only [Proj.Sees] at hS <;> linarith
    · linarith
  rw [hc]

/-! ## From directions to the field and back -/

theorem back_az {fwd : Dbl → Dbl → Dbl × Dbl × Dbl} {bwd : Dbl → Dbl → Dbl → Dbl × Dbl} {a b c : ℝ} (rad ang : ℝ → ℝ)
    (h : UnitDir a b c) (hc : -1 < c) (hc1 : c < 1) (hR : 0 < rad (Real.arccos (-c)))
    (hang : ang (rad (Real.arccos (-c))) = Real.arccos (-c))
    (hf : ∀ u v : ℝ, u * u + v * v = rad (Real.arccos (-c)) * rad (Real.arccos (-c)) →
      fwd (Dbl.fin u) (Dbl.fin v) = (Dbl.fin (u / Real.sqrt (u * u + v * v) * Real.sin (ang (Real.sqrt (u * u + v * v)))),
        Dbl.fin (v / Real.sqrt (u * u + v * v) * Real.sin (ang (Real.sqrt (u * u + v * v)))),
        Dbl.fin (-Real.cos (ang (Real.sqrt (u * u + v * v))))))
    (hb : bwd (Dbl.fin a) (Dbl.fin b) (Dbl.fin c) = (Dbl.fin (a * rad (Real.arccos (-c)) / Real.sin (Real.arccos (-c))),
        Dbl.fin (b * rad (Real.arccos (-c)) / Real.sin (Real.arccos (-c))))) :
    ∃ u v, bwd (Dbl.fin a) (Dbl.fin b) (Dbl.fin c) = (Dbl.fin u, Dbl.fin v) ∧
      u * u + v * v = rad (Real.arccos (-c)) * rad (Real.arccos (-c)) ∧
      fwd (Dbl.fin u) (Dbl.fin v) = (Dbl.fin a, Dbl.fin b, Dbl.fin c) := by
  obtain ⟨h1, h2, h3, h4, h5, h6, h7⟩ := az_back h hc hc1 hR
  refine ⟨_, _, hb, h1, ?_⟩
  rw [hf _ _ h1, h1, Real.sqrt_mul_self hR.le, hang, h3, h4, h5]

/-- The whole of the backward half. -/
def ShownBack (p : Proj) (a b c : ℝ) : Prop :=
  ∃ u v, dirCosToField (Dbl.fin a) (Dbl.fin b) (Dbl.fin c) p.name = .ok (Dbl.fin u, Dbl.fin v) ∧ p.Field u v ∧
    fieldToDirCos (Dbl.fin u) (Dbl.fin v) p.name = .ok (Dbl.fin a, Dbl.fin b, Dbl.fin c)

theorem back_centre (p : Proj) (hF : p.Field 0 0)
    (h : dirCosToField (Dbl.fin 0) (Dbl.fin 0) (Dbl.fin (-1)) p.name = .ok (Dbl.fin 0, Dbl.fin 0)) : ShownBack p 0 0 (-1) :=
  ⟨0, 0, h, hF, C59_centre p⟩

theorem back_postel {a b c : ℝ} (h : UnitDir a b c) (hc1 : c < 1) : ShownBack .postel a b c := by
  by_cases hc : -1 < c
  · have hθ : 0 < Real.arccos (-c) := Real.arccos_pos.mpr (by linarith)
    obtain ⟨u, v, e1, e2, e3⟩ := back_az (fwd := postelToDirCos) (bwd := dirCosToPostel) (fun θ => θ) (fun ρ => ρ) h hc hc1 hθ rfl
      (fun u v huv => postel_fwd (by rw [huv]; positivity)) (postel_bwd hc hc1)
    have hlt := (az_back h hc hc1 hθ).2.2.2.2.2.2
    refine ⟨u, v, ?_, ?_, ?_⟩
    · simp only [dirCosToField, Proj.name, if_true, e1]
    · simp only [Proj.Field]; rw [e2]; nlinarith
    · simp only [fieldToDirCos, Proj.name, if_true, e3]
  · obtain ⟨rfl, rfl, rfl⟩ := sees_zero h hc
    exact back_centre _ (by simp [Proj.Field, Real.pi_pos]) (by simp [dirCosToField, Proj.name, dirCosToPostel])

theorem back_stereographic {a b c : ℝ} (h : UnitDir a b c) (hc1 : c < 1) : ShownBack .stereographic a b c := by
  by_cases hc : -1 < c
  · obtain ⟨_, _, _, _, _, hθ, hlt⟩ := az_back h hc hc1 one_pos
    obtain ⟨hcp, hsp⟩ := half_angle hθ hlt
    have hR : 0 < 2 * Real.tan (Real.arccos (-c) / 2) := by
      rw [Real.tan_eq_sin_div_cos]; positivity
    obtain ⟨u, v, e1, e2, e3⟩ := back_az (fwd := stereographicToDirCos) (bwd := dirCosToStereographic) (fun θ => 2 * Real.tan (θ / 2))
      (fun ρ => 2 * Real.arctan (ρ / 2)) h hc hc1 hR
      (by
        show _ = _
        rw [mul_div_cancel_left₀ _ two_ne_zero, Real.arctan_tan (by linarith) (by linarith)]; ring)
      (fun u v huv => stereographic_fwd (by rw [huv]; positivity)) (stereographic_bwd hc hc1)
    refine ⟨u, v, ?_, trivial, ?_⟩
    · simp only [dirCosToField, Proj.name, e1]; simp
    · simp only [fieldToDirCos, Proj.name, e3]; simp
  · obtain ⟨rfl, rfl, rfl⟩ := sees_zero h hc
    exact back_centre _ trivial (by simp [dirCosToField, Proj.name, dirCosToStereographic])

theorem back_lambert {a b c : ℝ} (h : UnitDir a b c) (hc1 : c < 1) : ShownBack .lambert a b c := by
  by_cases hc : -1 < c
  · obtain ⟨_, _, _, _, hcos, hθ, hlt⟩ := az_back h hc hc1 one_pos
    obtain ⟨hcp, hsp⟩ := half_angle hθ hlt
    have hR : 0 < 2 * Real.sin (Real.arccos (-c) / 2) := by positivity
    have hRR : 2 * Real.sin (Real.arccos (-c) / 2) * (2 * Real.sin (Real.arccos (-c) / 2)) = 2 + 2 * c := by
      have h1 := Real.cos_two_mul (Real.arccos (-c) / 2)
      rw [show 2 * (Real.arccos (-c) / 2) = Real.arccos (-c) by ring, Real.cos_sq'] at h1
      nlinarith
    obtain ⟨u, v, e1, e2, e3⟩ := back_az (fwd := lambertToDirCos) (bwd := dirCosToLambert) (fun θ => 2 * Real.sin (θ / 2))
      (fun ρ => Real.arccos ((2 - ρ * ρ) / 2)) h hc hc1 hR
      (by
        show _ = _
        rw [hRR]; congr 1; ring)
      (fun u v huv => lambert_fwd (by rw [huv]; positivity) (by rw [huv, hRR]; linarith)) (lambert_bwd hc hc1)
    refine ⟨u, v, ?_, ?_, ?_⟩
    · simp only [dirCosToField, Proj.name, e1]; simp
    · simp only [Proj.Field]; rw [e2, hRR]; linarith
    · simp only [fieldToDirCos, Proj.name, e3]; simp
  · obtain ⟨rfl, rfl, rfl⟩ := sees_zero h hc
    exact back_centre _ (by simp [Proj.Field]) (by simp [dirCosToField, Proj.name, dirCosToLambert])

theorem back_norm {a b c : ℝ} (h : UnitDir a b c) (hc : c < 0) :
    Real.sqrt (1 + -a / c * (-a / c) + -b / c * (-b / c)) = 1 / -c := by
  have hn : 0 < -c := by linarith
  have hne : c ≠ 0 := hc.ne
  rw [← Real.sqrt_mul_self (show 0 ≤ 1 / -c by positivity)]
  congr 1
  field_simp
  unfold UnitDir at h
  linear_combination h

theorem back_gnomonic {a b c : ℝ} (h : UnitDir a b c) (hc : c < 0) : ShownBack .gnomonic a b c := by
  have hne : c ≠ 0 := hc.ne
  refine ⟨-a / c, -b / c, ?_, trivial, ?_⟩
  · simp [dirCosToField, Proj.name, dirCosToGnomonic, Dbl.div_fin hne]
  · simp only [fieldToDirCos, Proj.name]
    rw [gnomonic_fwd, back_norm h hc]
    have e1 : ∀ x : ℝ, -x / c * (1 / (1 / -c)) = x := by intro x; field_simp
    have e2 : -(1 / (1 / -c)) = c := by field_simp
    rw [e1, e1, e2]; simp

theorem back_zemax {a b c : ℝ} (h : UnitDir a b c) (hc : c < 0) : ShownBack .zemax a b c := by
  have hne : c ≠ 0 := hc.ne
  have hF : ∀ x : ℝ, |Real.arctan x| < Real.pi / 2 := fun x =>
    abs_lt.mpr ⟨Real.neg_pi_div_two_lt_arctan x, Real.arctan_lt_pi_div_two x⟩
  refine ⟨Real.arctan (-a / c), Real.arctan (-b / c), ?_, ⟨hF _, hF _⟩, ?_⟩
  · simp [dirCosToField, Proj.name, dirCosToZemax, Dbl.div_fin hne]
  · simp only [fieldToDirCos, Proj.name]
    rw [zemax_fwd (Real.cos_arctan_pos _).ne' (Real.cos_arctan_pos _).ne', Real.tan_arctan, Real.tan_arctan, back_norm h hc]
    have e1 : ∀ x : ℝ, -x / c / (1 / -c) = x := by intro x; field_simp
    have e2 : -1 / (1 / -c) = c := by field_simp
    rw [e1, e1, e2]; simp

theorem back_orthographic {a b c : ℝ} (h : UnitDir a b c) (hc : c ≤ 0) : ShownBack .orthographic a b c := by
  unfold UnitDir at h
  have hF : a * a + b * b ≤ 1 := by nlinarith [mul_self_nonneg c]
  refine ⟨a, b, by simp [dirCosToField, Proj.name, dirCosToOrthographic], hF, ?_⟩
  simp only [fieldToDirCos, Proj.name]
  rw [orthographic_fwd hF, show 1 - (a * a + b * b) = -c * -c by linear_combination -h, Real.sqrt_mul_self (by linarith), neg_neg]
  simp

/-- **C59**: every unit vector the projection can show is taken to a point of its field, and the forward map takes it
back. -/
theorem C59_back_and_there (p : Proj) (a b c : ℝ) (h : UnitDir a b c) (hs : p.Sees c) :
    ∃ u v, dirCosToField (Dbl.fin a) (Dbl.fin b) (Dbl.fin c) p.name = .ok (Dbl.fin u, Dbl.fin v) ∧ p.Field u v ∧
      fieldToDirCos (Dbl.fin u) (Dbl.fin v) p.name = .ok (Dbl.fin a, Dbl.fin b, Dbl.fin c) := by
  cases p
  · exact back_postel h hs
  · exact back_zemax h hs
  · exact back_gnomonic h hs
  · exact back_stereographic h hs
  · exact back_lambert h hs
  · exact back_orthographic h hs

/-- **C59**: any other name raises ValueError, both ways, whatever the arithmetic. -/
theorem C59_unknown {F : Type} [Arith F] (name : String) (h : ∀ p : Proj, name ≠ p.name) (u v a b c : F) :
    fieldToDirCos u v name = .error .valueError ∧ dirCosToField a b c name = .error .valueError := by
  have h1 := h .postel
  have h2 := h .zemax
  have h3 := h .gnomonic
  have h4 := h .stereographic
  have h5 := h .lambert
  have h6 := h .orthographic
  simp only [Proj.name] at h1 h2 h3 h4 h5 h6
  simp [fieldToDirCos, dirCosToField, h1, h2, h3, h4, h5, h6]

/-- **C59**: the edge of the Lambert field is not in the domain: at radius 2 the forward map gives the top of the
sphere, where the inverse divides zero by zero. -/
theorem C59_lambert_edge :
    fieldToDirCos (Dbl.fin 2) (Dbl.fin 0) "lambert" = .ok (Dbl.fin 0, Dbl.fin 0, Dbl.fin 1) ∧
    dirCosToField (Dbl.fin 0) (Dbl.fin 0) (Dbl.fin 1) "lambert" = .ok (Dbl.nan, Dbl.nan) := by
  have h2 : Real.sqrt (2 * 2) = 2 := Real.sqrt_mul_self (by norm_num)
  constructor
  · have e : lambertToDirCos (Dbl.fin 2) (Dbl.fin 0) = (Dbl.fin 0, Dbl.fin 0, Dbl.fin 1) := by
      have a1 : (0:ℝ) ≤ 2 * 2 + 0 * 0 := by norm_num
      have a2 : (2:ℝ) * 2 + 0 * 0 ≠ 0 := by norm_num
      have a3 : (1:ℝ) - (2 - (2 * 2 + 0 * 0)) / 2 * ((2 - (2 * 2 + 0 * 0)) / 2) = 0 := by norm_num
      have a4 : Real.sqrt ((2:ℝ) * 2 + 0 * 0) = 2 := by rw [← h2]; norm_num
      simp only [lambertToDirCos, Dbl.mul_fin, Dbl.add_fin, Dbl.zero_dbl, Dbl.eq_fin, a2, decide_false, Bool.false_eq_true, if_false,
        Dbl.ofNat_dbl', Dbl.one_dbl, Dbl.sub_fin, Dbl.sqrt_fin a1, Dbl.div_fin two_ne_zero, a4, Dbl.neg_fin, a3,
        Dbl.sqrt_fin (le_refl (0:ℝ)), Real.sqrt_zero]
      norm_num
    simp [fieldToDirCos, e]
  · have e : dirCosToLambert (Dbl.fin 0) (Dbl.fin 0) (Dbl.fin 1) = (Dbl.nan, Dbl.nan) := by
      have a1 : (0:ℝ) ≤ 2 + 2 * 1 := by norm_num
      have a2 : (1:ℝ) ≠ -1 := by norm_num
      have a3 : (1:ℝ) - 1 * 1 = 0 := by norm_num
      simp [dirCosToLambert, a2, Dbl.sqrt_fin a1, a3, Dbl.sqrt_fin (le_refl (0:ℝ))]
    simp [dirCosToField, e]

/-! ## Non-vacuity -/

example : Proj.lambert.Field 1 (1/2) ∧ Proj.postel.Field 1 2 ∧ Proj.zemax.Field 1 (-1) ∧ Proj.orthographic.Field (3/5) (4/5) := by
  refine ⟨by norm_num [Proj.Field], ?_, ?_, by norm_num [Proj.Field]⟩
  · have := Real.pi_gt_three
    simp only [Proj.Field]; nlinarith
  · have := Real.pi_gt_three
    constructor <;> norm_num <;> linarith

example : UnitDir (3/13) (4/13) (-12/13) ∧ ∀ p : Proj, p.Sees (-12/13) := by
  refine ⟨by norm_num [UnitDir], fun p => by cases p <;> norm_num [Proj.Sees]⟩

/-- Gnomonic: the field point (3/4, 0) is the direction (3/5, 0, -4/5). -/
example : fieldToDirCos (Dbl.fin (3/4)) (Dbl.fin 0) "gnomonic" = .ok (Dbl.fin (3/5), Dbl.fin 0, Dbl.fin (-4/5)) := by
  have h : Real.sqrt (1 + 3/4 * (3/4) + 0 * 0) = 5/4 := by
    rw [show (1 + 3/4 * (3/4) + 0 * 0 : ℝ) = 5/4 * (5/4) by norm_num, Real.sqrt_mul_self (by norm_num)]
  simp only [fieldToDirCos]
  rw [gnomonic_fwd, h]
  norm_num
  simp

end Batoid.Props
