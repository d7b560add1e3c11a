import Verif.Props.Normals

/-!
# `Surface.grad` (C22)

The gradient that `refractScreen` and users read is the derivative of the sag.
-/

namespace Batoid.Props
open Batoid Batoid.Surface

/-- C22: wherever the reported normal is the normal of the sag, `grad(x, y)` is finite and is the pair of partial derivatives of
the sag. -/
theorem C22_grad {s : Surface Dbl} {D : Set (ℝ × ℝ)} (h : TrueNormals s D) {x y : ℝ} (hp : (x, y) ∈ D) :
    ∃ gx gy : ℝ, s.grad (.fin x) (.fin y) = (.fin gx, .fin gy) ∧
      HasDerivAt (fun u => realOf (s.sag (.fin u) (.fin y))) gx x ∧ HasDerivAt (fun w => realOf (s.sag (.fin x) (.fin w))) gy y := by
  obtain ⟨n, hn, hN⟩ := h.normal (x, y) hp
  refine ⟨-n.x / n.z, -n.y / n.z, ?_, hN.slopes.1, hN.slopes.2⟩
  have hz := hN.upward.ne'
  simp only at hn
  unfold Surface.grad
  simp only [hn, V3.fin, V3.map]
  rw [if_neg (by simp [Arith.isNaN])]
  simp only [Dbl.neg_fin, Dbl.div_fin hz]

/-- The gradient of a paraboloid, from the theorem: `(x/R, y/R)`. -/
example {R : ℝ} (hR : R ≠ 0) (x y : ℝ) :
    (paraboloid (Dbl.fin R)).grad (.fin x) (.fin y) = (.fin (x / R), .fin (y / R)) := by
  obtain ⟨gx, gy, h, hx, hy⟩ := C22_grad (C22_paraboloid hR) (x := x) (y := y) trivial
  have e : ∀ u w : ℝ, realOf ((paraboloid (Dbl.fin R)).sag (.fin u) (.fin w)) = (u * u + w * w) * (1 / 2 / R) := fun u w => by
    show realOf (paraboloidSag _ _ _) = _
    rw [paraboloidSag_fin hR]; rfl
  simp only [e] at hx hy
  have d := radial_slopes (h := fun p => p * (1 / 2 / R)) (x := x) (y := y)
      (by simpa using (hasDerivAt_id (x * x + y * y)).mul_const (1 / 2 / R))
  rw [h, hx.unique d.1, hy.unique d.2]
  congr 2 <;> (field_simp)

/-- Outside a sphere's range the gradient is not a number. -/
theorem C22_grad_nan {s : Surface Dbl} {x y : Dbl} (h : (s.normal x y).x = .nan) : s.grad x y = (.nan, .nan) := by
  unfold Surface.grad
  simp [h, Arith.isNaN, Arith.nan]

end Batoid.Props
