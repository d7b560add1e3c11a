import Verif.Vec
import Verif.CoordSys

/-!
# Arithmetic with rounding

`Flt rd` is the arithmetic of `double` in which every operation gives the exact result rounded by `rd`.  It is an instance of
`Arith`, so that every definition of the model can be run in it.

Simplifications against IEEE-754: no overflow, zero is unsigned; the functions of `<cmath>` are correctly rounded (as
`sqrt` is); the sums of numpy's `dot` are taken from left to right, as the loops of `src/batoid.cpp` do.
-/

namespace Batoid

/-- Numbers on which the operations round by `rd`. -/
structure Flt (rd : ℝ → ℝ) where
  val : Dbl

namespace Flt

noncomputable section
variable {rd : ℝ → ℝ}

/-- Rounding an exact result. -/
def rnd (rd : ℝ → ℝ) : Dbl → Flt rd
  | .fin r => ⟨.fin (rd r)⟩
  | d => ⟨d⟩

instance : Arith (Flt rd) where
  add a b := rnd rd (a.val + b.val)
  sub a b := rnd rd (a.val - b.val)
  mul a b := rnd rd (a.val * b.val)
  div a b := rnd rd (a.val / b.val)
  neg a := ⟨-a.val⟩
  sqrt a := rnd rd (Arith.sqrt a.val)
  abs a := ⟨Arith.abs a.val⟩
  hypot a b := rnd rd (Arith.hypot a.val b.val)
  lt a b := Arith.lt a.val b.val
  le a b := Arith.le a.val b.val
  eq a b := Arith.eq a.val b.val
  const q := rnd rd (Arith.const q)
  nan := ⟨Arith.nan⟩
  pi := rnd rd Arith.pi
  sin a := rnd rd (Arith.sin a.val)
  cos a := rnd rd (Arith.cos a.val)
  tan a := rnd rd (Arith.tan a.val)
  atan a := rnd rd (Arith.atan a.val)
  acos a := rnd rd (Arith.acos a.val)
  asin a := rnd rd (Arith.asin a.val)
  floor a := Arith.floor a.val

/-- A stored number. -/
def fin (rd : ℝ → ℝ) (r : ℝ) : Flt rd := ⟨.fin r⟩

@[simp] theorem fin_inj {a b : ℝ} : fin rd a = fin rd b ↔ a = b := by simp [fin]
@[simp] theorem add_fin (a b : ℝ) : fin rd a + fin rd b = fin rd (rd (a + b)) := rfl
@[simp] theorem sub_fin (a b : ℝ) : fin rd a - fin rd b = fin rd (rd (a - b)) := by
  show rnd rd (Dbl.fin a - Dbl.fin b) = _
  rw [Dbl.sub_fin]; rfl
@[simp] theorem mul_fin (a b : ℝ) : fin rd a * fin rd b = fin rd (rd (a * b)) := rfl
theorem div_fin {a b : ℝ} (h : b ≠ 0) : fin rd a / fin rd b = fin rd (rd (a / b)) := by
  show rnd rd (Dbl.fin a / Dbl.fin b) = _
  rw [Dbl.div_fin h]; rfl
@[simp] theorem neg_fin (a : ℝ) : -fin rd a = fin rd (-a) := rfl
theorem sqrt_fin {a : ℝ} (h : 0 ≤ a) : Arith.sqrt (fin rd a) = fin rd (rd (Real.sqrt a)) := by
  show rnd rd (Arith.sqrt (Dbl.fin a)) = _
  rw [Dbl.sqrt_fin h]; rfl
@[simp] theorem abs_fin (a : ℝ) : Arith.abs (fin rd a) = fin rd |a| := rfl
@[simp] theorem hypot_fin (a b : ℝ) : Arith.hypot (fin rd a) (fin rd b) = fin rd (rd (Real.sqrt (a * a + b * b))) := rfl
@[simp] theorem lt_fin (a b : ℝ) : Arith.lt (fin rd a) (fin rd b) = decide (a < b) := rfl
@[simp] theorem le_fin (a b : ℝ) : Arith.le (fin rd a) (fin rd b) = decide (a ≤ b) := rfl
@[simp] theorem gt_fin (a b : ℝ) : Arith.gt (fin rd a) (fin rd b) = decide (b < a) := rfl
@[simp] theorem ge_fin (a b : ℝ) : Arith.ge (fin rd a) (fin rd b) = decide (b ≤ a) := rfl
@[simp] theorem eq_fin (a b : ℝ) : Arith.eq (fin rd a) (fin rd b) = decide (a = b) := rfl
theorem const_fin (q : ℚ) : (Arith.const q : Flt rd) = fin rd (rd (q : ℝ)) := rfl
theorem ofNat_fin (n : ℕ) : (OfNat.ofNat n : Flt rd) = fin rd (rd (n : ℝ)) := by
  show rnd rd (Dbl.fin (((n : ℕ) : ℚ) : ℝ)) = _
  simp [rnd, fin]
@[simp] theorem sin_fin (a : ℝ) : Arith.sin (fin rd a) = fin rd (rd (Real.sin a)) := by
  show rnd rd (Arith.sin (Dbl.fin a)) = _
  rw [Dbl.sin_fin]; rfl
@[simp] theorem cos_fin (a : ℝ) : Arith.cos (fin rd a) = fin rd (rd (Real.cos a)) := by
  show rnd rd (Arith.cos (Dbl.fin a)) = _
  rw [Dbl.cos_fin]; rfl

end

end Flt

/-- Stored vectors, matrices and frames. -/
noncomputable def V3.flt (rd : ℝ → ℝ) (v : V3 ℝ) : V3 (Flt rd) := v.map (Flt.fin rd)
noncomputable def M3.flt (rd : ℝ → ℝ) (m : M3 ℝ) : M3 (Flt rd) := m.map (Flt.fin rd)
noncomputable def CoordSys.flt (rd : ℝ → ℝ) (c : CoordSys ℝ) : CoordSys (Flt rd) := ⟨c.origin.flt rd, c.rot.flt rd⟩

end Batoid
