import Mathlib.Analysis.Real.Sqrt
import Mathlib.Analysis.SpecialFunctions.Trigonometric.Basic
import Mathlib.Analysis.SpecialFunctions.Trigonometric.Inverse
import Mathlib.Analysis.SpecialFunctions.Trigonometric.Arctan

/-!
# Arithmetic: the parameter of the model and its exact instance

`Arith F` collects the operations of C `double` / numpy `float64` used by batoid
(`<cmath>` and numpy ufuncs).  It carries **no laws**, so theorems stated for
every `Arith F` hold for IEEE-754 doubles with rounding, NaN and signed zero.

`Dbl` is the exact instance: IEEE special values plus exact reals.
Simplifications of `Dbl` against IEEE-754: no rounding, no overflow, zero is
unsigned.
-/

namespace Batoid

/-- Operations of `double` used by batoid. No laws. -/
class Arith (F : Type) extends Add F, Sub F, Mul F, Div F, Neg F where
  /-- `std::sqrt` -/
  sqrt : F → F
  /-- `std::abs` / `std::fabs` -/
  abs : F → F
  /-- `std::hypot` -/
  hypot : F → F → F
  /-- `a < b` -/
  lt : F → F → Bool
  /-- `a <= b` -/
  le : F → F → Bool
  /-- `a == b` -/
  eq : F → F → Bool
  /-- literals -/
  const : ℚ → F
  /-- the quiet NaN -/
  nan : F
  /-- pi -/
  pi : F
  sin : F → F
  cos : F → F
  tan : F → F
  atan : F → F
  acos : F → F
  asin : F → F
  /-- `int(floor(x))` -/
  floor : F → ℤ

instance (priority := low) instOfNatArith {F : Type} [Arith F] (n : ℕ) : OfNat F n :=
  ⟨Arith.const (n : ℚ)⟩

namespace Arith
variable {F : Type} [Arith F]

/-- `std::max(a,b)` is specified as `(a < b) ? b : a`. -/
def max (a b : F) : F := if lt a b then b else a
/-- `std::min(a,b)` is specified as `(b < a) ? b : a`. -/
def min (a b : F) : F := if lt b a then b else a
/-- `std::isnan` -/
def isNaN (a : F) : Bool := !(eq a a)
/-- `a > b` -/
def gt (a b : F) : Bool := lt b a
/-- `a >= b` -/
def ge (a b : F) : Bool := le b a
/-- `x*x` written out as the code does. -/
def sq (a : F) : F := a * a

end Arith

/-- The ideal double. -/
inductive Dbl where
  | nan
  | pinf
  | ninf
  | fin (r : ℝ)

namespace Dbl

noncomputable section
open Classical

def neg : Dbl → Dbl
  | nan => nan
  | pinf => ninf
  | ninf => pinf
  | fin r => fin (-r)

def add : Dbl → Dbl → Dbl
  | fin a, fin b => fin (a + b)
  | nan, _ => nan
  | _, nan => nan
  | pinf, ninf => nan
  | ninf, pinf => nan
  | pinf, _ => pinf
  | ninf, _ => ninf
  | _, pinf => pinf
  | _, ninf => ninf

def sub (a b : Dbl) : Dbl := add a (neg b)

/-- Sign times infinity. -/
def infMul (r : ℝ) : Dbl := if r = 0 then nan else if 0 < r then pinf else ninf

def mul : Dbl → Dbl → Dbl
  | fin a, fin b => fin (a * b)
  | nan, _ => nan
  | _, nan => nan
  | fin a, pinf => infMul a
  | fin a, ninf => infMul (-a)
  | pinf, fin a => infMul a
  | ninf, fin a => infMul (-a)
  | pinf, pinf => pinf
  | ninf, ninf => pinf
  | pinf, ninf => ninf
  | ninf, pinf => ninf

def div : Dbl → Dbl → Dbl
  | fin a, fin b => if b = 0 then infMul a else fin (a / b)
  | nan, _ => nan
  | _, nan => nan
  | fin _, pinf => fin 0
  | fin _, ninf => fin 0
  | pinf, fin b => if 0 ≤ b then pinf else ninf
  | ninf, fin b => if 0 ≤ b then ninf else pinf
  | _, _ => nan

def sqrt : Dbl → Dbl
  | nan => nan
  | pinf => pinf
  | ninf => nan
  | fin r => if r < 0 then nan else fin (Real.sqrt r)

def abs : Dbl → Dbl
  | nan => nan
  | pinf => pinf
  | ninf => pinf
  | fin r => fin |r|

def hypot : Dbl → Dbl → Dbl
  | fin a, fin b => fin (Real.sqrt (a * a + b * b))
  | pinf, _ => pinf
  | ninf, _ => pinf
  | _, pinf => pinf
  | _, ninf => pinf
  | _, _ => nan

def lt : Dbl → Dbl → Bool
  | fin a, fin b => decide (a < b)
  | nan, _ => false
  | _, nan => false
  | pinf, _ => false
  | _, ninf => false
  | ninf, _ => true
  | _, pinf => true

def le : Dbl → Dbl → Bool
  | fin a, fin b => decide (a ≤ b)
  | nan, _ => false
  | _, nan => false
  | _, pinf => true
  | ninf, _ => true
  | pinf, _ => false
  | _, ninf => false

def eq : Dbl → Dbl → Bool
  | fin a, fin b => decide (a = b)
  | pinf, pinf => true
  | ninf, ninf => true
  | _, _ => false

/-- A function of a real argument, NaN off its domain and at special values. -/
def lift1 (dom : ℝ → Prop) (f : ℝ → ℝ) : Dbl → Dbl
  | fin r => if dom r then fin (f r) else nan
  | _ => nan

def atan : Dbl → Dbl
  | nan => nan
  | pinf => fin (Real.pi / 2)
  | ninf => fin (-(Real.pi / 2))
  | fin r => fin (Real.arctan r)

/-- `int(floor x)`; for NaN and infinities the x86 conversion yields `INT_MIN`. -/
def floor : Dbl → ℤ
  | fin r => ⌊r⌋
  | _ => -2147483648

instance : Arith Dbl where
  add := add
  sub := sub
  mul := mul
  div := div
  neg := neg
  sqrt := sqrt
  abs := abs
  hypot := hypot
  lt := lt
  le := le
  eq := eq
  const q := fin (q : ℝ)
  nan := nan
  pi := fin Real.pi
  sin := lift1 (fun _ => True) Real.sin
  cos := lift1 (fun _ => True) Real.cos
  tan := lift1 (fun r => Real.cos r ≠ 0) Real.tan
  atan := atan
  acos := lift1 (fun r => -1 ≤ r ∧ r ≤ 1) Real.arccos
  asin := lift1 (fun r => -1 ≤ r ∧ r ≤ 1) Real.arcsin
  floor := floor

/-! ### simp calculus on finite values -/

@[simp] theorem fin_inj {a b : ℝ} : fin a = fin b ↔ a = b := by
  constructor
  · intro h; injection h
  · rintro rfl; rfl

@[simp] theorem fin_ne_nan (a : ℝ) : fin a ≠ nan := by intro h; cases h
@[simp] theorem nan_ne_fin (a : ℝ) : nan ≠ fin a := by intro h; cases h

@[simp] theorem add_fin (a b : ℝ) : fin a + fin b = fin (a + b) := rfl
@[simp] theorem neg_fin (a : ℝ) : -fin a = fin (-a) := rfl
@[simp] theorem sub_fin (a b : ℝ) : fin a - fin b = fin (a - b) := by
  show add (fin a) (neg (fin b)) = _
  simp [add, neg, sub_eq_add_neg]
@[simp] theorem mul_fin (a b : ℝ) : fin a * fin b = fin (a * b) := rfl
theorem div_fin' (a b : ℝ) : fin a / fin b = if b = 0 then infMul a else fin (a / b) := rfl
@[simp] theorem div_fin {a b : ℝ} (h : b ≠ 0) : fin a / fin b = fin (a / b) := by
  simp [div_fin', h]
@[simp] theorem zero_div_zero : fin 0 / fin 0 = nan := by simp [div_fin', infMul]
theorem pos_div_zero {a : ℝ} (h : 0 < a) : fin a / fin 0 = pinf := by
  simp [div_fin', infMul, h, h.ne']
theorem neg_div_zero {a : ℝ} (h : a < 0) : fin a / fin 0 = ninf := by
  simp [div_fin', infMul, h.ne, not_lt.mpr h.le]

theorem sqrt_fin' (a : ℝ) : Arith.sqrt (fin a) = if a < 0 then nan else fin (Real.sqrt a) := rfl
@[simp] theorem sqrt_fin {a : ℝ} (h : 0 ≤ a) : Arith.sqrt (fin a) = fin (Real.sqrt a) := by
  simp [sqrt_fin', not_lt.mpr h]
theorem sqrt_fin_neg {a : ℝ} (h : a < 0) : Arith.sqrt (fin a) = nan := by
  simp [sqrt_fin', h]
@[simp] theorem abs_fin (a : ℝ) : Arith.abs (fin a) = fin |a| := rfl
@[simp] theorem hypot_fin (a b : ℝ) :
    Arith.hypot (fin a) (fin b) = fin (Real.sqrt (a * a + b * b)) := rfl
@[simp] theorem lt_fin (a b : ℝ) : Arith.lt (fin a) (fin b) = decide (a < b) := rfl
@[simp] theorem le_fin (a b : ℝ) : Arith.le (fin a) (fin b) = decide (a ≤ b) := rfl
@[simp] theorem gt_fin (a b : ℝ) : Arith.gt (fin a) (fin b) = decide (b < a) := rfl
@[simp] theorem ge_fin (a b : ℝ) : Arith.ge (fin a) (fin b) = decide (b ≤ a) := rfl
@[simp] theorem eq_fin (a b : ℝ) : Arith.eq (fin a) (fin b) = decide (a = b) := rfl
@[simp] theorem const_dbl (q : ℚ) : (Arith.const q : Dbl) = fin (q : ℝ) := rfl
theorem ofNat_dbl (n : ℕ) : (OfNat.ofNat n : Dbl) = fin (n : ℝ) := by
  show fin (((n : ℕ) : ℚ) : ℝ) = _
  simp
@[simp] theorem zero_dbl : (0 : Dbl) = fin 0 := by simpa using ofNat_dbl 0
@[simp] theorem one_dbl : (1 : Dbl) = fin 1 := by simpa using ofNat_dbl 1
@[simp] theorem ofNat_dbl' (n : ℕ) [n.AtLeastTwo] :
    (OfNat.ofNat n : Dbl) = fin (OfNat.ofNat n : ℝ) := ofNat_dbl n
@[simp] theorem nan_def : (Arith.nan : Dbl) = nan := rfl
@[simp] theorem pi_def : (Arith.pi : Dbl) = fin Real.pi := rfl
@[simp] theorem sin_fin (a : ℝ) : Arith.sin (fin a) = fin (Real.sin a) := by
  show lift1 _ _ _ = _; simp [lift1]
@[simp] theorem cos_fin (a : ℝ) : Arith.cos (fin a) = fin (Real.cos a) := by
  show lift1 _ _ _ = _; simp [lift1]
theorem tan_fin {a : ℝ} (h : Real.cos a ≠ 0) : Arith.tan (fin a) = fin (Real.tan a) := by
  show lift1 _ _ _ = _; simp [lift1, h]
@[simp] theorem atan_fin (a : ℝ) : Arith.atan (fin a) = fin (Real.arctan a) := rfl
theorem acos_fin {a : ℝ} (h : -1 ≤ a ∧ a ≤ 1) :
    Arith.acos (fin a) = fin (Real.arccos a) := by
  show lift1 _ _ _ = _; simp [lift1, h]
theorem asin_fin {a : ℝ} (h : -1 ≤ a ∧ a ≤ 1) :
    Arith.asin (fin a) = fin (Real.arcsin a) := by
  show lift1 _ _ _ = _; simp [lift1, h]
@[simp] theorem floor_fin (a : ℝ) : Arith.floor (fin a) = ⌊a⌋ := rfl

@[simp] theorem isNaN_fin (a : ℝ) : Arith.isNaN (fin a) = false := by simp [Arith.isNaN]
@[simp] theorem isNaN_nan : Arith.isNaN (nan : Dbl) = true := rfl

theorem max_fin (a b : ℝ) : Arith.max (fin a) (fin b) = fin (Max.max a b) := by
  unfold Arith.max
  by_cases h : a < b
  · simp [h, max_eq_right h.le]
  · simp [h, max_eq_left (not_lt.mp h)]
theorem min_fin (a b : ℝ) : Arith.min (fin a) (fin b) = fin (Min.min a b) := by
  unfold Arith.min
  by_cases h : b < a
  · simp [h, min_eq_right h.le]
  · simp [h, min_eq_left (not_lt.mp h)]

/-! ### NaN propagation -/

@[simp] theorem nan_add (a : Dbl) : nan + a = nan := by cases a <;> rfl
@[simp] theorem add_nan (a : Dbl) : a + nan = nan := by cases a <;> rfl
@[simp] theorem nan_sub (a : Dbl) : nan - a = nan := by cases a <;> rfl
@[simp] theorem sub_nan (a : Dbl) : a - nan = nan := by cases a <;> rfl
@[simp] theorem nan_mul (a : Dbl) : nan * a = nan := by cases a <;> rfl
@[simp] theorem mul_nan (a : Dbl) : a * nan = nan := by cases a <;> rfl
@[simp] theorem nan_div (a : Dbl) : nan / a = nan := by cases a <;> rfl
@[simp] theorem div_nan (a : Dbl) : a / nan = nan := by cases a <;> rfl
@[simp] theorem neg_nan : -nan = nan := rfl
@[simp] theorem sqrt_nan : Arith.sqrt nan = nan := rfl
@[simp] theorem abs_nan : Arith.abs nan = nan := rfl
@[simp] theorem lt_nan (a : Dbl) : Arith.lt a nan = false := by cases a <;> rfl
@[simp] theorem nan_lt (a : Dbl) : Arith.lt nan a = false := by cases a <;> rfl
@[simp] theorem le_nan (a : Dbl) : Arith.le a nan = false := by cases a <;> rfl
@[simp] theorem nan_le (a : Dbl) : Arith.le nan a = false := by cases a <;> rfl
@[simp] theorem eq_nan (a : Dbl) : Arith.eq a nan = false := by cases a <;> rfl
@[simp] theorem nan_eq (a : Dbl) : Arith.eq nan a = false := by cases a <;> rfl

/-- The value is a finite number. -/
def IsFin (a : Dbl) : Prop := ∃ r, a = fin r

@[simp] theorem isFin_fin (r : ℝ) : IsFin (fin r) := ⟨r, rfl⟩
@[simp] theorem not_isFin_nan : ¬ IsFin nan := by rintro ⟨r, h⟩; cases h

end

end Dbl
end Batoid
