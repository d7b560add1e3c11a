import Verif.Arith
import Verif.Py
import Mathlib.Tactic.FieldSimp
import Mathlib.Tactic.Ring

/-!
# The numpy functions used by the grid generators

numpy is not part of /repo; these definitions state what batoid is assumed to get from it (they follow
`numpy/_core/function_base.py`).  Arrays are lists.
-/

namespace Batoid.Numpy
open Arith
variable {F : Type} [Arith F]

/-- `np.linspace(start, stop, num, endpoint=endpoint)`. -/
def linspace (start stop : F) (num : ℤ) (endpoint : Bool) : Except PyErr (List F) :=
  if num < 0 then .error .valueError
  else
    let n := num.toNat
    let div := if endpoint then n - 1 else n
    let delta := stop - start
    let step := delta / const (div : ℚ)
    let y := (List.range n).map fun k : ℕ =>
      (if 0 < div then
        if eq step 0 then const (k : ℚ) / const (div : ℚ) * delta else const (k : ℚ) * step
      else const (k : ℚ) * delta) + start
    if endpoint && decide (1 < n) then .ok (y.dropLast ++ [stop]) else .ok y

/-- `int(x)` of a float that is a whole number, a NaN or infinite. -/
def toInt (x : F) : Except PyErr ℤ :=
  if isNaN x then .error .valueError
  else if isNaN (x - x) then .error .overflowError
  else .ok (floor x)

/-- `a // b` on floats, before it is made an integer: NaN and infinities pass through, the rest is floored. -/
def floorDiv (a b : F) : F :=
  let q := a / b
  if isNaN (q - q) then q else const (floor q : ℚ)

/-- `a[i : i+len(vs)] = vs` where the slice lies inside the array. -/
def setSlice {A : Type} (l : List A) (i : ℕ) (vs : List A) : List A := l.take i ++ vs ++ l.drop (i + vs.length)

/-- `a[-1] = v` of an array that is not empty. -/
def setLast {A : Type} (l : List A) (v : A) : List A := l.dropLast ++ [v]

/-- `np.arange(a, b)` of integers. -/
def arange (a b : ℤ) : List ℤ := (List.range (b - a).toNat).map fun k : ℕ => a + (k : ℤ)

/-- `np.fft.fftfreq(n, d)`: `numpy/fft/_helper.py`.  With `n = 0` the quotient `1.0/(n*d)` of Python floats raises, with `n < 0`
the allocation does. -/
def fftfreq (n : ℤ) (d : F) : Except PyErr (List F) :=
  if n = 0 then .error .zeroDivisionError
  else if n < 0 then .error .valueError
  else
    let val := 1 / (const (n : ℚ) * d)
    .ok ((arange 0 ((n - 1) / 2 + 1) ++ arange (-(n / 2)) 0).map fun k : ℤ => const (k : ℚ) * val)

/-- `np.roll(l, s)` for `0 ≤ s ≤ len(l)`. -/
def roll {A : Type} (l : List A) (s : ℕ) : List A := l.drop (l.length - s) ++ l.take (l.length - s)

/-- `np.fft.fftshift` of a one dimensional array. -/
def fftshift {A : Type} (l : List A) : List A := roll l (l.length / 2)

/-- `np.meshgrid(xs, ys)` followed by `ravel` of both arrays: the rows of the result belong to `ys`, the columns to `xs`. -/
def meshgrid {A B : Type} (xs : List A) (ys : List B) : List (A × B) := ys.flatMap fun y => xs.map fun x => (x, y)

/-- Two one dimensional arrays in one arithmetic operation: equal lengths, or one of length one. -/
def broadcast {A B C : Type} (f : A → B → C) (a : List A) (b : List B) : Except PyErr (List C) :=
  match a, b with
  | [x], b => .ok (b.map (f x))
  | a, [y] => .ok (a.map fun x => f x y)
  | a, b => if a.length = b.length then .ok (List.zipWith f a b) else .error .valueError

/-- `np.broadcast_to(a, (rows, cols))` of a one dimensional array, followed by `ravel`. -/
def broadcastTo {A : Type} (a : List A) (rows cols : ℕ) : Except PyErr (List A) :=
  if a.length = cols then .ok (List.replicate rows a).flatten
  else match a with
    | [x] => .ok (List.replicate (rows * cols) x)
    | _ => .error .valueError

/-! ### On finite values -/

theorem linspace_open {a b : ℝ} {n : ℕ} (hn : 0 < n) :
    linspace (Dbl.fin a) (Dbl.fin b) (n : ℤ) false = .ok ((List.range n).map fun k : ℕ => Dbl.fin (a + (k : ℝ) / (n : ℝ) * (b - a))) := by
  have hne : ((n : ℕ) : ℝ) ≠ 0 := by exact_mod_cast hn.ne'
  simp only [linspace, Int.toNat_natCast, Bool.false_and, Bool.false_eq_true, if_false, hn, if_true, Dbl.const_dbl, Rat.cast_natCast,
    Dbl.sub_fin, Dbl.div_fin hne, Dbl.zero_dbl, Dbl.eq_fin, decide_eq_true_eq, Dbl.mul_fin]
  rw [if_neg (by omega)]
  refine congrArg _ (List.map_congr_left fun k _ => ?_)
  split
  · rw [Dbl.add_fin, Dbl.fin_inj]; ring
  · rw [Dbl.add_fin, Dbl.fin_inj]; field_simp; ring

/-- One point: the start (when the stop is finite). -/
theorem linspace_single (a b : ℝ) : linspace (Dbl.fin a) (Dbl.fin b) 1 true = .ok [Dbl.fin a] := by
  simp [linspace]

theorem linspace_closed {a b : ℝ} {n : ℕ} (hn : 1 < n) :
    linspace (Dbl.fin a) (Dbl.fin b) (n : ℤ) true =
      .ok ((List.range n).map fun k : ℕ => Dbl.fin (a + (k : ℝ) / ((n : ℝ) - 1) * (b - a))) := by
  obtain ⟨m, rfl⟩ : ∃ m, n = m + 1 := ⟨n - 1, by omega⟩
  have hm : 0 < m := by omega
  have hne : ((m : ℕ) : ℝ) ≠ 0 := by exact_mod_cast hm.ne'
  simp only [linspace, Int.toNat_natCast, Bool.true_and, hn, decide_true, if_true, Nat.add_sub_cancel, hm, Dbl.const_dbl,
    Rat.cast_natCast, Dbl.sub_fin, Dbl.div_fin hne, Dbl.zero_dbl, Dbl.eq_fin, decide_eq_true_eq, Dbl.mul_fin]
  rw [if_neg (by omega), List.range_succ, List.map_append, List.map_append, List.map_singleton, List.map_singleton, List.dropLast_concat]
  have e : (((m + 1 : ℕ) : ℝ)) - 1 = m := by push_cast; ring
  rw [e, div_self hne]
  refine congrArg _ ?_
  congr 1
  · refine List.map_congr_left fun k _ => ?_
    split
    · rw [Dbl.add_fin, Dbl.fin_inj]; ring
    · rw [Dbl.add_fin, Dbl.fin_inj]; field_simp; ring
  · rw [List.cons.injEq, Dbl.fin_inj]; exact ⟨by ring, rfl⟩

theorem toInt_fin (a : ℝ) : toInt (Dbl.fin a) = .ok ⌊a⌋ := by simp [toInt]

theorem floorDiv_fin {a b : ℝ} (h : b ≠ 0) : floorDiv (Dbl.fin a) (Dbl.fin b) = Dbl.fin (⌊a / b⌋ : ℝ) := by
  simp [floorDiv, Dbl.div_fin h]

end Batoid.Numpy
