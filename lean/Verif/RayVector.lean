import Verif.Ray
import Verif.Py

/-!
# Indexing, joining and comparing ray vectors

`batoid/rayVector.py` L1179-1375 and `src/rayVector.cpp` L224-238, `src/dualView.cpp` L47-68.  The eleven arrays of a
`RayVector` always have the same length and are indexed together, so they are modelled as one list of rays.
-/

namespace Batoid

namespace Py

/-- `slice.indices`: CPython's `PySlice_AdjustIndices`, used by numpy for basic slicing.  Returns the first index, the
end and the step. -/
def adjustIndices (n : ℤ) (start stop : Option ℤ) (step : ℤ) : ℤ × ℤ :=
  let lower : ℤ := if step < 0 then -1 else 0
  let upper : ℤ := if step < 0 then n - 1 else n
  let clip (i : ℤ) : ℤ := if i < 0 then max (i + n) lower else min i upper
  (match start with
    | none => if step < 0 then upper else lower
    | some s => clip s,
   match stop with
    | none => if step < 0 then lower else upper
    | some s => clip s)

/-- Length of `range(start, stop, step)`. -/
def rangeLen (start stop step : ℤ) : ℕ :=
  if 0 < step then (if start < stop then ((stop - start - 1) / step + 1).toNat else 0)
  else (if stop < start then ((start - stop - 1) / (-step) + 1).toNat else 0)

/-- `range(start, stop, step)`. -/
def range (start stop step : ℤ) : List ℤ := (List.range (rangeLen start stop step)).map fun k : ℕ => start + (k : ℤ) * step

/-- `l[start:stop:step]` for lists and one dimensional arrays. -/
def slice {α : Type} (l : List α) (start stop step : Option ℤ) : Except PyErr (List α) :=
  let st := step.getD 1
  if st = 0 then .error .valueError
  else
    let (a, b) := adjustIndices l.length start stop st
    .ok ((range a b st).filterMap fun i => l[i.toNat]?)

/-- numpy boolean mask indexing: the lengths have to agree. -/
def mask {α : Type} (l : List α) (m : List Bool) : Except PyErr (List α) :=
  if m.length = l.length then .ok (((l.zip m).filter (·.2)).map (·.1)) else .error .indexError

/-- numpy integer array indexing: negative entries count from the end, entries out of range raise. -/
def fancy {α : Type} (l : List α) : List ℤ → Except PyErr (List α)
  | [] => .ok []
  | i :: is =>
    match l[(if i < 0 then i + l.length else i).toNat]?, decide (-(l.length : ℤ) ≤ i), fancy l is with
    | some a, true, .ok as => .ok (a :: as)
    | _, _, _ => .error .indexError

end Py

/-- What may stand between the brackets of `rv[...]` (a numpy integer scalar, for which the arrays of the result would
be zero dimensional, is not modelled). -/
inductive Index where
  | int (i : ℤ)
  | slice (start stop step : Option ℤ)
  | mask (m : List Bool)
  | fancy (is : List ℤ)

namespace RayVec
variable {F : Type} [Arith F]

/-- `RayVector.__getitem__`: batoid/rayVector.py L1320-1349; L1328 and L1334 turn an integer into a slice. -/
def getItem (rv : RayVec F) : Index → Except PyErr (RayVec F)
  | .int i =>
    let n : ℤ := rv.rays.length
    if 0 ≤ i then
      if n ≤ i then .error .indexError
      else (Py.slice rv.rays (some i) (some (i + 1)) none).map fun l => ⟨l, rv.coordSys⟩
    else
      if i < -n then .error .indexError
      else (Py.slice rv.rays (some (n + i)) (some (n - i + 1)) none).map fun l => ⟨l, rv.coordSys⟩
  | .slice a b s => (Py.slice rv.rays a b s).map fun l => ⟨l, rv.coordSys⟩
  | .mask m => (Py.mask rv.rays m).map fun l => ⟨l, rv.coordSys⟩
  | .fancy is => (Py.fancy rv.rays is).map fun l => ⟨l, rv.coordSys⟩

/-- `concatenateRayVectors`: batoid/rayVector.py L1351-1365 (`np.hstack([])` raises `ValueError`). -/
def concatenate : List (RayVec F) → Except PyErr (RayVec F)
  | [] => .error .valueError
  | rv :: rvs => .ok ⟨(rv :: rvs).flatMap (·.rays), rv.coordSys⟩

/-- One row of the comparison of `RayVector::operator==`: src/rayVector.cpp L225-237. -/
def rayEq (a b : Ray F) : Bool :=
  Arith.eq a.r.x b.r.x && Arith.eq a.r.y b.r.y && Arith.eq a.r.z b.r.z &&
  Arith.eq a.v.x b.v.x && Arith.eq a.v.y b.v.y && Arith.eq a.v.z b.v.z &&
  Arith.eq a.t b.t && Arith.eq a.wavelength b.wavelength && Arith.eq a.flux b.flux &&
  (a.vignetted == b.vignetted) && (a.failed == b.failed)

/-- `rv1 == rv2`: batoid/rayVector.py L1292, src/rayVector.cpp L224-238, src/dualView.cpp L47-68.  The loop runs over
the length of the left operand; `none` when it reads past the end of the right one. -/
def eq (a b : RayVec F) : Option Bool :=
  if b.rays.length < a.rays.length then none else some ((a.rays.zip b.rays).all fun p => rayEq p.1 p.2)

/-- `RayVector.k`: batoid/rayVector.py L1179-1189. -/
def waveVector (ray : Ray F) : V3 F :=
  let s := V3.dot ray.v ray.v
  ⟨2 * Arith.pi * ray.v.x / ray.wavelength / s, 2 * Arith.pi * ray.v.y / ray.wavelength / s,
    2 * Arith.pi * ray.v.z / ray.wavelength / s⟩

/-- `RayVector.omega`: batoid/rayVector.py L1207-1212. -/
def omega (ray : Ray F) : F := 2 * Arith.pi / ray.wavelength

end RayVec
end Batoid
