import Verif.Surface
import Verif.Medium
import Verif.Obscuration
import Verif.Construct

/-!
# Arrays as memory

batoid hands arrays to its C++ code as bare addresses (`a.ctypes.data`).  The C++ code reads doubles one after the other from there
(`reinterpret_cast<double*>`, pysrc/asphere.cpp, pysrc/medium.cpp, pysrc/obscuration.cpp, pysrc/table.cpp, pysrc/rayVector.cpp,
pysrc/surface.cpp), whatever the element type, the strides and the length of the numpy array are.  Here an array is a view of a
memory block, as in numpy, so that what numpy calls element `i` and what C++ finds at `ptr[i]` can be compared.

Only element types of eight bytes are modelled: doubles and integers.  A python list is the array `np.array` makes of it: of integers
if all its elements are integers.  Memory blocks do not overlap.
-/

namespace Batoid.Buffers
open Arith
variable {F : Type}

/-- Eight bytes. -/
inductive Word (F : Type) where
  | f64 (x : F)
  | i64 (k : ℤ)

/-- The number that numpy finds in an element. -/
def Word.value [Arith F] : Word F → F
  | .f64 x => x
  | .i64 k => const (k : ℚ)

/-- What C++ finds there; `bits k` is the double with the bit pattern of the integer `k`. -/
def Word.asDouble (bits : ℤ → F) : Word F → F
  | .f64 x => x
  | .i64 k => bits k

/-- The word at an offset of a memory block, if it is inside of it. -/
def word (buf : List (Word F)) (k : ℤ) : Option (Word F) := if 0 ≤ k then buf[k.toNat]? else none

/-- A numpy array with one axis; the stride counts words. -/
structure View1 (F : Type) where
  buf : List (Word F)
  off : ℤ
  stride : ℤ
  len : ℕ
  /-- the element type is double, otherwise integer -/
  floats : Bool

/-- A numpy array with two axes. -/
structure View2 (F : Type) where
  buf : List (Word F)
  off : ℤ
  stride0 : ℤ
  stride1 : ℤ
  rows : ℕ
  cols : ℕ
  floats : Bool

namespace View1
variable [Arith F]

/-- `a[i]`. -/
def item (a : View1 F) (i : ℕ) : Option F := if i < a.len then (word a.buf (a.off + a.stride * i)).map Word.value else none

/-- `ptr[i]` in C++ with `ptr = a.ctypes.data`; `none` outside of the memory block. -/
def peek (bits : ℤ → F) (a : View1 F) (i : ℕ) : Option F := (word a.buf (a.off + i)).map (Word.asDouble bits)

/-- The elements, as python sees them. -/
def toList (a : View1 F) : List F := (List.range a.len).filterMap a.item

/-- `n` doubles read one after the other; `none` if one of them is outside of the block. -/
def fetch (bits : ℤ → F) (a : View1 F) (n : ℕ) : Option (List F) := (List.range n).mapM (a.peek bits)

/-- A new array of doubles. -/
def ofFloats (l : List F) : View1 F := ⟨l.map .f64, 0, 1, l.length, true⟩

/-- A new array of integers. -/
def ofInts (l : List ℤ) : View1 F := ⟨l.map .i64, 0, 1, l.length, false⟩

/-- `a[start : ... : step]` with `n` elements: another view of the same memory. -/
def slice (a : View1 F) (start step : ℤ) (n : ℕ) : View1 F :=
  { a with off := a.off + a.stride * start, stride := a.stride * step, len := n }

/-- `np.broadcast_to(a, n)` of an array with one element: a view with stride 0. -/
def broadcast (a : View1 F) (n : ℕ) : View1 F := { a with stride := 0, len := n }

/-- `np.array(a)`, `np.copy(a)`: a copy without gaps, of the same element type. -/
def copy (a : View1 F) : View1 F :=
  ⟨(List.range a.len).filterMap fun i : ℕ => word a.buf (a.off + a.stride * i), 0, 1, a.len, a.floats⟩

/-- `np.array(a, dtype=float, order='C')`: a copy without gaps, of doubles. -/
def floatCopy (a : View1 F) : View1 F := ofFloats a.toList

/-- No gaps between the elements. -/
def dense (a : View1 F) : Bool := decide (a.stride = 1 ∨ a.len ≤ 1)

/-- `np.ascontiguousarray(a)`: the array itself if it has no gaps. -/
def contiguous (a : View1 F) : View1 F := if a.dense then a else a.copy

/-- `np.ascontiguousarray(a, dtype=float)`, `np.asfortranarray(a, dtype=float)`. -/
def floatContiguous (a : View1 F) : View1 F := if a.floats && a.dense then a else a.floatCopy

/-- `a.astype(float, copy=False)`: the array itself if it holds doubles, with its gaps. -/
def astypeNoCopy (a : View1 F) : View1 F := if a.floats then a else a.floatCopy

end View1

namespace View2
variable [Arith F]

/-- `a[i, j]`. -/
def item (a : View2 F) (i j : ℕ) : Option F :=
  if i < a.rows ∧ j < a.cols then (word a.buf (a.off + a.stride0 * i + a.stride1 * j)).map Word.value else none

/-- `ptr[k]` in C++. -/
def peek (bits : ℤ → F) (a : View2 F) (k : ℕ) : Option F := (word a.buf (a.off + k)).map (Word.asDouble bits)

/-- The elements row by row. -/
def toList (a : View2 F) : List F :=
  (List.range a.rows).flatMap fun i => (List.range a.cols).filterMap fun j => a.item i j

/-- `np.array(a, dtype=float, order='C')`. -/
def floatCopy (a : View2 F) : View2 F := ⟨a.toList.map .f64, 0, a.cols, 1, a.rows, a.cols, true⟩

end View2

/-! ## What the constructors hand over -/

section
variable [Arith F] (bits : ℤ → F)

/-- The coefficients that `CPPAsphere` finds: batoid/surface.py L384-399.  A python list of coefficients is the array made of it. -/
def asphereCoefs (imin : ℕ) (coefs : View1 F) : Option (List F) :=
  let padded := if imin ≠ 1 then View1.ofFloats (List.replicate (imin - 1) 0 ++ coefs.toList) else coefs
  let a := padded.contiguous
  a.fetch bits a.len

/-- The two columns that `CPPTableMedium` finds: batoid/medium.py L71-78, src/medium.cpp L72-76. -/
def tableColumns (wavelengths ns : View1 F) : Option (List F × List F) := do
  let w ← wavelengths.copy.fetch bits wavelengths.copy.len
  let n ← ns.copy.fetch bits wavelengths.copy.len
  some (w, n)

/-- The vertices that `CPPObscPolygon` finds: batoid/obscuration.py L259-266. -/
def polygonVertices (xs ys : View1 F) : Option (List (F × F)) := do
  let x ← xs.floatContiguous.fetch bits xs.floatContiguous.len
  let y ← ys.floatContiguous.fetch bits xs.floatContiguous.len
  some (x.zip y)

/-- The coordinates that `CPPObscPolygon::containsGrid` finds: batoid/obscuration.py L292-299.  The arrays are used as they are. -/
def gridCoordinates (xgrid ygrid : View1 F) : Option (List F × List F) := do
  let x ← xgrid.fetch bits xgrid.len
  let y ← ygrid.fetch bits ygrid.len
  some (x, y)

/-- The table that `CPPTable` reads: batoid/surface.py L544-586 with all derivatives given; `nx`, `ny` are the lengths of `xs` and
`ys`.  Reads outside of the arrays give `junk`. -/
def bicubicTable (junk : F) (x0 y0 dx dy : F) (nx ny : ℕ) (zs dzdxs dzdys d2zdxdys : View2 F) (useNan : Bool) : Surface.Table F where
  x0 := x0
  y0 := y0
  dx := dx
  dy := dy
  z k := (zs.floatCopy.peek bits k).getD junk
  dzdx k := (dzdxs.floatCopy.peek bits k).getD junk
  dzdy k := (dzdys.floatCopy.peek bits k).getD junk
  d2zdxdy k := (d2zdxdys.floatCopy.peek bits k).getD junk
  nx := nx
  ny := ny
  useNan := useNan

/-- The sag of the polynomial surface that `Zernike.__init__` makes of galsim's array of coefficients: batoid/surface.py L472-483.
The array is used as it is; its shape is passed as `xsize`, `ysize`, which `horner2d` (src/polynomialSurface.cpp L59-66) takes as the
length of a row and the number of rows. -/
def polynomialSag (junk : F) (c : View2 F) (x y : F) : F :=
  Surface.horner2d x y (fun k => (c.peek bits k).getD junk) c.rows c.cols

/-- The normals that `Surface.normal` returns: batoid/surface.py L42-49, pysrc/surface.cpp L14-24. -/
def normals (s : Surface F) (x y : View1 F) : Option (List (V3 F)) := do
  let xs ← x.floatContiguous.fetch bits x.floatContiguous.len
  let ys ← y.floatContiguous.fetch bits x.floatContiguous.len
  some (List.zipWith s.normal xs ys)

/-- One array of `RayVector.__init__` for rays in a row of length `n`: `_reshape_arrays`, batoid/rayVector.py L14-20. -/
def rayArray (n : ℕ) (a : View1 F) : View1 F := if a.len = n then a.floatCopy else (a.broadcast n).copy.floatCopy

/-- One array of `RayVector.__init__` for arguments of shape `(rows, cols)`. -/
def rayArray2 (a : View2 F) : View2 F := a.floatCopy

/-- The values of one array that a kernel works on: `_rv` passes `len(self._wavelength)`, batoid/rayVector.py L1214-1223. -/
def kernelSees (a : View1 F) : Option (List F) := a.fetch bits a.len

/-- The same if the arrays have two axes: `len` is the number of rows. -/
def kernelSees2 (a : View2 F) : Option (List F) := (List.range a.rows).mapM (a.peek bits)

/-- One array of `rv[idx]` for a slice, batoid/rayVector.py L1335-1349: a view of the array, copied. -/
def rayItem (a : View1 F) (start step : ℤ) (n : ℕ) : View1 F := (a.slice start step n).copy

/-- The points on the stop that `fromStop` starts from: batoid/rayVector.py L970-974.  The sag is vectorised by pybind11, which
follows the strides; `applyForwardTransformArrays` (src/batoid.cpp L8-22) does not. -/
def stopPoints (stop : Surface F) (x y : View1 F) : Option (List (V3 F)) := do
  let x' := x.astypeNoCopy
  let y' := y.astypeNoCopy
  let xs ← x'.fetch bits x'.len
  let ys ← y'.fetch bits x'.len
  some (List.zipWith (fun p z => ⟨p.1, p.2, z⟩) (xs.zip ys) (List.zipWith stop.sag x'.toList y'.toList))

end

/-- The double with the bit pattern of a small integer: a subnormal number.  Other integers are not needed and stand for NaN. -/
noncomputable def bitsDbl (k : ℤ) : Dbl := if 0 ≤ k ∧ k < 2 ^ 52 then .fin ((k : ℝ) / 2 ^ 1074) else .nan

end Batoid.Buffers
