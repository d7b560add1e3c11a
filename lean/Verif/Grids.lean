import Verif.Numpy

/-!
# Point grids: hexapolar and lattice

Models of `batoid/utils.py` L483-535 and of `batoid/lattice.py`.
-/

namespace Batoid.Grids
open Arith Numpy
variable {F : Type} [Arith F]

/-- The number of azimuths of a ring, batoid/utils.py L515-518. -/
def ringCount (outer : F) (naz kfold : ℤ) (rho : F) : Except PyErr ℤ := do
  let q ← toInt (floorDiv (const (naz : ℚ) * rho / outer) (const (kfold : ℚ)))
  let nphi := q * kfold
  if nphi = 0 then .ok kfold else .ok nphi

/-- The loop that writes the rings into the arrays, batoid/utils.py L525-529.  The arguments are the rings still to
write, `idx`, `rr` and `th`. -/
def fillRings : List (F × ℤ) → ℕ → List F → List F → Except PyErr (List F × List F)
  | [], _, rr, th => .ok (rr, th)
  | (rho, nphi) :: rest, idx, rr, th => do
    let az ← linspace 0 (2 * pi) nphi false
    fillRings rest (idx + nphi.toNat) (setSlice rr idx (List.replicate nphi.toNat rho)) (setSlice th idx az)

/-- The last two statements before the return, batoid/utils.py L530-532. -/
def fixCentre (inner : F) (r : List F × List F) : List F × List F :=
  if eq inner 0 then (setLast r.1 0, setLast r.2 0) else r

/-- The two arrays of polar coordinates, batoid/utils.py L521-532.  `junk` is what `np.empty` leaves in them. -/
def layRings (junk : ℕ → F) (inner : F) (rhos : List F) (nphis : List ℤ) : Except PyErr (List F × List F) :=
  let n := nphis.sum
  if n < 0 then .error .valueError
  else do
    let r ← fillRings (rhos.zip nphis) 0 ((List.range n.toNat).map junk) ((List.range n.toNat).map junk)
    .ok (fixCentre inner r)

/-- The return statement, batoid/utils.py L533-536. -/
def hexReturn (rth : Bool) (r : List F × List F) : List F × List F :=
  if rth then r
  else (List.zipWith (fun r t => r * Arith.cos t) r.1 r.2, List.zipWith (fun r t => r * Arith.sin t) r.1 r.2)

/-- `hexapolar(outer, inner, nrad, naz, kfold, rth)`: batoid/utils.py L483-536. -/
def hexapolar (junk : ℕ → F) (outer inner : F) (nrad naz kfold : ℤ) (rth : Bool) : Except PyErr (List F × List F) := do
  let rhos ← linspace outer inner nrad true
  let nphis ← rhos.mapM (ringCount outer naz kfold)
  if nphis = [] then
    if eq inner 0 then .error .indexError  -- nphis[-1] = 1
    else .error .typeError                 -- np.sum([]) is the float 0.0, np.empty(0.0) raises
  else
    let nphis := if eq inner 0 then setLast nphis 1 else nphis
    let r ← layRings junk inner rhos nphis
    .ok (hexReturn rth r)

/-! ## Lattices -/

/-- `np.meshgrid(*ns, indexing='ij')` followed by `np.moveaxis(ns, 0, -1)`: the list of all tuples, the last index running
fastest. -/
def tuples : List (List ℤ) → List (List ℤ)
  | [] => [[]]
  | n :: ns => n.flatMap fun a => (tuples ns).map fun t => a :: t

/-- One row of `np.matmul(tuples, primitiveVectors)`; numpy does not fix the order of the sum. -/
def rowTimes (t : List ℤ) (pv : List (List F)) (width : ℕ) : List F :=
  (List.range width).map fun c : ℕ => (List.zipWith (fun (a : ℤ) (row : List F) => const (a : ℚ) * row.getD c 0) t pv).foldl (· + ·) 0

/-- `primitiveToLattice(primitiveVectors, Ns)`: batoid/lattice.py L6-14.  The result of shape `[N1, ..., Nd, d]` is given as
the list of its rows in C order.  In Python `-Ns[d]//2` is `(-Ns[d])//2`, rounded down. -/
def primitiveToLattice (pv : List (List F)) (Ns : List ℕ) (width : ℕ) : List (List F) :=
  (tuples (Ns.map fun N : ℕ => arange (-((N : ℤ) / 2)) (-((-(N : ℤ)).fdiv 2)))).map fun t => rowTimes t pv width

/-- What can be passed as `primitiveVectors`: a number, a sequence of numbers, or an array of `width` columns. -/
inductive PrimArg (F : Type) where
  | scalar (x : F)
  | vec (xs : List F)
  | mat (width : ℕ) (rows : List (List F))

/-- `np.atleast_2d`, with the number of columns. -/
def PrimArg.atleast2d : PrimArg F → ℕ × List (List F)
  | .scalar x => (1, [[x]])
  | .vec xs => (xs.length, [xs])
  | .mat w rows => (w, rows)

/-- A `Lattice` object; the values of the array are not modelled, only its shape. -/
structure Lattice (F : Type) where
  shape : List ℕ
  width : ℕ
  primitiveVectors : List (List F)

/-- `Lattice.__init__`: batoid/lattice.py L50-59. -/
def Lattice.make (shape : List ℕ) (pv : PrimArg F) : Except PyErr (Lattice F) :=
  let (width, rows) := pv.atleast2d
  if shape.length ≠ rows.length then .error .valueError
  else if rows = [] then .error .indexError  -- primitiveVectors[0]
  else if shape.length ≠ width then .error .valueError
  else .ok ⟨shape, width, rows⟩

/-- `Lattice.coords`: batoid/lattice.py L61-63. -/
def Lattice.coords (l : Lattice F) : List (List F) := primitiveToLattice l.primitiveVectors l.shape l.width

end Batoid.Grids
