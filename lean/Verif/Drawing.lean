import Verif.Optic

/-!
# Drawing rays

Model of `getGlobalRays` (batoid/optic.py L1807-1867), which `drawTrace2d` and `drawTrace3d` (L1870-1926) plot: for every ray
they draw the first `raylen` of its vertices.

Simplification: the array `xyz` of shape `(nray, 3, nsurf + 1)` is a list of rays, each the list of its vertices.
-/

namespace Batoid
variable {F : Type} [Arith F]

/-- One ray of the result: `xyz[j]` by vertices, and `raylen[j]`. -/
structure Polyline (F : Type) where
  vertices : List (V3 F)
  raylen : ℕ

namespace Polyline

/-- `line[:, :nline]`: batoid/optic.py L1891-1900, L1923-1924. -/
def drawn (line : Polyline F) : List (V3 F) := line.vertices.take line.raylen

end Polyline

/-- The point where a ray leaves a surface: batoid/optic.py L1859-1865 for one ray. -/
def addVertex (ct : CoordTransform F) (line : Polyline F) (ray : Ray F) : Polyline F :=
  ⟨line.vertices ++ [ct.forward ray.r], if !ray.vignetted then line.raylen + 1 else line.raylen⟩

/-- The loop over the surfaces: batoid/optic.py L1857-1866.  For arrays of other lengths than `nray` either the assignment to
`xyz[:, :, i + 1]` raises, or (length one is broadcast) the indexing of `raylen` does. -/
def globalVertices (tf : Dict Name (Record F)) (globalSys : CoordSys F) (nray : ℕ) :
    List Name → List (Polyline F) → Except PyErr (List (Polyline F))
  | [], lines => .ok lines
  | nm :: names, lines =>
    match tf.get? nm with
    | none => .error .keyError
    | some rec =>
      if rec.output.rays.length = nray then
        globalVertices tf globalSys nray names
          (List.zipWith (addVertex (CoordTransform.make rec.output.coordSys globalSys)) lines rec.output.rays)
      else if rec.output.rays.length = 1 then .error .indexError
      else .error .valueError

/-- From the indices of the two surfaces on: batoid/optic.py L1843-1867. -/
def globalRange (tf : Dict Name (Record F)) (globalSys : CoordSys F) (start : Name) (istart iend : ℕ) :
    Except PyErr (List (Polyline F)) :=
  if iend + 1 ≤ istart then .error .valueError
  else match tf.get? start with
    | none => .error .keyError
    | some rec =>
      globalVertices tf globalSys rec.input.rays.length (((tf.map Prod.fst).take (iend + 1)).drop istart)
        (rec.input.rays.map fun ray => ⟨[(CoordTransform.make rec.input.coordSys globalSys).forward ray.r], 1⟩)

/-- `start = names[0]` or `end = names[-1]`: batoid/optic.py L1831-1834. -/
def defaultName (given : Option Name) (default : Option Name) : Except PyErr Name :=
  match given, default with
  | some nm, _ => .ok nm
  | none, some nm => .ok nm
  | none, none => .error .indexError

/-- `names.index(nm)`: batoid/optic.py L1835-1842. -/
def nameIndex (names : List Name) (nm : Name) : Except PyErr ℕ :=
  match names.idxOf? nm with
  | some i => .ok i
  | none => .error .valueError

/-- `getGlobalRays(traceFull, start, end, globalSys)`: batoid/optic.py L1807-1867. -/
def getGlobalRays (tf : Dict Name (Record F)) (start stop : Option Name) (globalSys : CoordSys F) :
    Except PyErr (List (Polyline F)) := do
  let start ← defaultName start (tf.map Prod.fst).head?
  let stop ← defaultName stop (tf.map Prod.fst).getLast?
  let istart ← nameIndex (tf.map Prod.fst) start
  let iend ← nameIndex (tf.map Prod.fst) stop
  globalRange tf globalSys start istart iend

end Batoid
