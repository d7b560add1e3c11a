import Verif.Vec
import Verif.Py

/-!
# Obscurations

Model of `src/obscuration.cpp`.
-/

namespace Batoid
open Arith

/-- The classes of `src/obscuration.cpp`. -/
inductive Obsc (F : Type) where
  | circle (radius x0 y0 : F)
  | annulus (inner outer x0 y0 : F)
  | rectangle (width height x0 y0 theta : F)
  | ray (width theta x0 y0 : F)
  | polygon (pts : List (F × F))
  | negation (o : Obsc F)
  | union (os : List (Obsc F))
  | intersection (os : List (Obsc F))

namespace Obsc
variable {F : Type} [Arith F]

/-- `ObscCircle::contains`: src/obscuration.cpp L32-34. -/
def circleContains (radius x0 y0 x y : F) : Bool := lt (hypot (x - x0) (y - y0)) radius

/-- `ObscAnnulus::contains`: src/obscuration.cpp L80-83. -/
def annulusContains (inner outer x0 y0 x y : F) : Bool :=
  let h := hypot (x - x0) (y - y0)
  le inner h && lt h outer

/-- `ObscRectangle::contains`: src/obscuration.cpp L117-121. -/
def rectangleContains (w h x0 y0 th x y : F) : Bool :=
  let xp := (x - x0) * Arith.cos th + (y - y0) * Arith.sin th
  let yp := -(x - x0) * Arith.sin th + (y - y0) * Arith.cos th
  gt xp (-w / 2) && lt xp (w / 2) && gt yp (-h / 2) && lt yp (h / 2)

/-- `ObscRay::contains`: src/obscuration.cpp L155-159. -/
def rayContains (w th x0 y0 x y : F) : Bool :=
  let xp := (x - x0) * Arith.cos th + (y - y0) * Arith.sin th
  let yp := -(x - x0) * Arith.sin th + (y - y0) * Arith.cos th
  gt xp 0 && gt yp (-w / 2) && lt yp (w / 2)

/-- Body of the edge loop of `ObscPolygon::contains`: src/obscuration.cpp L209-220.
State: `(xinters, inside)`; `p1`, `p2` the end points of the edge. -/
def polyEdge (x y : F) (p1 p2 : F × F) (st : F × Bool) : F × Bool :=
  if gt y (Arith.min p1.2 p2.2) then
    if le y (Arith.max p1.2 p2.2) then
      if le x (Arith.max p1.1 p2.1) then
        let xi := if eq p1.2 p2.2 then st.1
          else (y - p1.2) * (p2.1 - p1.1) / (p2.2 - p1.2) + p1.1
        (xi, if eq p1.1 p2.1 || le x xi then !st.2 else st.2)
      else st
    else st
  else st

/-- The loop over edges: src/obscuration.cpp L206-223, walking the remaining vertices. -/
def polyLoop (x y : F) : F × F → List (F × F) → F × Bool → F × Bool
  | _, [], st => st
  | p1, p2 :: ps, st => polyLoop x y p2 ps (polyEdge x y p1 p2 st)

/-- `ObscPolygon::contains`: src/obscuration.cpp L201-225; vertex `i % size` makes the last edge
close the polygon. (No vertices: undefined behaviour in C++, `false` here.) -/
def polygonContains (pts : List (F × F)) (x y : F) : Bool :=
  match pts with
  | [] => false
  | p :: ps => (polyLoop x y p (ps ++ [p]) (0, false)).2

/-! ### `ObscPolygon::containsGrid` -/

/-- `ymin` (`ymax` with the comparison reversed): src/obscuration.cpp L240-247. -/
def polyYmin (p : F × F) (ps : List (F × F)) : F := ps.foldl (fun m q => if lt q.2 m then q.2 else m) p.2
def polyYmax (p : F × F) (ps : List (F × F)) : F := ps.foldl (fun m q => if gt q.2 m then q.2 else m) p.2

/-- The edge loop of `containsGrid`: src/obscuration.cpp L265-272. -/
def gridEdges (y : F) : F × F → List (F × F) → List F
  | _, [] => []
  | p1, p2 :: ps =>
    if gt y (Arith.min p1.2 p2.2) && le y (Arith.max p1.2 p2.2) then
      ((y - p1.2) * (p2.1 - p1.1) / (p2.2 - p1.2) + p1.1) :: gridEdges y p2 ps
    else gridEdges y p2 ps

/-- All intercepts of a row: src/obscuration.cpp L261-272.  The loop starts with `x1 = _xp[0]` and runs over
`k = 0 .. _size-1`, so the first "edge" joins vertex 0 with itself and the edge closing the polygon is never visited. -/
def gridIntercepts (pts : List (F × F)) (y : F) : List F :=
  match pts with
  | [] => []
  | p :: ps => gridEdges y p (p :: ps)

/-- The walk along a row: src/obscuration.cpp L276-285.  First argument: `[xptr, end)`. -/
def gridScan : List F → Bool → List F → List Bool
  | _, _, [] => []
  | [], b, _ :: xs => b :: gridScan [] b xs
  | c :: cs, b, x :: xs => if gt x c then (!b) :: gridScan cs (!b) xs else b :: gridScan (c :: cs) b xs

/-- Store a row of results from address `base` on. -/
def store (mem : ℕ → Option Bool) (base : ℕ) (row : List Bool) : ℕ → Option Bool :=
  fun a => if base ≤ a ∧ a < base + row.length then row[a - base]? else mem a

/-- Base address and contents of what row `j` writes: src/obscuration.cpp L252-285 (`std::sort` is `mergeSort`). -/
def gridRow (p : F × F) (ps : List (F × F)) (xg : List F) (nx ny : ℕ) (j : ℕ) (y : F) : ℕ × List Bool :=
  if lt y (polyYmin p ps) || gt y (polyYmax p ps) then (j * nx, List.replicate nx false)
  else (j * ny, gridScan ((gridIntercepts (p :: ps) y).mergeSort (fun a b => le a b)) false xg)

/-- The rows one after the other. -/
def gridRows (p : F × F) (ps : List (F × F)) (xg : List F) (nx ny : ℕ) :
    ℕ → List F → (ℕ → Option Bool) → (ℕ → Option Bool)
  | _, [], mem => mem
  | j, y :: ys, mem =>
    gridRows p ps xg nx ny (j + 1) ys (store mem (gridRow p ps xg nx ny j y).1 (gridRow p ps xg nx ny j y).2)

/-- `ObscPolygon::containsGrid`: src/obscuration.cpp L233-287 and batoid/obscuration.py L292-299.  The result is the
memory of `out` as a function of the address (`none`: not written); entry `[j, i]` of the numpy array is at `j*nx + i`.
Addresses `>= nx*ny` are outside the buffer. -/
def containsGrid (pts : List (F × F)) (xg yg : List F) : ℕ → Option Bool :=
  match pts with
  | [] => fun _ => none
  | p :: ps => gridRows p ps xg xg.length yg.length 0 yg (fun _ => none)

mutual
/-- `contains` of each class. -/
def contains : Obsc F → F → F → Bool
  | circle radius x0 y0, x, y => circleContains radius x0 y0 x y
  | annulus inner outer x0 y0, x, y => annulusContains inner outer x0 y0 x y
  | rectangle w h x0 y0 th, x, y => rectangleContains w h x0 y0 th x y
  | ray w th x0 y0, x, y => rayContains w th x0 y0 x y
  | polygon pts, x, y => polygonContains pts x y
  | negation o, x, y => !(contains o x y)          -- L320-322
  | union os, x, y => unionContains os x y false     -- L364-370
  | intersection os, x, y => interContains os x y true  -- L415-421
/-- The loop `ret |= contains`: src/obscuration.cpp L365-369. -/
def unionContains : List (Obsc F) → F → F → Bool → Bool
  | [], _, _, ret => ret
  | o :: os, x, y, ret => unionContains os x y (ret || contains o x y)
/-- The loop `ret &= contains`: src/obscuration.cpp L416-420. -/
def interContains : List (Obsc F) → F → F → Bool → Bool
  | [], _, _, ret => ret
  | o :: os, x, y, ret => interContains os x y (ret && contains o x y)
end

/-! ### Python constructors of unions and intersections -/

/-- What may be passed to `ObscUnion(...)`: an obscuration, a list or tuple, or anything else. -/
inductive Arg (F : Type) where
  | obsc (o : Obsc F)
  | items (os : List (Option (Obsc F)))   -- `none` is an element that is not an obscuration
  | other

/-- `isinstance(item, Obscuration)`. -/
def Arg.obsc? : Arg F → Option (Obsc F)
  | .obsc o => some o
  | _ => none

/-- The argument handling shared by `ObscUnion.__init__` and `ObscIntersection.__init__`:
batoid/obscuration.py L371-384 and L453-466. -/
def ctorItems : List (Arg F) → Except PyErr (List (Obsc F))
  | [] => .error .valueError
  | [.obsc o] => .ok [o]
  | [.items os] => match os.mapM id with
    | some l => .ok l
    | none => .error .typeError
  | [.other] => .error .typeError
  | args => match args.mapM Arg.obsc? with
    | some l => .ok l
    | none => .error .typeError

/-- `ObscUnion(*args)`: batoid/obscuration.py L371-387 (`_obsc` is built from the items in the order given; the sorted
list `items` is only used for comparison, hashing and printing). -/
def mkUnion (args : List (Arg F)) : Except PyErr (Obsc F) := (ctorItems args).map union
/-- `ObscIntersection(*args)`: batoid/obscuration.py L453-469. -/
def mkIntersection (args : List (Arg F)) : Except PyErr (Obsc F) := (ctorItems args).map intersection

end Obsc
end Batoid
