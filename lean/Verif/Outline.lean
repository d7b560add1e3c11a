import Verif.Drawing
import Verif.Numpy
import Verif.OpticHeap

/-!
# Drawing optics

Model of `Interface.draw3d`, `get3dmesh`, `getXZSlice`, `draw2d` (batoid/optic.py L146-388), of the methods of the same names of
`CompoundOptic` (L1278-1327) and of `Lens.draw2d` (L1763-1804).  What is drawn is returned as a list instead of being put on an axis.

Simplifications:
* An array of coordinates is a list of points.
* If a method raises, the marks that were on the axis before are not returned.
* The warning printed for rotated surfaces, labels of lenses and the keywords passed on to matplotlib are left out.
* `isinstance(surface, Plane)` is a parameter, since surfaces are modelled by what they do.
* The interface is as its constructor made it (for `inRadius` and `outRadius` of other objects see `Verif/OpticHeap.lean`).
-/

namespace Batoid.Outline
open Arith Numpy
variable {F : Type} [Arith F]

/-- `inRadius` and `outRadius` of a new interface: batoid/optic.py L121-140. -/
def radii (d : Iface F) : Option F × Option F :=
  match ObjHeap.ifaceCell d none none with
  | .iface _ _ _ inRadius outRadius => (inRadius, outRadius)
  | .comp _ _ _ _ => (none, none)

/-- `surface.sag(x, y)` followed by `transform.applyForwardArray(x, y, z)`, for one point: e.g. batoid/optic.py L164-165. -/
def place (d : Iface F) (x y : F) : V3 F :=
  (CoordTransform.make d.coordSys (CoordSys.std F)).forward ⟨x, y, d.surface.sag x y⟩

/-- The points of a circle: batoid/optic.py L160-165, L172-177. -/
def circle (d : Iface F) (radius : F) : Except PyErr (List (V3 F)) := do
  let th ← linspace 0 (2 * Arith.pi) 100 true
  pure (th.map fun t => place d (radius * cos t) (radius * sin t))

/-- The points of a line along y: batoid/optic.py L184-187, L192-195. -/
def lineY (d : Iface F) (a b : F) : Except PyErr (List (V3 F)) := do
  let ys ← linspace a b 50 true
  pure (ys.map fun y => place d 0 y)

/-- The points of a line along x: batoid/optic.py L202-205, L210-213. -/
def lineX (d : Iface F) (a b : F) : Except PyErr (List (V3 F)) := do
  let xs ← linspace a b 50 true
  pure (xs.map fun x => place d x 0)

/-- The inner circle, unless the radius is zero: batoid/optic.py L159-169. -/
def innerCircle (d : Iface F) (ri : F) : Except PyErr (List (List (V3 F))) :=
  if eq ri 0 then .ok [] else do
    let c ← circle d ri
    pure [c]

/-- The curves drawn by `Interface.draw3d`: batoid/optic.py L146-218.  A missing inner radius beside an outer one would be compared
to `0.0` and then negated, which raises. -/
def draw3dIface (d : Iface F) : Except PyErr (List (List (V3 F))) :=
  match radii d with
  | (_, none) => .ok []
  | (none, some _) => .error .typeError
  | (some ri, some ro) => do
    let inner ← innerCircle d ri
    let outer ← circle d ro
    let y1 ← lineY d (-ro) (-ri)
    let y2 ← lineY d ri ro
    let x1 ← lineX d (-ro) (-ri)
    let x2 ← lineX d ri ro
    pure (inner ++ [outer, y1, y2, x1, x2])

/-- The separator: `np.nan` in every coordinate, batoid/optic.py L241-243. -/
def gap : V3 F := ⟨nan, nan, nan⟩

/-- `Interface.get3dmesh`: batoid/optic.py L221-305.  `none` is Python's `None`. -/
def meshIface (d : Iface F) : Except PyErr (Option (List (V3 F))) :=
  match radii d with
  | (_, none) => .ok none
  | (none, some _) => .error .typeError
  | (some ri, some ro) => do
    let inner ← if eq ri 0 then .ok [] else do
      let c ← circle d ri
      pure (c ++ [gap])
    let outer ← circle d ro
    let y1 ← lineY d (-ro) (-ri)
    let y2 ← lineY d ri ro
    let x1 ← lineX d (-ro) (-ri)
    let x2 ← lineX d ri ro
    pure (some (inner ++ (outer ++ [gap]) ++ (y1 ++ [gap]) ++ (y2 ++ [gap]) ++ (x1 ++ [gap]) ++ (x2 ++ [gap])))

mutual
/-- `draw3d`: batoid/optic.py L146-218, L1278-1290. -/
def draw3d : Optic F → Except PyErr (List (List (V3 F)))
  | .iface d => draw3dIface d
  | .compound _ items => draw3dItems items
/-- The loop of `CompoundOptic.draw3d`: batoid/optic.py L1289-1290. -/
def draw3dItems : List (Optic F) → Except PyErr (List (List (V3 F)))
  | [] => .ok []
  | o :: os => do
    let a ← draw3d o
    let b ← draw3dItems os
    pure (a ++ b)
end

mutual
/-- `get3dmesh`: batoid/optic.py L221-305, L1292-1301.  `np.hstack` of no arrays raises. -/
def get3dmesh : Optic F → Except PyErr (Option (List (V3 F)))
  | .iface d => meshIface d
  | .compound _ items => do
    let parts ← meshItems items
    if parts.isEmpty then .error .valueError else pure (some parts.flatten)
/-- The loop of `CompoundOptic.get3dmesh`: batoid/optic.py L1296-1300.  `x, y, z = None` raises. -/
def meshItems : List (Optic F) → Except PyErr (List (List (V3 F)))
  | [] => .ok []
  | o :: os => do
    let a ← get3dmesh o
    match a with
    | none => .error .typeError
    | some pts => do
      let b ← meshItems os
      pure (pts :: b)
end

/-- One point of a slice: `x` and `z` of what `applyForwardArray` returns, batoid/optic.py L347-352, L360, L365. -/
def slicePoint (d : Iface F) (x : F) : F × F := ((place d x 0).x, (place d x 0).z)

/-- `Interface.getXZSlice(nslice)`: batoid/optic.py L307-376. -/
def getXZSlice (planar : Surface F → Bool) (d : Iface F) (nslice : ℤ) : Except PyErr (List (List (F × F))) :=
  match radii d with
  | (_, none) => .ok []                                                        -- L333-334
  | (none, some _) => .error .typeError
  | (some ri, some ro) => do
    let n : ℤ := if nslice ≤ 0 then (if planar d.surface then 2 else 50) else nslice   -- L335-339
    let x ← linspace (-ro) (-ri) n true                                        -- L341
    let neg := x.map (slicePoint d)                                            -- L342-346
    let pos := (x.map fun a => a * (-1)).reverse.map (slicePoint d)            -- L352-356
    if eq ri 0 then                                                            -- L363
      match neg.getLast?, pos.head? with
      | some a, some b => if eq a.1 b.1 && eq a.2 b.2 then .ok [neg ++ pos.tail] else .error .assertionError   -- L364-370
      | _, _ => .error .indexError
    else .ok [neg, pos]                                                        -- L371-375

/-- The classes of optics: batoid/optic.py. -/
inductive Cls where
  | optic | interface | refractive | mirror | detector | baffle | screen | compound | lens
  deriving DecidableEq

/-- The class of an interface. -/
def ifaceCls : Kind F → Cls
  | .plain => .interface
  | .refractive => .refractive
  | .mirror => .mirror
  | .detector => .detector
  | .baffle => .baffle
  | .screen _ => .screen

/-- `issubclass(item_class, c)` for the class of an interface: batoid/optic.py L98, L758, L796, L822, L844, L863. -/
def subclass (d : Iface F) (c : Cls) : Bool := c == .optic || c == .interface || c == ifaceCls d.kind

/-- What may be given as `only`: a class, a tuple of classes or a list of classes. -/
inductive Only where
  | cls (c : Cls)
  | tuple (cs : List Cls)
  | list (cs : List Cls)
  deriving DecidableEq

/-- `only is None or issubclass(item_class, only)`: batoid/optic.py L1326.  `issubclass` takes a class or a tuple. -/
def selected (d : Iface F) : Option Only → Except PyErr Bool
  | none => .ok true
  | some (.cls c) => .ok (subclass d c)
  | some (.tuple cs) => .ok (cs.any (subclass d))
  | some (.list _) => .error .typeError

/-- What is put on the axis. -/
inductive Mark (F : Type) where
  | line (pts : List (F × F))      -- `ax.plot`
  | fill (pts : List (F × F))      -- `ax.fill`

/-- `Interface.draw2d`: batoid/optic.py L378-388. -/
def draw2dIface (planar : Surface F → Bool) (d : Iface F) : Except PyErr (List (Mark F)) := do
  let s ← getXZSlice planar d 0
  pure (s.map Mark.line)

/-- The area between two slices: batoid/optic.py L1793-1794. -/
def between (a b : List (F × F)) : List (F × F) := a ++ b.reverse ++ a.take 1

/-- `items[i].getXZSlice()`; compounds have no such method. -/
def itemSlice (planar : Surface F → Bool) : Optic F → Except PyErr (List (List (F × F)))
  | .iface d => getXZSlice planar d 0
  | .compound _ _ => .error .attributeError

/-- `Lens.draw2d` with `only = Lens`: batoid/optic.py L1776-1796. -/
def fillLens (planar : Surface F → Bool) : List (Optic F) → Except PyErr (List (Mark F))
  | [a, b] => do
    let s1 ← itemSlice planar a
    let s2 ← itemSlice planar b
    pure (List.zipWith (fun x y => Mark.fill (between x y)) s1 s2)
  | _ => .error .runtimeError

mutual
/-- `draw2d(ax, only=only)`: batoid/optic.py L378-388, L1303-1327, L1763-1804.  (`Interface.draw2d` knows no `only`; compounds do not
pass it on to interfaces.) -/
def draw2d (planar : Surface F → Bool) (only : Option Only) : Optic F → Except PyErr (List (Mark F))
  | .iface d => draw2dIface planar d
  | .compound c items => if c.isLens && decide (only = some (.cls .lens)) then fillLens planar items else draw2dItems planar only items
/-- The loop: batoid/optic.py L1322-1327. -/
def draw2dItems (planar : Surface F → Bool) (only : Option Only) : List (Optic F) → Except PyErr (List (Mark F))
  | [] => .ok []
  | .iface d :: os => do
    let sel ← selected d only
    let a ← if sel then draw2dIface planar d else .ok []
    let b ← draw2dItems planar only os
    pure (a ++ b)
  | .compound c items :: os => do
    let a ← draw2d planar only (.compound c items)
    let b ← draw2dItems planar only os
    pure (a ++ b)
end

end Batoid.Outline
