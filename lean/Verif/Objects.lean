import Verif.Optic
import Verif.Grids
import Mathlib.Order.Lex
import Mathlib.Data.List.Lex
import Mathlib.Data.Char

/-!
# Comparing and hashing objects

Model of `__eq__` and `__hash__` of `batoid/medium.py`, `batoid/coating.py`, `batoid/surface.py`, `batoid/obscuration.py`,
`batoid/coordSys.py`, `batoid/coordTransform.py`, `batoid/lattice.py` and `batoid/optic.py`.

The objects are the Python side attributes.  `denote` gives the C++ side object that the constructor builds from them.

Simplifications:
* A comparison is a value in `Except PyErr Bool`: arrays of different lengths cannot always be compared.
* The identity shortcut of list and tuple comparison (`a is b` counts as equal without asking `a == b`) is not modelled; it
  matters only for objects that hold a NaN.
* Numbers are floats.  `==` of floats is `Arith.eq`.
* User subclasses are not modelled, so `isinstance(rhs, C)` and `type(rhs) == type(self)` are the same.
-/

namespace Batoid.Objects
open Arith

variable {F : Type}

/-! ## Comparison of containers -/

/-- `a and b` for two comparisons; `b` is not evaluated when `a` is false or raises. -/
def pyAnd (a b : Except PyErr Bool) : Except PyErr Bool :=
  match a with
  | .ok true => b
  | .ok false => .ok false
  | .error e => .error e

/-- `a == b` of floats. -/
def numEq [Arith F] (a b : F) : Except PyErr Bool := .ok (Arith.eq a b)

/-- `==` of tuples: walks to the first difference, then compares the lengths. -/
def tupleEq {α : Type} (eq : α → α → Except PyErr Bool) : List α → List α → Except PyErr Bool
  | [], [] => .ok true
  | [], _ :: _ => .ok false
  | _ :: _, [] => .ok false
  | a :: as, b :: bs => pyAnd (eq a b) (tupleEq eq as bs)

/-- All elements equal, for equal lengths. -/
def allEq [Arith F] : List F → List F → Bool
  | [], [] => true
  | a :: as, b :: bs => Arith.eq a b && allEq as bs
  | _, _ => false

/-- `np.array_equal` of one dimensional arrays: the shapes and all elements agree. -/
def arrayEqual [Arith F] (a b : List F) : Bool := decide (a.length = b.length) && allEq a b

/-- `np.array_equal` of two dimensional arrays, given by their rows. -/
def arrayEqual2 [Arith F] : List (List F) → List (List F) → Bool
  | [], [] => true
  | a :: as, b :: bs => arrayEqual a b && arrayEqual2 as bs
  | _, _ => false

/-- `np.all(a == b)` of one dimensional arrays: an array of length one is broadcast against the other, and other different
lengths raise (numpy 1.25 and later). -/
def npAllEq [Arith F] (a b : List F) : Except PyErr Bool :=
  if a.length = b.length then .ok (allEq a b)
  else match a, b with
    | [x], _ => .ok (b.all fun y => Arith.eq x y)
    | _, [y] => .ok (a.all fun x => Arith.eq x y)
    | _, _ => .error .valueError

/-- `hash` of the built in types.  The only law is the one Python gives for numbers: equal numbers hash equally (`0.0` and
`-0.0`, `1` and `1.0`). -/
structure Hasher (F H : Type) [Arith F] where
  /-- hash of a `str` -/
  str : List Char → H
  /-- hash of a number -/
  num : F → H
  /-- hash of an `int` -/
  int : ℤ → H
  /-- `hash(None)` -/
  none : H
  /-- hash of a tuple, from the hashes of its elements -/
  tuple : List H → H
  /-- hash of the integer that another `hash` returned -/
  ofHash : H → H
  num_eq : ∀ a b, Arith.eq a b = true → num a = num b

/-! ## Media -/

/-- The attributes of a `Medium`: batoid/medium.py L38-40, L71-78, L139-151, L189-201, L243-247. -/
inductive MediumObj (F : Type) where
  | const (n : F)
  | table (wavelengths ns : List F)
  | sellmeier (B1 B2 B3 C1 C2 C3 : F)
  | sumita (A0 A1 A2 A3 A4 A5 : F)
  | air (pressure temperature h2o : F)

namespace MediumObj
variable [Arith F]

/-- `__eq__`: batoid/medium.py L42-45, L101-107, L154-157, L204-207, L249-256. -/
def eq : MediumObj F → MediumObj F → Except PyErr Bool
  | const n, const n' => numEq n n'
  | table w n, table w' n' => .ok (arrayEqual w w' && arrayEqual n n')
  | sellmeier a b c d e f, sellmeier a' b' c' d' e' f' => tupleEq numEq [a, b, c, d, e, f] [a', b', c', d', e', f']
  | sumita a b c d e f, sumita a' b' c' d' e' f' => tupleEq numEq [a, b, c, d, e, f] [a', b', c', d', e', f']
  | air p t h, air p' t' h' => pyAnd (numEq p p') (pyAnd (numEq t t') (numEq h h'))
  | _, _ => .ok false

/-- `__hash__`: batoid/medium.py L54-55, L115-118, L166-167, L216-217, L267-270. -/
def hash {H : Type} (h : Hasher F H) : MediumObj F → H
  | const n => h.tuple [h.str "batoid.ConstMedium".toList, h.num n]
  | table w n => h.tuple [h.str "batoid.TableMedium".toList, h.tuple (w.map h.num), h.tuple (n.map h.num)]
  | sellmeier a b c d e f => h.tuple [h.str "batoid.SellmeierMedium".toList, h.tuple ([a, b, c, d, e, f].map h.num)]
  | sumita a b c d e f => h.tuple [h.str "batoid.SumitaMedium".toList, h.tuple ([a, b, c, d, e, f].map h.num)]
  | air p t h2o => h.tuple [h.str "batoid.Air".toList, h.num p, h.num t, h.num h2o]

/-- The C++ medium.  `junk` stands for the result of a read outside the table. -/
def denote (junk : F) : MediumObj F → Medium F
  | const n => Medium.const n
  | table w n => Medium.table w n junk
  | sellmeier a b c d e f => ⟨Medium.sellmeierN a b c d e f⟩
  | sumita a b c d e f => ⟨Medium.sumitaN a b c d e f⟩
  | air p t h => ⟨Medium.airN p t h⟩

end MediumObj

/-! ## Coatings -/

/-- The attributes of a `SimpleCoating`: batoid/coating.py L82-86. -/
structure CoatingObj (F : Type) where
  reflectivity : F
  transmissivity : F

namespace CoatingObj
variable [Arith F]

/-- `__eq__`: batoid/coating.py L88-93. -/
def eq (a b : CoatingObj F) : Except PyErr Bool :=
  pyAnd (numEq a.reflectivity b.reflectivity) (numEq a.transmissivity b.transmissivity)

/-- `__hash__`: batoid/coating.py L101-102. -/
def hash {H : Type} (h : Hasher F H) (a : CoatingObj F) : H :=
  h.tuple [h.str "SimpleCoating".toList, h.num a.reflectivity, h.num a.transmissivity]

/-- The C++ coating. -/
def denote (a : CoatingObj F) : Coating F := .simple a.reflectivity a.transmissivity

end CoatingObj

/-! ## Surfaces -/

/-- The attributes of a `Surface`: batoid/surface.py L171-172, L197-200, L237-239, L273-275, L319-322, L378-399, L465-483,
L545-587 (the derivative arrays are always there once constructed), L687-694. -/
inductive SurfaceObj (F : Type) where
  | plane
  | tilted (tanx tany : F)
  | paraboloid (R : F)
  | sphere (R : F)
  | quadric (R conic : F)
  | asphere (R conic : F) (coefs : List F) (imin : ℤ)
  | zernike (coef : List F) (outer inner x0 y0 : F)
  | bicubic (xs ys : List F) (zs dzdxs dzdys d2zdxdys : List (List F)) (nanpolicy : List Char)
  | sum (surfaces : List (SurfaceObj F))

/-- What the model leaves open: the polynomial that galsim computes for Zernike coefficients (with the origin to be filled
in) and the results of reads outside arrays. -/
structure Env (F : Type) where
  zernike : List F → F → F → Surface.PolyData F
  junk : F

/-- `str.upper` (ASCII). -/
def upper (s : List Char) : List Char := s.map Char.toUpper

namespace SurfaceObj
variable [Arith F]

mutual
/-- `__eq__`: batoid/surface.py L183-184, L212-214, L250-252, L286-288, L333-336, L416-422, L499-505, L644-654, L705-707. -/
def eq : SurfaceObj F → SurfaceObj F → Except PyErr Bool
  | plane, plane => .ok true
  | tilted a b, tilted a' b' => pyAnd (numEq a a') (numEq b b')
  | paraboloid R, paraboloid R' => numEq R R'
  | sphere R, sphere R' => numEq R R'
  | quadric R k, quadric R' k' => pyAnd (numEq R R') (numEq k k')
  | asphere R k c i, asphere R' k' c' i' =>
    pyAnd (numEq R R') (pyAnd (numEq k k') (pyAnd (.ok (arrayEqual c c')) (.ok (decide (i = i')))))
  | zernike c o i x y, zernike c' o' i' x' y' =>
    pyAnd (.ok (arrayEqual c c')) (pyAnd (numEq o o') (pyAnd (numEq i i') (pyAnd (numEq x x') (numEq y y'))))
  | bicubic xs ys z zx zy zxy p, bicubic xs' ys' z' zx' zy' zxy' p' =>
    .ok (arrayEqual xs xs' && arrayEqual ys ys' && arrayEqual2 z z' && arrayEqual2 zx zx' && arrayEqual2 zy zy' &&
      arrayEqual2 zxy zxy' && decide (upper p = upper p'))
  | sum ss, sum ss' => itemsEq ss ss'
  | _, _ => .ok false
/-- `==` of the tuples `surfaces`. -/
def itemsEq : List (SurfaceObj F) → List (SurfaceObj F) → Except PyErr Bool
  | [], [] => .ok true
  | [], _ :: _ => .ok false
  | _ :: _, [] => .ok false
  | s :: ss, s' :: ss' => pyAnd (eq s s') (itemsEq ss ss')
end

mutual
/-- `__hash__`: batoid/surface.py L174-175, L202-203, L241-242, L277-278, L324-325, L401-408, L485-491, L610-615,
L696-697. -/
def hash {H : Type} (h : Hasher F H) : SurfaceObj F → H
  | plane => h.str "batoid.Plane".toList
  | tilted a b => h.tuple [h.str "batoid.Tilted".toList, h.num a, h.num b]
  | paraboloid R => h.tuple [h.str "batoid.Paraboloid".toList, h.num R]
  | sphere R => h.tuple [h.str "batoid.Sphere".toList, h.num R]
  | quadric R k => h.tuple [h.str "batoid.Quadric".toList, h.num R, h.num k]
  | asphere R k c i => h.tuple [h.str "batoid.Asphere".toList, h.num R, h.num k, h.tuple (c.map h.num), h.int i]
  | zernike c o i x y =>
    h.tuple [h.str "batoid.Zernike".toList, h.tuple (c.map h.num), h.num o, h.num i, h.num x, h.num y]
  | bicubic xs ys z zx zy zxy p =>
    h.tuple [h.str "Bicubic".toList, h.tuple (xs.map h.num), h.tuple (ys.map h.num), h.tuple (z.flatten.map h.num),
      h.tuple (zx.flatten.map h.num), h.tuple (zy.flatten.map h.num), h.tuple (zxy.flatten.map h.num), h.str p]
  | sum ss => h.tuple [h.str "batoid.Sum".toList, h.tuple (hashes h ss)]
/-- The hashes of `tuple(self.surfaces)`. -/
def hashes {H : Type} (h : Hasher F H) : List (SurfaceObj F) → List H
  | [] => []
  | s :: ss => hash h s :: hashes h ss
end

/-- `CPPTable` as built by `Bicubic`: batoid/surface.py L572-587. -/
def table (env : Env F) (xs ys : List F) (z zx zy zxy : List (List F)) (nanpolicy : List Char) : Surface.Table F where
  x0 := xs.headD env.junk
  y0 := ys.headD env.junk
  dx := (xs.getLastD env.junk - xs.headD env.junk) / Arith.const ((xs.length - 1 : ℕ) : ℚ)
  dy := (ys.getLastD env.junk - ys.headD env.junk) / Arith.const ((ys.length - 1 : ℕ) : ℚ)
  z := fun k => z.flatten.getD k env.junk
  dzdx := fun k => zx.flatten.getD k env.junk
  dzdy := fun k => zy.flatten.getD k env.junk
  d2zdxdy := fun k => zxy.flatten.getD k env.junk
  nx := xs.length
  ny := ys.length
  useNan := decide (upper nanpolicy = "NAN".toList)

mutual
/-- The C++ surface: the constructors cited at `SurfaceObj`. -/
def denote (env : Env F) : SurfaceObj F → Surface F
  | plane => Surface.plane
  | tilted a b => Surface.tilted a b
  | paraboloid R => Surface.paraboloid R
  | sphere R => Surface.sphere R
  | quadric R k => Surface.quadric R k
  | asphere R k c i => Surface.asphere R k (if i ≠ 1 then List.replicate (i - 1).toNat 0 ++ c else c)
  | zernike c o i x y => Surface.polynomial { env.zernike c o i with xorigin := x, yorigin := y }
  | bicubic xs ys z zx zy zxy p => Surface.bicubic (table env xs ys z zx zy zxy p)
  | sum ss => Surface.sum (denotes env ss)
/-- The list of C++ surfaces given to `CPPSum`. -/
def denotes (env : Env F) : List (SurfaceObj F) → List (Surface F)
  | [] => []
  | s :: ss => denote env s :: denotes env ss
end

end SurfaceObj

/-! ## Obscurations

The objects are the values of `Obsc`: the list of an `ObscUnion` or `ObscIntersection` is the attribute `items`, which the
constructor sorts by `repr`.  (The C++ object gets the unsorted list; `contains` does not depend on the order.) -/

namespace ObscObj
variable [Arith F]

/-- `sorted(items, key=repr)`: batoid/obscuration.py L386, L468.  `repr` is any function to strings. -/
def sortItems (repr : Obsc F → List Char) (items : List (Obsc F)) : List (Obsc F) :=
  items.mergeSort fun a b => decide (repr a ≤ repr b)

/-- `ObscUnion(*items)` as a Python object: batoid/obscuration.py L371-387. -/
def mkUnion (repr : Obsc F → List Char) (items : List (Obsc F)) : Obsc F := .union (sortItems repr items)
/-- `ObscIntersection(*items)` as a Python object: batoid/obscuration.py L453-469. -/
def mkIntersection (repr : Obsc F → List Char) (items : List (Obsc F)) : Obsc F := .intersection (sortItems repr items)

mutual
/-- `__eq__`: batoid/obscuration.py L64-71, L110-118, L162-171, L217-225, L268-274, L317-320, L389-392, L471-474.  Lists of
different lengths compare unequal at once. -/
def eq : Obsc F → Obsc F → Except PyErr Bool
  | .circle r x y, .circle r' x' y' => pyAnd (numEq r r') (pyAnd (numEq x x') (numEq y y'))
  | .annulus i o x y, .annulus i' o' x' y' => pyAnd (numEq i i') (pyAnd (numEq o o') (pyAnd (numEq x x') (numEq y y')))
  | .rectangle w h x y t, .rectangle w' h' x' y' t' =>
    pyAnd (numEq w w') (pyAnd (numEq h h') (pyAnd (numEq x x') (pyAnd (numEq y y') (numEq t t'))))
  | .ray w t x y, .ray w' t' x' y' => pyAnd (numEq w w') (pyAnd (numEq t t') (pyAnd (numEq x x') (numEq y y')))
  | .polygon p, .polygon p' =>
    pyAnd (npAllEq (p.map Prod.fst) (p'.map Prod.fst)) (npAllEq (p.map Prod.snd) (p'.map Prod.snd))
  | .negation o, .negation o' => eq o o'
  | .union os, .union os' => if os.length = os'.length then itemsEq os os' else .ok false
  | .intersection os, .intersection os' => if os.length = os'.length then itemsEq os os' else .ok false
  | _, _ => .ok false
/-- The elements of two lists. -/
def itemsEq : List (Obsc F) → List (Obsc F) → Except PyErr Bool
  | [], [] => .ok true
  | [], _ :: _ => .ok false
  | _ :: _, [] => .ok false
  | o :: os, o' :: os' => pyAnd (eq o o') (itemsEq os os')
end

mutual
/-- `__hash__`: batoid/obscuration.py L80-81, L127-130, L180-184, L234-238, L282-287, L328-332, L400-404, L482-486. -/
def hash {H : Type} (h : Hasher F H) : Obsc F → H
  | .circle r x y => h.tuple [h.str "batoid.ObscCircle".toList, h.num r, h.num x, h.num y]
  | .annulus i o x y => h.tuple [h.str "batoid.ObscAnnulus".toList, h.num i, h.num o, h.num x, h.num y]
  | .rectangle w ht x y t =>
    h.tuple [h.str "batoid.ObscRectangle".toList, h.num w, h.num ht, h.num x, h.num y, h.num t]
  | .ray w t x y => h.tuple [h.str "batoid.ObscRay".toList, h.num w, h.num t, h.num x, h.num y]
  | .polygon p => h.tuple [h.str "batoid.ObscPolygon".toList, h.tuple ((p.map Prod.fst).map h.num),
      h.tuple ((p.map Prod.snd).map h.num)]
  | .negation o => h.tuple [h.str "batoid.ObscNegation".toList, hash h o]
  | .union os => h.tuple [h.str "batoid.ObscUnion".toList, h.tuple (hashes h os)]
  | .intersection os => h.tuple [h.str "batoid.ObscIntersection".toList, h.tuple (hashes h os)]
/-- The hashes of `tuple(self.items)`. -/
def hashes {H : Type} (h : Hasher F H) : List (Obsc F) → List H
  | [] => []
  | o :: os => hash h o :: hashes h os
end

end ObscObj

/-! ## Frames, transforms, lattices -/

section frames
variable [Arith F]

/-- The elements of `origin`. -/
def originList (c : CoordSys F) : List F := [c.origin.x, c.origin.y, c.origin.z]
/-- The rows of `rot`. -/
def rotRows (c : CoordSys F) : List (List F) :=
  [[c.rot.m11, c.rot.m12, c.rot.m13], [c.rot.m21, c.rot.m22, c.rot.m23], [c.rot.m31, c.rot.m32, c.rot.m33]]

/-- `CoordSys.__eq__`: batoid/coordSys.py L186-191. -/
def coordSysEq (a b : CoordSys F) : Except PyErr Bool :=
  .ok (arrayEqual (originList a) (originList b) && arrayEqual2 (rotRows a) (rotRows b))

/-- `CoordSys.__hash__`: batoid/coordSys.py L196-201. -/
def coordSysHash {H : Type} (h : Hasher F H) (a : CoordSys F) : H :=
  h.tuple [h.str "batoid.CoordSys".toList, h.tuple ((originList a).map h.num), h.tuple ((rotRows a).flatten.map h.num)]

/-- The attributes of a `CoordTransform` used in comparisons: batoid/coordTransform.py L17-19. -/
structure TransformObj (F : Type) where
  fromSys : CoordSys F
  toSys : CoordSys F

/-- `CoordTransform.__eq__`: batoid/coordTransform.py L28-33. -/
def TransformObj.eq (a b : TransformObj F) : Except PyErr Bool :=
  pyAnd (coordSysEq a.fromSys b.fromSys) (coordSysEq a.toSys b.toSys)

/-- `CoordTransform.__hash__`: batoid/coordTransform.py L118-119. -/
def TransformObj.hash {H : Type} (h : Hasher F H) (a : TransformObj F) : H :=
  h.tuple [h.str "CoordTransform".toList, coordSysHash h a.fromSys, coordSysHash h a.toSys]

/-- A `Lattice` with the values of its array (flat, next to the shape): batoid/lattice.py L50-59. -/
structure LatticeObj (F : Type) where
  shape : List ℕ
  array : List F
  primitiveVectors : List (List F)

/-- `Lattice.__eq__`: batoid/lattice.py L65-70. -/
def LatticeObj.eq (a b : LatticeObj F) : Except PyErr Bool :=
  .ok (decide (a.shape = b.shape) && arrayEqual a.array b.array && arrayEqual2 a.primitiveVectors b.primitiveVectors)

/-- `Lattice.__hash__`: batoid/lattice.py L72-77. -/
def LatticeObj.hash {H : Type} (h : Hasher F H) (a : LatticeObj F) : H :=
  h.tuple [h.str "Lattice".toList, h.tuple (a.array.map h.num), h.tuple (a.primitiveVectors.flatten.map h.num)]

end frames

/-! ## Optics -/

/-- The subclass of `Interface`, with the attribute `screen` of an `OPDScreen`. -/
inductive KindObj (F : Type) where
  | plain
  | refractive
  | mirror
  | detector
  | baffle
  | screen (s : SurfaceObj F)

/-- `__class__.__name__`. -/
def KindObj.className : KindObj F → List Char
  | plain => "Interface".toList
  | refractive => "RefractiveInterface".toList
  | mirror => "Mirror".toList
  | detector => "Detector".toList
  | baffle => "Baffle".toList
  | screen _ => "OPDScreen".toList

/-- `self.__class__ == other.__class__`. -/
def KindObj.sameClass : KindObj F → KindObj F → Bool
  | plain, plain => true
  | refractive, refractive => true
  | mirror, mirror => true
  | detector, detector => true
  | baffle, baffle => true
  | screen _, screen _ => true
  | _, _ => false

/-- The attributes of an `Interface` (compare `Iface`). -/
structure IfaceObj (F : Type) where
  kind : KindObj F
  name : Name
  surface : SurfaceObj F
  obscuration : Option (Obsc F)
  coordSys : CoordSys F
  inMedium : MediumObj F
  outMedium : MediumObj F
  skip : Bool
  forwardCoating : Option (CoatingObj F)
  reverseCoating : Option (CoatingObj F)
  stop : Option (CoordSys F × SurfaceObj F)

/-- The attributes of a `CompoundOptic` other than its items (compare `Comp`). -/
structure CompObj (F : Type) where
  isLens : Bool
  name : Name
  coordSys : CoordSys F
  inMedium : MediumObj F
  outMedium : MediumObj F
  skip : Bool
  stop : Option (CoordSys F × SurfaceObj F)

/-- An optic (compare `Optic`). -/
inductive OpticObj (F : Type) where
  | iface (d : IfaceObj F)
  | compound (d : CompObj F) (items : List (OpticObj F))

section optics
variable [Arith F]

/-- `self.obscuration == other.obscuration`, either of which may be `None`. -/
def optObscEq : Option (Obsc F) → Option (Obsc F) → Except PyErr Bool
  | none, none => .ok true
  | some o, some o' => ObscObj.eq o o'
  | _, _ => .ok false

/-- `Interface.__eq__`: batoid/optic.py L548-558. -/
def IfaceObj.baseEq (a b : IfaceObj F) : Except PyErr Bool :=
  if !a.kind.sameClass b.kind then .ok false
  else pyAnd (a.surface.eq b.surface) (pyAnd (optObscEq a.obscuration b.obscuration)
    (pyAnd (.ok (decide (a.name = b.name))) (pyAnd (a.inMedium.eq b.inMedium)
      (pyAnd (a.outMedium.eq b.outMedium) (coordSysEq a.coordSys b.coordSys)))))

/-- `__eq__` of an interface; `OPDScreen` L907-910 also compares the screens. -/
def IfaceObj.eq (a b : IfaceObj F) : Except PyErr Bool :=
  match a.kind, b.kind with
  | .screen s, .screen s' => pyAnd (a.baseEq b) (s.eq s')
  | _, _ => a.baseEq b

/-- `hash(self.obscuration)`, which may be `None`. -/
def optObscHash {H : Type} (h : Hasher F H) : Option (Obsc F) → H
  | none => h.none
  | some o => ObscObj.hash h o

/-- `Interface.__hash__`: batoid/optic.py L142-144. -/
def IfaceObj.baseHash {H : Type} (h : Hasher F H) (a : IfaceObj F) : H :=
  h.tuple [h.str a.kind.className, a.surface.hash h, optObscHash h a.obscuration,
    h.str a.name, a.inMedium.hash h, a.outMedium.hash h, coordSysHash h a.coordSys]

/-- `__hash__` of an interface; `OPDScreen`: batoid/optic.py L902-906. -/
def IfaceObj.hash {H : Type} (h : Hasher F H) (a : IfaceObj F) : H :=
  match a.kind with
  | .screen s => h.tuple [h.ofHash (a.baseHash h), s.hash h]
  | _ => a.baseHash h

namespace OpticObj

mutual
/-- `__eq__`: batoid/optic.py L548-558, L907-910, L1333-1340. -/
def eq : OpticObj F → OpticObj F → Except PyErr Bool
  | iface a, iface b => a.eq b
  | compound a xs, compound b ys =>
    if a.isLens != b.isLens then .ok false
    else pyAnd (itemsEq xs ys) (pyAnd (.ok (decide (a.name = b.name))) (pyAnd (a.inMedium.eq b.inMedium)
      (pyAnd (a.outMedium.eq b.outMedium) (coordSysEq a.coordSys b.coordSys))))
  | _, _ => .ok false
/-- `==` of the tuples `items`. -/
def itemsEq : List (OpticObj F) → List (OpticObj F) → Except PyErr Bool
  | [], [] => .ok true
  | [], _ :: _ => .ok false
  | _ :: _, [] => .ok false
  | o :: os, o' :: os' => pyAnd (eq o o') (itemsEq os os')
end

mutual
/-- `__hash__`: batoid/optic.py L142-144, L902-906, L1354-1356. -/
def hash {H : Type} (h : Hasher F H) : OpticObj F → H
  | iface a => a.hash h
  | compound a xs =>
    h.tuple [h.str (if a.isLens then "Lens".toList else "CompoundOptic".toList), h.tuple (hashes h xs), h.str a.name,
      a.inMedium.hash h, a.outMedium.hash h, coordSysHash h a.coordSys]
/-- The hashes of `self.items`. -/
def hashes {H : Type} (h : Hasher F H) : List (OpticObj F) → List H
  | [] => []
  | o :: os => hash h o :: hashes h os
end

end OpticObj

/-- The class and its screen. -/
def KindObj.denote (env : Env F) : KindObj F → Kind F
  | plain => .plain
  | refractive => .refractive
  | mirror => .mirror
  | detector => .detector
  | baffle => .baffle
  | screen s => .screen (s.denote env)

/-- A `stopSurface`. -/
def stopDenote (env : Env F) (s : CoordSys F × SurfaceObj F) : Stop F := ⟨s.1, s.2.denote env⟩

/-- The interface that the rest of the model works with. -/
def IfaceObj.denote (env : Env F) (a : IfaceObj F) : Iface F where
  kind := a.kind.denote env
  name := a.name
  surface := a.surface.denote env
  obscuration := a.obscuration
  coordSys := a.coordSys
  inMedium := a.inMedium.denote env.junk
  outMedium := a.outMedium.denote env.junk
  skip := a.skip
  forwardCoating := a.forwardCoating.map CoatingObj.denote
  reverseCoating := a.reverseCoating.map CoatingObj.denote
  stop := a.stop.map (stopDenote env)

/-- The compound that the rest of the model works with. -/
def CompObj.denote (env : Env F) (a : CompObj F) : Comp F where
  isLens := a.isLens
  name := a.name
  coordSys := a.coordSys
  inMedium := a.inMedium.denote env.junk
  outMedium := a.outMedium.denote env.junk
  skip := a.skip
  stop := a.stop.map (stopDenote env)

namespace OpticObj

/-- `optic.skip`. -/
def skip : OpticObj F → Bool
  | iface a => a.skip
  | compound a _ => a.skip

mutual
/-- The optic that the rest of the model works with. -/
def denote (env : Env F) : OpticObj F → Optic F
  | iface a => .iface (a.denote env)
  | compound a xs => .compound (a.denote env) (denotes env xs)
/-- Its items. -/
def denotes (env : Env F) : List (OpticObj F) → List (Optic F)
  | [] => []
  | o :: os => denote env o :: denotes env os
end

end OpticObj
end optics
end Batoid.Objects
