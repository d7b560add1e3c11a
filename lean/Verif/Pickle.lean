import Verif.Objects

/-!
# Pickling

Model of `__getstate__` and `__setstate__` of `batoid/medium.py`, `batoid/coating.py`, `batoid/surface.py`,
`batoid/obscuration.py`, `batoid/coordSys.py`, `batoid/coordTransform.py`, `batoid/rayVector.py`, and of the default
pickling of the attributes for `batoid/optic.py`.

`pickle` is the value that goes into the file: a class name and the state that `__getstate__` returns, nested objects
pickled.  `unpickle` makes an object without calling `__init__` and gives it the state by `__setstate__`, which has to set
up the attributes and the C++ side object; it returns both.

Simplifications:
* Pickle protocol 2 or later (the default of Python is 4 or 5).  In protocols 0 and 1 a state that is false is not restored.
* Sharing of one object by several others is not modelled (batoid does not depend on it).
* Arrays are two dimensional lists of rows, or lists.
* User subclasses, and the attributes of optics that no other part of this model uses, are left out.
-/

namespace Batoid.Objects
open Arith

variable {F : Type}

/-- Classes of objects that can be pickled. -/
inductive Cls where
  | constMedium | tableMedium | sellmeierMedium | sumitaMedium | air
  | simpleCoating
  | plane | tilted | paraboloid | sphere | quadric | asphere | zernike | bicubic | sum
  | obscCircle | obscAnnulus | obscRectangle | obscRay | obscPolygon | obscNegation | obscUnion | obscIntersection
  | coordSys | coordTransform | rayVector
  | interface | refractiveInterface | mirror | detector | baffle | opdScreen | compoundOptic | lens

/-- Pickled values. -/
inductive PVal (F : Type) where
  | none
  | bool (b : Bool)
  | int (i : ℤ)
  | num (x : F)
  | str (s : List Char)
  | array (xs : List F)
  | array2 (rows : List (List F))
  | flags (bs : List Bool)
  | tuple (xs : List (PVal F))
  | list (xs : List (PVal F))
  | dict (xs : List (PVal F))
  | inst (cls : Cls) (state : PVal F)

/-! ## Media and coatings -/

namespace MediumObj
variable [Arith F]

/-- Class and `__getstate__`: batoid/medium.py L47-48, L109-110, L159-160, L209-210, L258-259. -/
def pickle : MediumObj F → PVal F
  | const n => .inst .constMedium (.num n)
  | table w n => .inst .tableMedium (.tuple [.array w, .array n])
  | sellmeier a b c d e f => .inst .sellmeierMedium (.tuple [.num a, .num b, .num c, .num d, .num e, .num f])
  | sumita a b c d e f => .inst .sumitaMedium (.tuple [.num a, .num b, .num c, .num d, .num e, .num f])
  | air p t h => .inst .air (.tuple [.num p, .num t, .num h])

/-- `__setstate__`: batoid/medium.py L50-52, L112-113 with L71-78, L162-164, L212-214, L261-265. -/
def unpickle (junk : F) : PVal F → Except PyErr (MediumObj F × Medium F)
  | .inst .constMedium (.num n) => .ok (const n, Medium.const n)
  | .inst .tableMedium (.tuple [.array w, .array n]) => .ok (table w n, Medium.table w n junk)
  | .inst .sellmeierMedium (.tuple [.num a, .num b, .num c, .num d, .num e, .num f]) =>
    .ok (sellmeier a b c d e f, ⟨Medium.sellmeierN a b c d e f⟩)
  | .inst .sumitaMedium (.tuple [.num a, .num b, .num c, .num d, .num e, .num f]) =>
    .ok (sumita a b c d e f, ⟨Medium.sumitaN a b c d e f⟩)
  | .inst .air (.tuple [.num p, .num t, .num h]) => .ok (air p t h, ⟨Medium.airN p t h⟩)
  | _ => .error .typeError

end MediumObj

namespace CoatingObj
variable [Arith F]

/-- Class and `__getstate__`: batoid/coating.py L95-96. -/
def pickle (a : CoatingObj F) : PVal F := .inst .simpleCoating (.tuple [.num a.reflectivity, .num a.transmissivity])

/-- `__setstate__`: batoid/coating.py L98-99 with L82-86. -/
def unpickle : PVal F → Except PyErr (CoatingObj F × Coating F)
  | .inst .simpleCoating (.tuple [.num r, .num t]) => .ok (⟨r, t⟩, .simple r t)
  | _ => .error .typeError

end CoatingObj

/-! ## Surfaces -/

namespace SurfaceObj
variable [Arith F]

mutual
/-- Class and `__getstate__`: batoid/surface.py L180-181, L209-210, L247-248, L283-284, L330-331, L413-414, L496-497,
L638-642, L702-703. -/
def pickle : SurfaceObj F → PVal F
  | plane => .inst .plane (.tuple [])
  | tilted a b => .inst .tilted (.tuple [.num a, .num b])
  | paraboloid R => .inst .paraboloid (.num R)
  | sphere R => .inst .sphere (.num R)
  | quadric R k => .inst .quadric (.tuple [.num R, .num k])
  | asphere R k c i => .inst .asphere (.tuple [.num R, .num k, .array c, .int i])
  | zernike c o i x y => .inst .zernike (.tuple [.array c, .num o, .num i, .num x, .num y])
  | bicubic xs ys z zx zy zxy p =>
    .inst .bicubic (.tuple [.array xs, .array ys, .array2 z, .array2 zx, .array2 zy, .array2 zxy, .str p])
  | sum ss => .inst .sum (.tuple (pickles ss))
/-- The items of a tuple. -/
def pickles : List (SurfaceObj F) → List (PVal F)
  | [] => []
  | s :: ss => pickle s :: pickles ss
end

/-- `Asphere.__init__`: batoid/surface.py L378-399. -/
def initAsphere (R k : F) (c : List F) (i : ℤ) : Except PyErr (SurfaceObj F × Surface F) :=
  (Surface.asphereCtor i c).map fun padded => (asphere R k c i, Surface.asphere R k padded)

/-- `Bicubic.__setstate__`, the C++ object: batoid/surface.py L621-636. -/
def restoreTable (env : Env F) (xs ys : List F) (z zx zy zxy : List (List F)) (nanpolicy : List Char) : Surface.Table F where
  x0 := xs.headD env.junk
  y0 := ys.headD env.junk
  dx := (xs.getLastD env.junk - xs.headD env.junk) / Arith.const ((xs.length - 1 : ℕ) : ℚ)
  dy := (ys.getLastD env.junk - ys.headD env.junk) / Arith.const ((ys.length - 1 : ℕ) : ℚ)
  z := fun k => z.flatten.getD k env.junk
  dzdx := fun k => zx.flatten.getD k env.junk
  dzdy := fun k => zy.flatten.getD k env.junk
  d2zdxdy := fun k => zxy.flatten.getD k env.junk
  nx := xs.length
  ny := ys.length
  useNan := decide (upper nanpolicy = "NAN".toList)

mutual
/-- `__setstate__`: batoid/surface.py L177-178, L205-207, L244-245, L280-281, L327-328, L410-411, L493-494, L617-636,
L699-700 with L687-694. -/
def unpickle (env : Env F) : PVal F → Except PyErr (SurfaceObj F × Surface F)
  | .inst .plane _ => .ok (plane, Surface.plane)
  | .inst .tilted (.tuple [.num a, .num b]) => .ok (tilted a b, Surface.tilted a b)
  | .inst .paraboloid (.num R) => .ok (paraboloid R, Surface.paraboloid R)
  | .inst .sphere (.num R) => .ok (sphere R, Surface.sphere R)
  | .inst .quadric (.tuple [.num R, .num k]) => .ok (quadric R k, Surface.quadric R k)
  | .inst .asphere (.tuple [.num R, .num k, .array c, .int i]) => initAsphere R k c i
  | .inst .zernike (.tuple [.array c, .num o, .num i, .num x, .num y]) =>
    .ok (zernike c o i x y, Surface.polynomial { env.zernike c o i with xorigin := x, yorigin := y })
  | .inst .bicubic (.tuple [.array xs, .array ys, .array2 z, .array2 zx, .array2 zy, .array2 zxy, .str p]) =>
    .ok (bicubic xs ys z zx zy zxy p, Surface.bicubic (restoreTable env xs ys z zx zy zxy p))
  | .inst .sum (.tuple xs) => (unpickles env xs).map fun l => (sum (l.map Prod.fst), Surface.sum (l.map Prod.snd))
  | _ => .error .typeError
/-- The items of a tuple. -/
def unpickles (env : Env F) : List (PVal F) → Except PyErr (List (SurfaceObj F × Surface F))
  | [] => .ok []
  | x :: xs => match unpickle env x with
    | .error e => .error e
    | .ok s => match unpickles env xs with
      | .error e => .error e
      | .ok ss => .ok (s :: ss)
end

end SurfaceObj

/-! ## Obscurations

The C++ object of a union is built from the list that `__init__` is given, the attribute `items` is sorted. -/

namespace ObscObj
variable [Arith F]

mutual
/-- Class and `__getstate__`: batoid/obscuration.py L73-74, L120-121, L173-174, L227-228, L276-277, L322-323, L394-395,
L476-477. -/
def pickle : Obsc F → PVal F
  | .circle r x y => .inst .obscCircle (.tuple [.num r, .num x, .num y])
  | .annulus i o x y => .inst .obscAnnulus (.tuple [.num i, .num o, .num x, .num y])
  | .rectangle w h x y t => .inst .obscRectangle (.tuple [.num w, .num h, .num x, .num y, .num t])
  | .ray w t x y => .inst .obscRay (.tuple [.num w, .num t, .num x, .num y])
  | .polygon p => .inst .obscPolygon (.tuple [.array (p.map Prod.fst), .array (p.map Prod.snd)])
  | .negation o => .inst .obscNegation (pickle o)
  | .union os => .inst .obscUnion (.list (pickles os))
  | .intersection os => .inst .obscIntersection (.list (pickles os))
/-- The items of a list. -/
def pickles : List (Obsc F) → List (PVal F)
  | [] => []
  | o :: os => pickle o :: pickles os
end

mutual
/-- `__setstate__`: batoid/obscuration.py L76-78, L123-125, L176-178, L230-232, L279-280 with L258-265, L325-326 with
L313-315, L397-398 with L371-387, L479-480 with L453-469. -/
def unpickle (repr : Obsc F → List Char) : PVal F → Except PyErr (Obsc F × Obsc F)
  | .inst .obscCircle (.tuple [.num r, .num x, .num y]) => .ok (.circle r x y, .circle r x y)
  | .inst .obscAnnulus (.tuple [.num i, .num o, .num x, .num y]) => .ok (.annulus i o x y, .annulus i o x y)
  | .inst .obscRectangle (.tuple [.num w, .num h, .num x, .num y, .num t]) => .ok (.rectangle w h x y t, .rectangle w h x y t)
  | .inst .obscRay (.tuple [.num w, .num t, .num x, .num y]) => .ok (.ray w t x y, .ray w t x y)
  | .inst .obscPolygon (.tuple [.array xs, .array ys]) => .ok (.polygon (xs.zip ys), .polygon (xs.zip ys))
  | .inst .obscNegation x => (unpickle repr x).map fun o => (.negation o.1, .negation o.2)
  | .inst .obscUnion (.list xs) => (unpickles repr xs).map fun l => (mkUnion repr (l.map Prod.fst), .union (l.map Prod.snd))
  | .inst .obscIntersection (.list xs) =>
    (unpickles repr xs).map fun l => (mkIntersection repr (l.map Prod.fst), .intersection (l.map Prod.snd))
  | _ => .error .typeError
/-- The items of a list. -/
def unpickles (repr : Obsc F → List Char) : List (PVal F) → Except PyErr (List (Obsc F × Obsc F))
  | [] => .ok []
  | x :: xs => match unpickle repr x with
    | .error e => .error e
    | .ok s => match unpickles repr xs with
      | .error e => .error e
      | .ok ss => .ok (s :: ss)
end

end ObscObj

/-! ## Frames, transforms, rays -/

section frames
variable [Arith F]

/-- Class and `__getstate__`: batoid/coordSys.py L180-181. -/
def coordSysPickle (c : CoordSys F) : PVal F := .inst .coordSys (.tuple [.array (originList c), .array2 (rotRows c)])

/-- `__setstate__`: batoid/coordSys.py L183-184. -/
def coordSysUnpickle : PVal F → Except PyErr (CoordSys F)
  | .inst .coordSys (.tuple [.array [x, y, z], .array2 [[a, b, c], [d, e, f], [g, h, i]]]) =>
    .ok ⟨⟨x, y, z⟩, ⟨a, b, c, d, e, f, g, h, i⟩⟩
  | _ => .error .typeError

/-- Class and `__getstate__`: batoid/coordTransform.py L22-23. -/
def transformPickle (c : CoordTransform F) : PVal F :=
  .inst .coordTransform (.tuple [coordSysPickle c.fromSys, coordSysPickle c.toSys])

/-- `__setstate__`: batoid/coordTransform.py L25-26 with L16-20. -/
def transformUnpickle : PVal F → Except PyErr (CoordTransform F)
  | .inst .coordTransform (.tuple [a, b]) => do
    let a ← coordSysUnpickle a
    let b ← coordSysUnpickle b
    .ok (CoordTransform.make a b)
  | _ => .error .typeError

/-- Class and `__getstate__`: batoid/rayVector.py L1305-1312. -/
def raysPickle (rv : RayVec F) : PVal F :=
  .inst .rayVector (.tuple [.array (rv.rays.map (·.r.x)), .array (rv.rays.map (·.r.y)), .array (rv.rays.map (·.r.z)),
    .array (rv.rays.map (·.v.x)), .array (rv.rays.map (·.v.y)), .array (rv.rays.map (·.v.z)), .array (rv.rays.map (·.t)),
    .array (rv.rays.map (·.wavelength)), .array (rv.rays.map (·.flux)), .flags (rv.rays.map (·.vignetted)),
    .flags (rv.rays.map (·.failed)), coordSysPickle rv.coordSys])

/-- The rays of the eleven arrays: src/rayVector.cpp reads them at one index; the number of rays is `len(self._wavelength)`,
batoid/rayVector.py L1214-1223.  `junk` stands for reads outside an array. -/
def raysOf (junk : F) (x y z vx vy vz t w f : List F) (vig fail : List Bool) : List (Ray F) :=
  (List.range w.length).map fun i =>
    ⟨⟨x.getD i junk, y.getD i junk, z.getD i junk⟩, ⟨vx.getD i junk, vy.getD i junk, vz.getD i junk⟩, t.getD i junk, w.getD i junk,
      f.getD i junk, vig.getD i false, fail.getD i false⟩

/-- `__setstate__`: batoid/rayVector.py L1314-1318. -/
def raysUnpickle (junk : F) : PVal F → Except PyErr (RayVec F)
  | .inst .rayVector (.tuple [.array x, .array y, .array z, .array vx, .array vy, .array vz, .array t, .array w, .array f,
      .flags vig, .flags fail, cs]) => do
    let cs ← coordSysUnpickle cs
    .ok ⟨raysOf junk x y z vx vy vz t w f vig fail, cs⟩
  | _ => .error .typeError

end frames

/-! ## Optics

Optics define neither `__getstate__` nor `__setstate__`: the dictionary of their attributes is pickled and restored.  The
dictionary is modelled as the list of its values in a fixed order. -/

section optics
variable [Arith F]

/-- An attribute that may be `None`. -/
def optPickle {α : Type} (f : α → PVal F) : Option α → PVal F
  | none => .none
  | some a => f a

/-- An attribute that may be `None`. -/
def optUnpickle {α : Type} (f : PVal F → Except PyErr α) : PVal F → Except PyErr (Option α)
  | .none => .ok none
  | x => (f x).map some

/-- The class of an interface. -/
def KindObj.cls : KindObj F → Cls
  | plain => .interface
  | refractive => .refractiveInterface
  | mirror => .mirror
  | detector => .detector
  | baffle => .baffle
  | screen _ => .opdScreen

/-- The attribute `screen` of an `OPDScreen`: batoid/optic.py L888-890. -/
def KindObj.screenPickle : KindObj F → PVal F
  | screen s => s.pickle
  | _ => .none

/-- The class and its screen. -/
def kindUnpickle (env : Env F) : Cls → PVal F → Except PyErr (KindObj F × Kind F)
  | .interface, _ => .ok (.plain, .plain)
  | .refractiveInterface, _ => .ok (.refractive, .refractive)
  | .mirror, _ => .ok (.mirror, .mirror)
  | .detector, _ => .ok (.detector, .detector)
  | .baffle, _ => .ok (.baffle, .baffle)
  | .opdScreen, x => (SurfaceObj.unpickle env x).map fun s => (.screen s.1, .screen s.2)
  | _, _ => .error .typeError

/-- A `stopSurface` is a pickled `Interface` of which only frame and surface are used. -/
def stopPickle (s : CoordSys F × SurfaceObj F) : PVal F := .inst .interface (.dict [coordSysPickle s.1, s.2.pickle])

/-- The restored `stopSurface`. -/
def stopUnpickle (env : Env F) : PVal F → Except PyErr ((CoordSys F × SurfaceObj F) × Stop F)
  | .inst .interface (.dict [cs, s]) => do
    let cs ← coordSysUnpickle cs
    let s ← SurfaceObj.unpickle env s
    .ok ((cs, s.1), ⟨cs, s.2⟩)
  | _ => .error .typeError

/-- Class and attributes of an interface. -/
def IfaceObj.pickle (a : IfaceObj F) : PVal F :=
  .inst a.kind.cls (.dict [.str a.name, a.surface.pickle, optPickle ObscObj.pickle a.obscuration, coordSysPickle a.coordSys,
    a.inMedium.pickle, a.outMedium.pickle, .bool a.skip, optPickle CoatingObj.pickle a.forwardCoating,
    optPickle CoatingObj.pickle a.reverseCoating, optPickle stopPickle a.stop, a.kind.screenPickle])

/-- The restored interface, as Python object and as what the rest of the model works with. -/
def ifaceUnpickle (env : Env F) (repr : Obsc F → List Char) (cls : Cls) : List (PVal F) → Except PyErr (IfaceObj F × Iface F)
  | [.str name, surface, obscuration, cs, inMedium, outMedium, .bool skip, forward, reverse, stop, screen] => do
    let kind ← kindUnpickle env cls screen
    let surface ← SurfaceObj.unpickle env surface
    let obscuration ← optUnpickle (ObscObj.unpickle repr) obscuration
    let cs ← coordSysUnpickle cs
    let inMedium ← MediumObj.unpickle env.junk inMedium
    let outMedium ← MediumObj.unpickle env.junk outMedium
    let forward ← optUnpickle CoatingObj.unpickle forward
    let reverse ← optUnpickle CoatingObj.unpickle reverse
    let stop ← optUnpickle (stopUnpickle env) stop
    .ok (⟨kind.1, name, surface.1, obscuration.map Prod.fst, cs, inMedium.1, outMedium.1, skip, forward.map Prod.fst,
        reverse.map Prod.fst, stop.map Prod.fst⟩,
      ⟨kind.2, name, surface.2, obscuration.map Prod.snd, cs, inMedium.2, outMedium.2, skip, forward.map Prod.snd,
        reverse.map Prod.snd, stop.map Prod.snd⟩)
  | _ => .error .typeError

namespace OpticObj

mutual
/-- Class and attributes of an optic. -/
def pickle : OpticObj F → PVal F
  | iface a => a.pickle
  | compound a xs =>
    .inst (if a.isLens then .lens else .compoundOptic) (.dict [.str a.name, coordSysPickle a.coordSys, a.inMedium.pickle,
      a.outMedium.pickle, .bool a.skip, optPickle stopPickle a.stop, .tuple (pickles xs)])
/-- The items of a tuple. -/
def pickles : List (OpticObj F) → List (PVal F)
  | [] => []
  | o :: os => pickle o :: pickles os
end

/-- The attributes of a compound other than its items. -/
def compUnpickle (env : Env F) (isLens : Bool) (name : Name) (cs inMedium outMedium : PVal F) (skip : Bool) (stop : PVal F) :
    Except PyErr (CompObj F × Comp F) := do
  let cs ← coordSysUnpickle cs
  let inMedium ← MediumObj.unpickle env.junk inMedium
  let outMedium ← MediumObj.unpickle env.junk outMedium
  let stop ← optUnpickle (stopUnpickle env) stop
  .ok (⟨isLens, name, cs, inMedium.1, outMedium.1, skip, stop.map Prod.fst⟩,
    ⟨isLens, name, cs, inMedium.2, outMedium.2, skip, stop.map Prod.snd⟩)

/-- A restored compound with its restored items. -/
def withItems (a : Except PyErr (CompObj F × Comp F)) (items : Except PyErr (List (OpticObj F × Optic F))) :
    Except PyErr (OpticObj F × Optic F) := do
  let a ← a
  let l ← items
  .ok (compound a.1 (l.map Prod.fst), .compound a.2 (l.map Prod.snd))

/-- A restored interface. -/
def ofIface (d : Except PyErr (IfaceObj F × Iface F)) : Except PyErr (OpticObj F × Optic F) :=
  d.map fun d => (iface d.1, .iface d.2)

mutual
/-- The restored optic, as Python object and as what the rest of the model works with. -/
def unpickle (env : Env F) (repr : Obsc F → List Char) : PVal F → Except PyErr (OpticObj F × Optic F)
  | .inst .lens (.dict [.str name, cs, inMedium, outMedium, .bool skip, stop, .tuple xs]) =>
    withItems (compUnpickle env true name cs inMedium outMedium skip stop) (unpickles env repr xs)
  | .inst .compoundOptic (.dict [.str name, cs, inMedium, outMedium, .bool skip, stop, .tuple xs]) =>
    withItems (compUnpickle env false name cs inMedium outMedium skip stop) (unpickles env repr xs)
  | .inst .interface (.dict attrs) => ofIface (ifaceUnpickle env repr .interface attrs)
  | .inst .refractiveInterface (.dict attrs) => ofIface (ifaceUnpickle env repr .refractiveInterface attrs)
  | .inst .mirror (.dict attrs) => ofIface (ifaceUnpickle env repr .mirror attrs)
  | .inst .detector (.dict attrs) => ofIface (ifaceUnpickle env repr .detector attrs)
  | .inst .baffle (.dict attrs) => ofIface (ifaceUnpickle env repr .baffle attrs)
  | .inst .opdScreen (.dict attrs) => ofIface (ifaceUnpickle env repr .opdScreen attrs)
  | _ => .error .typeError
/-- The items of a tuple. -/
def unpickles (env : Env F) (repr : Obsc F → List Char) : List (PVal F) → Except PyErr (List (OpticObj F × Optic F))
  | [] => .ok []
  | x :: xs => match unpickle env repr x with
    | .error e => .error e
    | .ok s => match unpickles env repr xs with
      | .error e => .error e
      | .ok ss => .ok (s :: ss)
end

end OpticObj
end optics
end Batoid.Objects
