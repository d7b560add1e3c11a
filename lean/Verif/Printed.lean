import Verif.Objects

/-!
# Printing objects and reading them back

Model of the `__repr__` methods of all classes, and of `eval` of what they print (tests/test_helpers.py L50-100 states what it should give).

Simplifications:
* A text is modelled by its syntax tree (`Expr`): a call of a class with positional and keyword arguments.
* `str` of a float is read back as the same float (Python prints the shortest such text).  The text of an array is up to numpy, a parameter (`Printer`): it rounds to
  eight digits and leaves out the middle of long arrays.
* `coefs` of an `Asphere` is printed like an array; a list is printed exactly.
* Names of optics are strings, not `None`.
* Arguments of other types than those that `__repr__` prints count as `TypeError`.
* `Bicubic` needs at least one `x` and one `y`, also to be made in the first place; that is not modelled.
-/

namespace Batoid.Printed
open Batoid.Objects

variable {F T : Type}

/-- An array, by its shape. -/
inductive NdArr (F : Type) where
  | vec (a : List F)
  | mat (rows : List (List F))
  | nd (shape : List ℕ) (data : List F)
  | bools (b : List Bool)

/-- The classes. -/
inductive Cls where
  | plane | tilted | paraboloid | sphere | quadric | asphere | zernike | bicubic | sum
  | constMedium | tableMedium | sellmeier | sumita | air
  | simpleCoating
  | circle | annulus | rectangle | ray | polygon | negation | union | intersection
  | coordSys | coordTransform | lattice | rayVector
  | interface | refractive | mirror | detector | baffle | screen | compound | lens
deriving DecidableEq

/-- The names of parameters. -/
inductive Kw where
  | tanx | tany | R | conic | coefs | imin | coef | R_outer | R_inner | x_origin | y_origin
  | xs | ys | zs | dzdxs | dzdys | d2zdxdys | nanpolicy
  | n | wavelengths | ns | pressure | temperature | h2o_pressure
  | reflectivity | transmissivity
  | radius | inner | outer | x | y | width | height | theta | original
  | origin | rot | fromSys | toSys | array | primitiveVectors
  | z | vx | vy | vz | t | wavelength | flux | vignetted | failed
  | surface | screen | items | obscuration | name | coordSys | inMedium | outMedium
deriving DecidableEq

/-- What `repr` prints.  A call has its positional arguments first; the last ones are keyword arguments, with the names given. -/
inductive Expr (F T : Type) where
  | num (x : F)
  | int (k : ℤ)
  | str (s : List Char)
  | arr (t : T)
  | tuple (es : List (Expr F T))
  | list (es : List (Expr F T))
  | call (c : Cls) (args : List (Expr F T)) (kws : List Kw)

/-- How numpy prints arrays, and what reading that gives. -/
structure Printer (F T : Type) where
  text : NdArr F → T
  read : T → Except PyErr (NdArr F)

/-! ## `__repr__` -/

section repr
variable [Arith F] (p : Printer F T)

/-- batoid/medium.py L57-58, L120-121, L169-170, L219-220, L272-273. -/
def mediumRepr : MediumObj F → Expr F T
  | .const n => .call .constMedium [.num n] []
  | .table w n => .call .tableMedium [.arr (p.text (.vec w)), .arr (p.text (.vec n))] []
  | .sellmeier a b c d e f => .call .sellmeier [.tuple [.num a, .num b, .num c, .num d, .num e, .num f]] []
  | .sumita a b c d e f => .call .sumita [.tuple [.num a, .num b, .num c, .num d, .num e, .num f]] []
  | .air q t h => .call .air [.num q, .num t, .num h] []

/-- batoid/coating.py L104-105. -/
def coatingRepr (c : CoatingObj F) : Expr F T := .call .simpleCoating [.num c.reflectivity, .num c.transmissivity] []

/-- An argument that is printed only `if x != d`. -/
def ifNot (x d : F) (k : Kw) : List (Kw × Expr F T) := if Arith.eq x d then [] else [(k, .num x)]

/-- A call whose last arguments have keywords. -/
def callKw (c : Cls) (args : List (Expr F T)) (kws : List (Kw × Expr F T)) : Expr F T := .call c (args ++ kws.map Prod.snd) (kws.map Prod.fst)

mutual
/-- batoid/surface.py L186-187, L216-217, L254-255, L290-291, L338-339, L424-430, L507-518, L656-663, L709-710. -/
def surfaceRepr : SurfaceObj F → Expr F T
  | .plane => .call .plane [] []
  | .tilted a b => .call .tilted [.num a, .num b] []
  | .paraboloid R => .call .paraboloid [.num R] []
  | .sphere R => .call .sphere [.num R] []
  | .quadric R k => .call .quadric [.num R, .num k] []
  | .asphere R k cs imin =>
    callKw .asphere [.num R, .num k, .arr (p.text (.vec cs))] (if imin = 2 then [] else [(.imin, .int imin)])
  | .zernike cs outer inner x0 y0 =>
    callKw .zernike [.arr (p.text (.vec cs))] (ifNot outer 1 .R_outer ++ ifNot inner 0 .R_inner ++ ifNot x0 0 .x_origin ++ ifNot y0 0 .y_origin)
  | .bicubic xs ys zs zx zy zxy np =>
    callKw .bicubic [.arr (p.text (.vec xs)), .arr (p.text (.vec ys)), .arr (p.text (.mat zs)), .arr (p.text (.mat zx)), .arr (p.text (.mat zy)), .arr (p.text (.mat zxy))]
      (if upper np = "NAN".toList then [] else [(.nanpolicy, .str "zero".toList)])
  | .sum ss => .call .sum [.tuple (surfaceReprs ss)] []
/-- The elements of a tuple. -/
def surfaceReprs : List (SurfaceObj F) → List (Expr F T)
  | [] => []
  | s :: ss => surfaceRepr s :: surfaceReprs ss
end

/-- `if self.x != 0 or self.y != 0: out += f", {self.x}, {self.y}"`. -/
def centre (x y : F) : List (Expr F T) := if Arith.eq x 0 && Arith.eq y 0 then [] else [.num x, .num y]

/-- A call of a class that takes its items as arguments; `self.items[0]` of no items raises. -/
def itemsCall (c : Cls) : Except PyErr (List (Expr F T)) → Except PyErr (Expr F T)
  | .error e => .error e
  | .ok [] => .error .indexError
  | .ok es => .ok (.call c es [])

mutual
/-- batoid/obscuration.py L83-88, L132-137, L186-193, L240-245, L289-290, L334-335, L406-411, L488-493. -/
def obscRepr : Obsc F → Except PyErr (Expr F T)
  | .circle r x y => .ok (.call .circle ([.num r] ++ centre x y) [])
  | .annulus i o x y => .ok (.call .annulus ([.num i, .num o] ++ centre x y) [])
  | .rectangle w h x y θ => .ok (callKw .rectangle ([.num w, .num h] ++ centre x y) (ifNot θ 0 .theta))
  | .ray w θ x y => .ok (.call .ray ([.num w, .num θ] ++ centre x y) [])
  | .polygon ps => .ok (.call .polygon [.arr (p.text (.vec (ps.map Prod.fst))), .arr (p.text (.vec (ps.map Prod.snd)))] [])
  | .negation o => match obscRepr o with
    | .error e => .error e
    | .ok e => .ok (.call .negation [e] [])
  | .union os => itemsCall .union (obscReprs os)
  | .intersection os => itemsCall .intersection (obscReprs os)
/-- The items, in order. -/
def obscReprs : List (Obsc F) → Except PyErr (List (Expr F T))
  | [] => .ok []
  | o :: os => match obscRepr o with
    | .error e => .error e
    | .ok e => match obscReprs os with
      | .error e => .error e
      | .ok es => .ok (e :: es)
end

/-- batoid/coordSys.py L206-208. -/
def coordSysRepr (c : CoordSys F) : Expr F T := .call .coordSys [.arr (p.text (.vec (originList c))), .arr (p.text (.mat (rotRows c)))] []

/-- batoid/coordTransform.py L115-116. -/
def transformRepr (c : TransformObj F) : Expr F T := .call .coordTransform [coordSysRepr p c.fromSys, coordSysRepr p c.toSys] []

/-- batoid/lattice.py L79-80. -/
def latticeRepr (l : LatticeObj F) : Expr F T := .call .lattice [.arr (p.text (.nd l.shape l.array)), .arr (p.text (.mat l.primitiveVectors))] []

/-- batoid/rayVector.py L1298-1303. -/
def raysRepr (rv : RayVec F) : Expr F T :=
  .call .rayVector [
    .arr (p.text (.vec (rv.rays.map (·.r.x)))), .arr (p.text (.vec (rv.rays.map (·.r.y)))), .arr (p.text (.vec (rv.rays.map (·.r.z)))),
    .arr (p.text (.vec (rv.rays.map (·.v.x)))), .arr (p.text (.vec (rv.rays.map (·.v.y)))), .arr (p.text (.vec (rv.rays.map (·.v.z)))),
    .arr (p.text (.vec (rv.rays.map (·.t)))), .arr (p.text (.vec (rv.rays.map (·.wavelength)))), .arr (p.text (.vec (rv.rays.map (·.flux)))),
    .arr (p.text (.bools (rv.rays.map (·.vignetted)))), .arr (p.text (.bools (rv.rays.map (·.failed)))), coordSysRepr p rv.coordSys] []

/-- `vacuum`: batoid/constants.py L5. -/
def vacuumObj : MediumObj F := .const 1

/-- `m != vacuum`. -/
def isVacuum (m : MediumObj F) : Bool := match m.eq vacuumObj with
  | .ok b => b
  | .error _ => false

/-- `_repr_helper`: batoid/optic.py L48-57. -/
def helper (name : Name) (c : CoordSys F) (m1 m2 : MediumObj F) : List (Kw × Expr F T) :=
  [(.name, .str name), (.coordSys, coordSysRepr p c)] ++ (if isVacuum m1 then [] else [(.inMedium, mediumRepr p m1)])
    ++ (if isVacuum m2 then [] else [(.outMedium, mediumRepr p m2)])

/-- `__class__`. -/
def kindCls : KindObj F → Cls
  | .plain => .interface
  | .refractive => .refractive
  | .mirror => .mirror
  | .detector => .detector
  | .baffle => .baffle
  | .screen _ => .screen

/-- The positional arguments. -/
def ifaceArgs (d : IfaceObj F) : List (Expr F T) := match d.kind with
  | .screen s => [surfaceRepr p d.surface, surfaceRepr p s]
  | _ => [surfaceRepr p d.surface]

/-- batoid/optic.py L563-569, L894-900. -/
def ifaceRepr (d : IfaceObj F) : Except PyErr (Expr F T) :=
  match d.obscuration with
  | none => .ok (callKw (kindCls d.kind) (ifaceArgs p d) (helper p d.name d.coordSys d.inMedium d.outMedium))
  | some o => match obscRepr p o with
    | .error e => .error e
    | .ok e => .ok (callKw (kindCls d.kind) (ifaceArgs p d) ((.obscuration, e) :: helper p d.name d.coordSys d.inMedium d.outMedium))

mutual
/-- batoid/optic.py L1345-1352: `self.items[-1]` of no items raises. -/
def opticRepr : OpticObj F → Except PyErr (Expr F T)
  | .iface d => ifaceRepr p d
  | .compound d items =>
    match opticReprs items with
    | .error e => .error e
    | .ok [] => .error .indexError
    | .ok es => .ok (callKw (if d.isLens then .lens else .compound) [.list es] (helper p d.name d.coordSys d.inMedium d.outMedium))
/-- The items, in order. -/
def opticReprs : List (OpticObj F) → Except PyErr (List (Expr F T))
  | [] => .ok []
  | o :: os =>
    match opticRepr o with
    | .error e => .error e
    | .ok e => match opticReprs os with
      | .error e => .error e
      | .ok es => .ok (e :: es)
end

end repr

/-! ## `eval` -/

/-- A Python value. -/
inductive Val (F : Type) where
  | none
  | num (x : F)
  | int (k : ℤ)
  | str (s : List Char)
  | arr (a : NdArr F)
  | seq (vs : List (Val F))
  | surface (s : SurfaceObj F)
  | medium (m : MediumObj F)
  | coating (c : CoatingObj F)
  | obsc (o : Obsc F)
  | coordSys (c : CoordSys F)
  | transform (c : TransformObj F)
  | lattice (l : LatticeObj F)
  | rays (r : RayVec F)
  | optic (o : OpticObj F)

/-- The values of the parameters that have no positional argument: keyword, default, or `TypeError`. -/
def fill (kws : List (Kw × Val F)) : List (Kw × Option (Val F)) → Except PyErr (List (Val F))
  | [] => .ok []
  | (k, d) :: ps =>
    match (kws.lookup k).or d with
    | none => .error .typeError
    | some v => match fill kws ps with
      | .error e => .error e
      | .ok vs => .ok (v :: vs)

/-- Python's binding of arguments to the parameters of a function. -/
def bindArgs (ps : List (Kw × Option (Val F))) (pos : List (Val F)) (kws : List (Kw × Val F)) : Except PyErr (List (Val F)) :=
  if pos.length ≤ ps.length ∧ ∀ k ∈ kws.map Prod.fst, k ∈ (ps.drop pos.length).map Prod.fst then
    match fill kws (ps.drop pos.length) with
    | .error e => .error e
    | .ok vs => .ok (pos ++ vs)
  else .error .typeError

/-- Parameters without default. -/
def required (ks : List Kw) : List (Kw × Option (Val F)) := ks.map fun k => (k, none)

/-- A tuple of surfaces. -/
def asSurfaces : List (Val F) → Option (List (SurfaceObj F))
  | [] => some []
  | .surface s :: vs => (asSurfaces vs).map (s :: ·)
  | _ :: _ => none

/-- A list of obscurations. -/
def asObscs : List (Val F) → Option (List (Obsc F))
  | [] => some []
  | .obsc o :: vs => (asObscs vs).map (o :: ·)
  | _ :: _ => none

/-- A list of optics. -/
def asOptics : List (Val F) → Option (List (OpticObj F))
  | [] => some []
  | .optic o :: vs => (asOptics vs).map (o :: ·)
  | _ :: _ => none

section eval
variable [Arith F]

/-- `CoordSys.__init__`: batoid/coordSys.py L35-41. -/
def mkCoordSys : NdArr F → NdArr F → Except PyErr (Val F)
  | .vec [x, y, z], .mat [[a, b, c], [d, e, f], [g, h, i]] => .ok (.coordSys ⟨⟨x, y, z⟩, ⟨a, b, c, d, e, f, g, h, i⟩⟩)
  | _, _ => .error .valueError

/-- `globalCoordSys`: batoid/constants.py L4. -/
def globalSys : CoordSys F := ⟨⟨0, 0, 0⟩, ⟨1, 0, 0, 0, 1, 0, 0, 0, 1⟩⟩

/-- `RayVector.__init__` with arrays of one length: batoid/rayVector.py L46-78. -/
def mkRays : List F → List F → List F → List F → List F → List F → List F → List F → List F → List Bool → List Bool → List (Ray F)
  | x :: xs, y :: ys, z :: zs, vx :: vxs, vy :: vys, vz :: vzs, t :: ts, w :: ws, f :: fs, v :: vs, b :: bs =>
    ⟨⟨x, y, z⟩, ⟨vx, vy, vz⟩, t, w, f, v, b⟩ :: mkRays xs ys zs vxs vys vzs ts ws fs vs bs
  | _, _, _, _, _, _, _, _, _, _, _ => []

/-- The coatings that the constructors set: batoid/optic.py L761-770, L799-806, L825-829, L849-855; `Interface` and `OPDScreen` set none. -/
def factory (k : KindObj F) : Option (CoatingObj F) × Option (CoatingObj F) :=
  match k with
  | .plain | .screen _ => (none, none)
  | .refractive | .baffle => (some ⟨0, 1⟩, some ⟨0, 1⟩)
  | .mirror => (some ⟨1, 0⟩, some ⟨1, 0⟩)
  | .detector => (some ⟨0, 1⟩, none)

/-- The keyword arguments of optics with their defaults: batoid/optic.py L37-38. -/
def opticParams : List (Kw × Option (Val F)) :=
  [(.name, some .none), (.coordSys, some (.coordSys globalSys)), (.inMedium, some (.medium vacuumObj)), (.outMedium, some (.medium vacuumObj))]

/-- `Interface.__init__` and those of its subclasses: batoid/optic.py L115-140, L759-770, L797-806, L823-829, L847-855, L886-890. -/
def mkIface (k : KindObj F) (s : SurfaceObj F) : List (Val F) → Except PyErr (Val F)
  | [ov, .str name, .coordSys c, .medium m1, .medium m2] =>
    let mk (o : Option (Obsc F)) : Except PyErr (Val F) :=
      .ok (.optic (.iface ⟨k, name, s, o, c, m1, m2, false, (factory k).1, (factory k).2, none⟩))
    match k, m1.eq m2 with
    | .screen _, .ok false => .error .assertionError
    | .screen _, .error e => .error e
    | _, _ => match ov with
      | .none => mk none
      | .obsc o => mk (some o)
      | _ => .error .typeError
  | _ => .error .typeError

/-- `optic.inMedium`, `optic.outMedium`. -/
def opticIn : OpticObj F → MediumObj F
  | .iface d => d.inMedium
  | .compound d _ => d.inMedium

def opticOut : OpticObj F → MediumObj F
  | .iface d => d.outMedium
  | .compound d _ => d.outMedium

/-- `CompoundOptic.__init__`, `Lens.__init__`: batoid/optic.py L941-945, L1758-1761. -/
def mkCompound (lens : Bool) (items : List (OpticObj F)) : List (Val F) → Except PyErr (Val F)
  | [.str name, .coordSys c, .medium m1, .medium m2] =>
    let made : Val F := .optic (.compound ⟨lens, name, c, m1, m2, false, none⟩ items)
    if lens then
      match items with
      | [a, b] => match (opticOut a).eq (opticIn b) with
        | .ok true => .ok made
        | .ok false => .error .assertionError
        | .error e => .error e
      | _ => .error .assertionError
    else .ok made
  | _ => .error .typeError

/-- Six coefficients, as one sequence or as arguments: batoid/medium.py L139-151, L189-201. -/
def sixOf : List (Val F) → Option (F × F × F × F × F × F)
  | [.num a, .num b, .num c, .num d, .num e, .num f] => some (a, b, c, d, e, f)
  | [.seq [.num a, .num b, .num c, .num d, .num e, .num f]] => some (a, b, c, d, e, f)
  | _ => none

/-- Calls of the classes, with the signatures and checks of their `__init__`: batoid/surface.py L171-172, L197-200, L237-239, L273-275, L319-322, L378-399, L463-483, L539-584,
L687-694; batoid/medium.py L38-40, L71-78, L139-151, L189-201, L243-247; batoid/coating.py L81-86; batoid/obscuration.py L58-62, L103-108, L154-160, L210-215, L259-266, L313-315,
L371-387, L453-469; batoid/coordSys.py L35-41; batoid/coordTransform.py L16-20; batoid/lattice.py L50-59.  `key` gives the text by which obscurations are sorted. -/
def construct (key : Obsc F → List Char) (c : Cls) (pos : List (Val F)) (kws : List (Kw × Val F)) : Except PyErr (Val F) :=
  match c with
  | .plane => match bindArgs [] pos kws with
    | .ok [] => .ok (.surface .plane)
    | _ => .error .typeError
  | .tilted => match bindArgs (required [.tanx, .tany]) pos kws with
    | .ok [.num a, .num b] => .ok (.surface (.tilted a b))
    | _ => .error .typeError
  | .paraboloid => match bindArgs (required [.R]) pos kws with
    | .ok [.num R] => .ok (.surface (.paraboloid R))
    | _ => .error .typeError
  | .sphere => match bindArgs (required [.R]) pos kws with
    | .ok [.num R] => .ok (.surface (.sphere R))
    | _ => .error .typeError
  | .quadric => match bindArgs (required [.R, .conic]) pos kws with
    | .ok [.num R, .num k] => .ok (.surface (.quadric R k))
    | _ => .error .typeError
  | .asphere => match bindArgs (required [.R, .conic, .coefs] ++ [(.imin, some (.int 2))]) pos kws with
    | .ok [.num R, .num k, .arr (.vec cs), .int imin] => if imin ≤ 0 then .error .valueError else .ok (.surface (.asphere R k cs imin))
    | _ => .error .typeError
  | .zernike => match bindArgs (required [.coef] ++ [(.R_outer, some (.num 1)), (.R_inner, some (.num 0)), (.x_origin, some (.num 0)), (.y_origin, some (.num 0))]) pos kws with
    | .ok [.arr (.vec cs), .num outer, .num inner, .num x0, .num y0] => .ok (.surface (.zernike cs outer inner x0 y0))
    | _ => .error .typeError
  | .bicubic =>
    match bindArgs (required [.xs, .ys, .zs] ++ [(.dzdxs, some .none), (.dzdys, some .none), (.d2zdxdys, some .none), (.nanpolicy, some (.str "nan".toList))]) pos kws with
    | .ok [.arr (.vec xs), .arr (.vec ys), .arr (.mat zs), .arr (.mat zx), .arr (.mat zy), .arr (.mat zxy), .str np] =>
      if upper np = "NAN".toList ∨ upper np = "ZERO".toList then .ok (.surface (.bicubic xs ys zs zx zy zxy np)) else .error .assertionError
    | _ => .error .typeError
  | .sum =>
    if kws ≠ [] then .error .typeError else
    match asSurfaces (match pos with | [.seq vs] => vs | _ => pos) with
    | some ss => .ok (.surface (.sum ss))
    | none => .error .assertionError
  | .constMedium => match bindArgs (required [.n]) pos kws with
    | .ok [.num n] => .ok (.medium (.const n))
    | _ => .error .typeError
  | .tableMedium => match bindArgs (required [.wavelengths, .ns]) pos kws with
    | .ok [.arr (.vec w), .arr (.vec n)] => .ok (.medium (.table w n))
    | _ => .error .typeError
  | .sellmeier => match sixOf pos with
    | some (a, b, c, d, e, f) => .ok (.medium (.sellmeier a b c d e f))
    | none => .error .typeError
  | .sumita => match sixOf pos with
    | some (a, b, c, d, e, f) => .ok (.medium (.sumita a b c d e f))
    | none => .error .typeError
  | .air => match bindArgs (required [.pressure, .temperature, .h2o_pressure]) pos kws with
    | .ok [.num q, .num t, .num h] => .ok (.medium (.air q t h))
    | _ => .error .typeError
  | .simpleCoating => match bindArgs (required [.reflectivity, .transmissivity]) pos kws with
    | .ok [.num r, .num t] => .ok (.coating ⟨r, t⟩)
    | _ => .error .typeError
  | .circle => match bindArgs (required [.radius] ++ [(.x, some (.num 0)), (.y, some (.num 0))]) pos kws with
    | .ok [.num r, .num x, .num y] => .ok (.obsc (.circle r x y))
    | _ => .error .typeError
  | .annulus => match bindArgs (required [.inner, .outer] ++ [(.x, some (.num 0)), (.y, some (.num 0))]) pos kws with
    | .ok [.num i, .num o, .num x, .num y] => .ok (.obsc (.annulus i o x y))
    | _ => .error .typeError
  | .rectangle => match bindArgs (required [.width, .height] ++ [(.x, some (.num 0)), (.y, some (.num 0)), (.theta, some (.num 0))]) pos kws with
    | .ok [.num w, .num h, .num x, .num y, .num θ] => .ok (.obsc (.rectangle w h x y θ))
    | _ => .error .typeError
  | .ray => match bindArgs (required [.width, .theta] ++ [(.x, some (.num 0)), (.y, some (.num 0))]) pos kws with
    | .ok [.num w, .num θ, .num x, .num y] => .ok (.obsc (.ray w θ x y))
    | _ => .error .typeError
  | .polygon => match bindArgs (required [.xs, .ys]) pos kws with
    | .ok [.arr (.vec xs), .arr (.vec ys)] => .ok (.obsc (.polygon (xs.zip ys)))
    | _ => .error .typeError
  | .negation => match bindArgs (required [.original]) pos kws with
    | .ok [.obsc o] => .ok (.obsc (.negation o))
    | _ => .error .typeError
  | .union =>
    if kws ≠ [] then .error .typeError else
    match pos with
    | [] => .error .valueError
    | _ => match asObscs (match pos with | [.seq vs] => vs | _ => pos) with
      | some os => .ok (.obsc (ObscObj.mkUnion key os))
      | none => .error .typeError
  | .intersection =>
    if kws ≠ [] then .error .typeError else
    match pos with
    | [] => .error .valueError
    | _ => match asObscs (match pos with | [.seq vs] => vs | _ => pos) with
      | some os => .ok (.obsc (ObscObj.mkIntersection key os))
      | none => .error .typeError
  | .coordSys => match bindArgs [(.origin, some (.arr (.vec [0, 0, 0]))), (.rot, some (.arr (.mat [[1, 0, 0], [0, 1, 0], [0, 0, 1]])))] pos kws with
    | .ok [.arr a, .arr b] => mkCoordSys a b
    | _ => .error .typeError
  | .coordTransform => match bindArgs (required [.fromSys, .toSys]) pos kws with
    | .ok [.coordSys a, .coordSys b] => .ok (.transform ⟨a, b⟩)
    | _ => .error .typeError
  | .lattice => match bindArgs (required [.array, .primitiveVectors]) pos kws with
    | .ok [.arr (.nd shape a), .arr (.mat v)] =>
      if shape.length ≠ v.length ∨ some shape.length ≠ v.head?.map List.length then .error .valueError else .ok (.lattice ⟨shape, a, v⟩)
    | _ => .error .typeError
  | .rayVector =>
    match bindArgs (required [.x, .y, .z, .vx, .vy, .vz] ++ [(.t, some (.num 0)), (.wavelength, some (.num 0)), (.flux, some (.num 1)), (.vignetted, some .none), (.failed, some .none),
      (.coordSys, some (.coordSys globalSys))]) pos kws with
    | .ok [.arr (.vec x), .arr (.vec y), .arr (.vec z), .arr (.vec vx), .arr (.vec vy), .arr (.vec vz), .arr (.vec t), .arr (.vec w), .arr (.vec f), .arr (.bools v),
        .arr (.bools b), .coordSys c] => .ok (.rays ⟨mkRays x y z vx vy vz t w f v b, c⟩)
    | _ => .error .typeError
  | .compound => match bindArgs (required [.items] ++ opticParams) pos kws with
    | .ok (.seq vs :: rest) => match asOptics vs with
      | some os => mkCompound false os rest
      | none => .error .attributeError
    | _ => .error .typeError
  | .lens => match bindArgs (required [.items] ++ opticParams) pos kws with
    | .ok (.seq vs :: rest) => match asOptics vs with
      | some os => mkCompound true os rest
      | none => .error .attributeError
    | _ => .error .typeError
  | .screen => match bindArgs (required [.surface, .screen] ++ [(.obscuration, some .none)] ++ opticParams) pos kws with
    | .ok (.surface s :: .surface s' :: rest) => mkIface (.screen s') s rest
    | _ => .error .typeError
  | .interface => match bindArgs (required [.surface] ++ [(.obscuration, some .none)] ++ opticParams) pos kws with
    | .ok (.surface s :: rest) => mkIface .plain s rest
    | _ => .error .typeError
  | .refractive => match bindArgs (required [.surface] ++ [(.obscuration, some .none)] ++ opticParams) pos kws with
    | .ok (.surface s :: rest) => mkIface .refractive s rest
    | _ => .error .typeError
  | .mirror => match bindArgs (required [.surface] ++ [(.obscuration, some .none)] ++ opticParams) pos kws with
    | .ok (.surface s :: rest) => mkIface .mirror s rest
    | _ => .error .typeError
  | .detector => match bindArgs (required [.surface] ++ [(.obscuration, some .none)] ++ opticParams) pos kws with
    | .ok (.surface s :: rest) => mkIface .detector s rest
    | _ => .error .typeError
  | .baffle => match bindArgs (required [.surface] ++ [(.obscuration, some .none)] ++ opticParams) pos kws with
    | .ok (.surface s :: rest) => mkIface .baffle s rest
    | _ => .error .typeError

mutual
/-- `eval`. -/
def eval (p : Printer F T) (key : Obsc F → List Char) : Expr F T → Except PyErr (Val F)
  | .num x => .ok (.num x)
  | .int k => .ok (.int k)
  | .str s => .ok (.str s)
  | .arr t => match p.read t with
    | .ok a => .ok (.arr a)
    | .error e => .error e
  | .tuple es => match evals p key es with
    | .ok vs => .ok (.seq vs)
    | .error e => .error e
  | .list es => match evals p key es with
    | .ok vs => .ok (.seq vs)
    | .error e => .error e
  | .call c es kws => match evals p key es with
    | .ok vs => construct key c (vs.take (vs.length - kws.length)) (kws.zip (vs.drop (vs.length - kws.length)))
    | .error e => .error e
/-- Arguments are evaluated from left to right. -/
def evals (p : Printer F T) (key : Obsc F → List Char) : List (Expr F T) → Except PyErr (List (Val F))
  | [] => .ok []
  | e :: es => match eval p key e with
    | .error err => .error err
    | .ok v => match evals p key es with
      | .error err => .error err
      | .ok vs => .ok (v :: vs)
end

end eval

end Batoid.Printed
