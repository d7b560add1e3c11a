import Verif.Ray
import Verif.Surface
import Verif.Medium
import Verif.Grids
import Verif.Projection

/-!
# Making ray vectors

Models of the class methods `asGrid`, `asFan`, `asPolar`, `asSpokes`, `fromStop`, `fromFieldAngles` and `_finish` of
`batoid/rayVector.py` L219-1080 and of `finishParallel`, `src/batoid.cpp` L39-69.  Numbers are arrays of one element; the array
valued arguments are lists.  The random draws of `nrandom` are an argument.
-/

namespace Batoid.Construct
open Arith Numpy
variable {F : Type} [Arith F]

/-- What is used of the `Interface` that serves as the stop. -/
structure Stop (F : Type) where
  surface : Surface F
  coordSys : CoordSys F

/-- What is read from the `optic` argument.  `none`: the optic has no such attribute. -/
structure OpticAttrs (F : Type) where
  backDist : Option F
  inMedium : Option (Medium F)
  stopSurface : Option (Stop F)
  pupilSize : Option F
  pupilObscuration : Option F
  coordSys : CoordSys F

/-- The keyword arguments shared by the class methods; `none` is Python's `None`. -/
structure Args (F : Type) where
  optic : Option (OpticAttrs F) := none
  backDist : Option F := none
  medium : Option (Medium F) := none
  stopSurface : Option (Stop F) := none
  coordSys : Option (CoordSys F) := none
  wavelength : Option F := none
  source : Option (V3 F) := none
  dirCos : Option (V3 F) := none
  theta_x : Option F := none
  theta_y : Option F := none
  projection : String := "postel"

/-- The values of these arguments after the defaults have been filled in. -/
structure Setup (F : Type) where
  backDist : F
  medium : Medium F
  stop : Stop F
  coordSys : CoordSys F
  wavelength : F
  source : Option (V3 F)
  dirCos : Option (V3 F)

/-- `if arg is None: arg = optic.attr`, without a default of its own. -/
def fromOptic {A : Type} (arg : Option A) (optic : Option (OpticAttrs F)) (attr : OpticAttrs F → Option A) :
    Except PyErr (Option A) :=
  match arg, optic with
  | some a, _ => .ok (some a)
  | none, none => .ok none
  | none, some o => match attr o with
    | some a => .ok (some a)
    | none => .error .attributeError

/-- `Interface(Plane())` in the global frame. -/
def defaultStop : Stop F := ⟨Surface.plane, CoordSys.std F⟩

/-- `if dirCos is None and source is None: dirCos = fieldToDirCos(theta_x, theta_y, projection)`, batoid/rayVector.py L361-362.
Arithmetic on `None` raises `TypeError`. -/
def pickDirection (a : Args F) : Except PyErr (Option (V3 F)) :=
  match a.dirCos, a.source with
  | none, none =>
    match a.theta_x, a.theta_y with
    | some u, some v => do
      let d ← Projection.fieldToDirCos u v a.projection
      .ok (some ⟨d.1, d.2.1, d.2.2⟩)
    | _, _ => do
      let _ ← Projection.fieldToDirCos (0 : F) 0 a.projection
      .error .typeError
  | d, _ => .ok d

/-- The common beginning: batoid/rayVector.py L330-365 (asGrid, which forgives an optic without `stopSurface`), L574-612
(asPolar), L750-777 (asSpokes), L946-970 (fromStop).  `forgive` is set in asGrid. -/
def setup (forgive : Bool) (a : Args F) : Except PyErr (Setup F) := do
  let backDist ← fromOptic a.backDist a.optic (·.backDist)
  let medium ← fromOptic a.medium a.optic (·.inMedium)
  let stop ←
    if forgive then .ok (a.stopSurface.orElse fun _ => a.optic.bind (·.stopSurface))
    else fromOptic a.stopSurface a.optic (·.stopSurface)
  let coordSys := a.coordSys.orElse fun _ => a.optic.map (·.coordSys)
  let dirCos ← pickDirection a
  match a.wavelength with
  | none => .error .valueError
  | some w =>
    .ok ⟨backDist.getD 40, medium.getD (Medium.const 1), stop.getD defaultStop, coordSys.getD (CoordSys.std F), w, a.source, dirCos⟩

/-- The velocity of all the rays, batoid/rayVector.py L825-826. -/
def velocity (dirCos : V3 F) (n : F) : V3 F :=
  let s := n * Arith.sqrt (V3.dot dirCos dirCos)
  ⟨dirCos.x / s, dirCos.y / s, dirCos.z / s⟩

/-- `v / sqrt(dot(v, v))`, batoid/rayVector.py L829. -/
def normalise (v : V3 F) : V3 F :=
  let s := Arith.sqrt (V3.dot v v)
  ⟨v.x / s, v.y / s, v.z / s⟩

/-- The frame of the plane the rays start from, batoid/rayVector.py L827-832: `(origin, rot)`. -/
def launchFrame (vv : V3 F) (n backDist : F) : CoordSys F :=
  let zhat := V3.smul (-n) vv
  let xhat := normalise (V3.cross ⟨1, 0, 0⟩ zhat)
  let yhat := V3.cross xhat zhat
  ⟨V3.smulR zhat backDist, ⟨xhat.x, yhat.x, zhat.x, xhat.y, yhat.y, zhat.y, xhat.z, yhat.z, zhat.z⟩⟩

/-- One element of `finishParallel`: src/batoid.cpp L43-68. -/
def finishParallel (f : CoordSys F) (vv : V3 F) (r : V3 F) : V3 F :=
  let m := f.rot
  let vl : V3 F := ⟨-vv.x * m.m11 - vv.y * m.m21 - vv.z * m.m31, -vv.x * m.m12 - vv.y * m.m22 - vv.z * m.m32,
    -vv.x * m.m13 - vv.y * m.m23 - vv.z * m.m33⟩
  let d := r - f.origin
  let p : V3 F := ⟨d.x * m.m11 + d.y * m.m21 + d.z * m.m31, d.x * m.m12 + d.y * m.m22 + d.z * m.m32,
    d.x * m.m13 + d.y * m.m23 + d.z * m.m33⟩
  let dt := -p.z / vl.z
  let q : V3 F := ⟨p.x + dt * vl.x, p.y + dt * vl.y, p.z + dt * vl.z⟩
  ⟨q.x * m.m11 + q.y * m.m12 + q.z * m.m13 + f.origin.x, q.x * m.m21 + q.y * m.m22 + q.z * m.m23 + f.origin.y,
    q.x * m.m31 + q.y * m.m32 + q.z * m.m33 + f.origin.z⟩

/-- `_finish`: batoid/rayVector.py L817-858.  With a `source` the method ends without a value, so the caller gets `None`; with
neither (`dirCos=None` cannot happen then) numpy would raise. -/
def finish (s : Setup F) (n : F) (pts : List (V3 F)) (flux : List F) : Except PyErr (Option (RayVec F)) :=
  match s.source, s.dirCos with
  | some _, _ => .ok none
  | none, none => .error .typeError
  | none, some d =>
    let vv := velocity d n
    let fr := launchFrame vv n s.backDist
    .ok (some ⟨List.zipWith (fun r f => ⟨finishParallel fr vv r, vv, 0, s.wavelength, f, false, false⟩) pts flux, s.coordSys⟩)

/-- From the stop, put the points on the stop surface and back the rays up: batoid/rayVector.py L435-444, L634-643, L805-814,
L973-982. -/
def launch (s : Setup F) (pts : List (F × F)) (flux : List F) : Except PyErr (Option (RayVec F)) :=
  let ct := CoordTransform.make s.stop.coordSys s.coordSys
  finish s (s.medium.getN s.wavelength) (pts.map fun p => ct.forward ⟨p.1, p.2, s.stop.surface.sag p.1 p.2⟩) flux

/-- A scalar `flux`, `np.full(len(x), float(flux))`, batoid/rayVector.py L821-822. -/
def flatFlux (flux : F) (pts : List (F × F)) : List F := List.replicate pts.length flux

/-! ## asGrid -/

/-- A length along an axis, or a vector. -/
inductive Ext (F : Type) where
  | num (a : F)
  | vec (a b : F)

/-- `dx*k` with an integer `k`. -/
def Ext.times (e : Ext F) (k : ℤ) : Ext F :=
  match e with
  | .num a => .num (a * const (k : ℚ))
  | .vec a b => .vec (a * const (k : ℚ)) (b * const (k : ℚ))

/-- The default of `ly`, batoid/rayVector.py L377-381. -/
def Ext.turn : Ext F → Ext F
  | .num a => .num a
  | .vec a b => .vec (0 * a + const (-1) * b) (1 * a + 0 * b)

/-- `2` for even numbers, `1` for odd ones, batoid/rayVector.py L386-393. -/
def spare (n : ℤ) : ℤ := if n % 2 = 0 then 2 else 1

/-- `int((lx/dx+slop)//2)*2+2`, batoid/rayVector.py L398-400.  The division is that of Python floats (numpy floats give an
infinity, for which `int` raises `OverflowError` instead); `int` of a vector raises. -/
def inferCount : Ext F → Ext F → Except PyErr ℤ
  | .num l, .num d =>
    if eq d 0 then .error .zeroDivisionError
    else do
      let k ← toInt (floorDiv (l / d + const (1 / 10)) 2)
      .ok (k * 2 + 2)
  | _, _ => .error .typeError

/-- The arguments that lay out the grid. -/
structure GridArgs (F : Type) where
  nx : Option ℤ := none
  ny : Option ℤ := none
  dx : Option (Ext F) := none
  dy : Option (Ext F) := none
  lx : Option (Ext F) := none
  ly : Option (Ext F) := none

/-- `lx` as taken from the optic: batoid/rayVector.py L341-345. -/
def gridLength (a : Args F) (g : GridArgs F) : Except PyErr (Option (Ext F)) :=
  match g.lx, a.optic with
  | some l, _ => .ok (some l)
  | none, none => .ok none
  | none, some o =>
    if g.nx.isNone || g.dx.isNone then
      match o.pupilSize with
      | some p => .ok (some (.num p))
      | none => .error .attributeError
    else .ok none

/-- The numbers of rays and the sides of the parallelogram: batoid/rayVector.py L367-407. -/
def gridShape (g : GridArgs F) : Except PyErr (ℤ × ℤ × Ext F × Ext F) :=
  match g.nx, g.dx, g.lx with
  | some nx, some dx, none =>
    let ny := g.ny.getD nx
    let dy := g.dy.getD dx
    .ok (nx, ny, dx.times (nx - spare nx), dy.times (ny - spare ny))
  | some nx, none, some lx => .ok (nx, g.ny.getD nx, lx, g.ly.getD lx.turn)
  | none, some dx, some lx => do
    let dy := g.dy.getD dx
    let ly := g.ly.getD lx.turn
    let nx ← inferCount lx dx
    let ny ← inferCount ly dy
    .ok (nx, ny, lx, ly)
  | _, _, _ => .error .valueError

/-- The coordinates along one side, in units of the side: batoid/rayVector.py L421-430. -/
def gridAxis (n : ℤ) : Except PyErr (List F) := do
  let d : F := if n ≤ 2 then 1 else const ((n - spare n : ℤ) : ℚ) / const (n : ℚ)
  let l ← fftfreq n d
  .ok (fftshift l)

/-- The vector that `lx` stands for, batoid/rayVector.py L409-410. -/
def Ext.alongX : Ext F → F × F
  | .num a => (a, 0)
  | .vec a b => (a, b)

/-- The vector that `ly` stands for, batoid/rayVector.py L411-412. -/
def Ext.alongY : Ext F → F × F
  | .num a => (0, a)
  | .vec a b => (a, b)

/-- `x = np.dot(lx, stack); y = np.dot(ly, stack)`, batoid/rayVector.py L434-436. -/
def shear (lx ly : F × F) (p : F × F) : F × F := (lx.1 * p.1 + lx.2 * p.2, ly.1 * p.1 + ly.2 * p.2)

/-- The points on the stop, batoid/rayVector.py L409-436.  `draws` are the random numbers when `nrandom` is given. -/
def gridPoints (sh : ℤ × ℤ × Ext F × Ext F) (draws : Option (List (F × F))) : Except PyErr (List (F × F)) := do
  let cells ← match draws with
    | some ds => .ok ds
    | none => do
      let xx ← gridAxis sh.1
      let yy ← gridAxis sh.2.1
      .ok (meshgrid xx yy)
  .ok (cells.map (shear sh.2.2.1.alongX sh.2.2.2.alongY))

/-- `RayVector.asGrid`: batoid/rayVector.py L219-444. -/
def asGrid (a : Args F) (g : GridArgs F) (draws : Option (List (F × F))) (flux : F) : Except PyErr (Option (RayVec F)) := do
  let lx ← gridLength a g
  let s ← setup true a
  let sh ← gridShape { g with lx := lx }
  let pts ← gridPoints sh draws
  launch s pts (flatFlux flux pts)

/-! ## asPolar and asSpokes -/

/-- The inner radius of asPolar, batoid/rayVector.py L583-587, L591-593. -/
def polarInner (a : Args F) (inner : Option F) : Except PyErr F :=
  match inner, a.optic with
  | some r, _ => .ok r
  | none, none => .ok 0
  | none, some o =>
    match o.pupilObscuration with
    | none => .ok 0
    | some f => match o.pupilSize with
      | some p => .ok (p * f / 2)
      | none => .error .attributeError

/-- The outer radius, batoid/rayVector.py L581-582, L756-757. -/
def pupilOuter (a : Args F) (outer : Option F) : Except PyErr (Option F) :=
  fromOptic outer a.optic fun o => o.pupilSize.map (· / 2)

/-- `x = rr*np.cos(th); y = rr*np.sin(th)`, batoid/rayVector.py L630-631, L801-802. -/
def fromPolar (p : F × F) : F × F := (p.1 * Arith.cos p.2, p.1 * Arith.sin p.2)

/-- `RayVector.asPolar` with `nrandom=None`: batoid/rayVector.py L459-643.  `None` for `outer`, `nrad` or `naz` makes numpy
raise. -/
def asPolar (junk : ℕ → F) (a : Args F) (outer inner : Option F) (nrad naz : Option ℤ) (kfold : ℤ) (flux : F) :
    Except PyErr (Option (RayVec F)) := do
  let outer ← pupilOuter a outer
  let inner ← polarInner a inner
  let s ← setup false a
  match outer, nrad, naz with
  | some outer, some nrad, some naz =>
    let rt ← Grids.hexapolar junk outer inner nrad naz kfold true
    let pts := (rt.1.zip rt.2).map fromPolar
    launch s pts (flatFlux flux pts)
  | _, _, _ => .error .typeError

/-- `RayVector.asPolar` with `nrandom` given: the draws are those of `inner**2 .. outer**2` and of `0 .. 2*pi`,
batoid/rayVector.py L623-628. -/
def asPolarRandom (a : Args F) (draws : List (F × F)) (flux : F) : Except PyErr (Option (RayVec F)) := do
  let s ← setup false a
  let pts := draws.map fun d => fromPolar (Arith.sqrt d.1, d.2)
  launch s pts (flatFlux flux pts)

/-- `spokes` and `rings`: a number of them, or their values. -/
inductive Count (F : Type) where
  | num (n : ℤ)
  | vals (l : List F)

/-- What `np.meshgrid` makes of the argument: an integer becomes an array with that one value. -/
def Count.values : Count F → List F
  | .num n => [const (n : ℚ)]
  | .vals l => l

/-- `if isinstance(spokes, Integral): spokes = np.linspace(0, 2*np.pi, spokes, endpoint=False)`, batoid/rayVector.py
L791-792. -/
def spread : Count F → Except PyErr (Count F)
  | .num n => do .ok (.vals (← linspace 0 (2 * pi) n false))
  | .vals l => .ok (.vals l)

/-- `spokes` when it is `None`, batoid/rayVector.py L783-784.  Without it the later `np.cos` raises `TypeError`. -/
def spokeCount (spokes : Option (Count F)) (n : ℤ) : Count F := spokes.getD (.num (2 * n + 1))

/-- `w*area/(2*spokes)`, batoid/rayVector.py L789.  The division by the integer 0 is numpy's. -/
def quadFlux (w : List F) (area : F) : Count F → Except PyErr (List F)
  | .num m => .ok (w.map fun x => x * area / const ((2 * m : ℤ) : ℚ))
  | .vals l => broadcast (fun x s => x * area / (2 * s)) w l

/-- `np.sqrt(eps**2 + (1+Li)*(1-eps**2)/2)*outer`, batoid/rayVector.py L788. -/
def quadRing (eps outer : F) (Li : F) : F := Arith.sqrt (eps * eps + (1 + Li) * (1 - eps * eps) / 2) * outer

/-- Rings, spokes and fluxes before `np.meshgrid`: batoid/rayVector.py L779-792.  `leggauss` stands for
`np.polynomial.legendre.leggauss`: the nodes and the weights.  A `spacing` that is neither `uniform` nor `GQ` leaves `rings` a
number. -/
def spokesShape (leggauss : ℤ → Except PyErr (List F × List F)) (outer inner : F) (spokes : Option (Count F)) (rings : Count F)
    (spacing : String) (flux : F) : Except PyErr (List F × List F × List F) :=
  match rings with
  | .vals l => match spokes with
    | none => .error .typeError
    | some s => .ok (l, s.values, [flux])
  | .num n =>
    if spacing = "uniform" then do
      let l ← linspace inner outer n true
      match spokes with
      | none => .error .typeError
      | some s => do
        let s ← spread s
        .ok (l, s.values, [flux])
    else if spacing = "GQ" then do
      let s := spokeCount spokes n
      let lw ← leggauss n
      let eps := inner / outer
      let area := pi * (1 - eps * eps)
      let f ← quadFlux lw.2 area s
      let s ← spread s
      .ok (lw.1.map (quadRing eps outer), s.values, f)
    else
      match spokes with
      | none => .error .typeError
      | some s => do
        let s ← spread s
        .ok ((Count.num n : Count F).values, s.values, [flux])

/-- `RayVector.asSpokes`: batoid/rayVector.py L645-814.  `outer=None` or `rings=None` makes numpy raise. -/
def asSpokes (leggauss : ℤ → Except PyErr (List F × List F)) (a : Args F) (outer : Option F) (inner : F)
    (spokes rings : Option (Count F)) (spacing : String) (flux : F) : Except PyErr (Option (RayVec F)) := do
  let outer ← pupilOuter a outer
  let s ← setup false a
  match outer, rings with
  | some outer, some rings => do
    let sh ← spokesShape leggauss outer inner spokes rings spacing flux
    let fl ← broadcastTo sh.2.2 sh.2.1.length sh.1.length
    launch s ((meshgrid sh.1 sh.2.1).map fromPolar) fl
  | none, some (.vals l) => do
    -- `outer` is not used when the radii are given
    let sh ← spokesShape leggauss 0 inner spokes (.vals l) spacing flux
    let fl ← broadcastTo sh.2.2 sh.2.1.length sh.1.length
    launch s ((meshgrid sh.1 sh.2.1).map fromPolar) fl
  | _, _ => .error .typeError

/-! ## fromStop and fromFieldAngles -/

/-- `RayVector.fromStop`: batoid/rayVector.py L860-982, for arrays of equal length. -/
def fromStop (a : Args F) (pts : List (F × F)) (flux : F) : Except PyErr (Option (RayVec F)) := do
  let s ← setup false a
  launch s pts (flatFlux flux pts)

/-- `RayVector.fromFieldAngles`: batoid/rayVector.py L984-1080.  The angles are given as pairs. -/
def fromFieldAngles (a : Args F) (thetas : List (F × F)) (x y : F) (flux : F) : Except PyErr (RayVec F) := do
  let backDist ← fromOptic a.backDist a.optic (·.backDist)
  let medium ← fromOptic a.medium a.optic (·.inMedium)
  let stop ← fromOptic a.stopSurface a.optic (·.stopSurface)
  let stop := stop.getD defaultStop
  let backDist := backDist.getD 40
  match a.wavelength with
  | none => .error .valueError
  | some w => do
    let n := (medium.getD (Medium.const 1)).getN w
    let dirs ← thetas.mapM fun th => Projection.fieldToDirCos th.1 th.2 a.projection
    let rv : RayVec F := ⟨dirs.map fun d =>
      ⟨⟨x, y, stop.surface.sag x y⟩, ⟨d.1 / n, d.2.1 / n, d.2.2 / n⟩, 0, w, flux, false, false⟩, stop.coordSys⟩
    .ok (rv.propagate (-backDist * n))

end Batoid.Construct
