import Verif.Construct
import Verif.Ops

/-!
# Ray vectors as objects that own arrays

The constructors of `batoid/rayVector.py` once more, now with the numpy arrays as objects in a store, so that it can be seen which
arrays are shared between a `RayVector` and its caller.  Only one dimensional contiguous arrays of doubles and of bools are
modelled; an array of another type, like a list, is copied by every constructor and is a value here.

Simplification: the loops over `x[i], y[i], z[i]` read the three arrays before they write them.  This is what the code does unless
the caller passes the same array for `x` and `y`.
-/

namespace Batoid.Arrays
open Arith Construct
variable {F : Type}

/-- The identity of an array. -/
abbrev Addr := ℕ

/-- All arrays of doubles and all arrays of bools. -/
structure Mem (F : Type) where
  floats : List (List F)
  bools : List (List Bool)

namespace Mem

/-- The contents of an array. -/
def float (m : Mem F) (a : Addr) : List F := m.floats.getD a []
def bool (m : Mem F) (a : Addr) : List Bool := m.bools.getD a []

/-- Writing into an existing array, `a[:] = l`. -/
def putF (m : Mem F) (a : Addr) (l : List F) : Mem F := { m with floats := m.floats.set a l }
def putB (m : Mem F) (a : Addr) (l : List Bool) : Mem F := { m with bools := m.bools.set a l }

/-- A new array: its identity is `m.floats.length`. -/
def newF (m : Mem F) (l : List F) : Mem F := { m with floats := m.floats ++ [l] }
def newB (m : Mem F) (l : List Bool) : Mem F := { m with bools := m.bools ++ [l] }

end Mem

/-- An argument that numpy turns into an array: a number, a list or array of another type, or an array of the right type. -/
inductive Arg (A : Type) where
  | num (x : A)
  | list (l : List A)
  | array (a : Addr)

/-- The values an argument stands for, given how to read an array. -/
def Arg.values {A : Type} (read : Addr → List A) : Arg A → List A
  | .num x => [x]
  | .list l => l
  | .array a => read a

/-- A `RayVector`: its arrays and its frame, batoid/rayVector.py L64-77. -/
structure Obj (F : Type) where
  x : Addr
  y : Addr
  z : Addr
  vx : Addr
  vy : Addr
  vz : Addr
  t : Addr
  wavelength : Addr
  flux : Addr
  vignetted : Addr
  failed : Addr
  coordSys : CoordSys F

namespace Obj
variable [Arith F]

/-- The rays that the arrays hold.  The number of rays is the length of `x`, as in `_rv`, batoid/rayVector.py L1250-1262. -/
def rays (o : Obj F) (m : Mem F) : List (Ray F) :=
  (List.range (m.float o.x).length).map fun i =>
    ⟨⟨(m.float o.x).getD i 0, (m.float o.y).getD i 0, (m.float o.z).getD i 0⟩,
     ⟨(m.float o.vx).getD i 0, (m.float o.vy).getD i 0, (m.float o.vz).getD i 0⟩,
     (m.float o.t).getD i 0, (m.float o.wavelength).getD i 0, (m.float o.flux).getD i 0,
     (m.bool o.vignetted).getD i false, (m.bool o.failed).getD i false⟩

/-- The value of the object. -/
def value (o : Obj F) (m : Mem F) : RayVec F := ⟨o.rays m, o.coordSys⟩

/-- Writing rays back into the arrays. -/
def store (o : Obj F) (m : Mem F) (rs : List (Ray F)) : Mem F :=
  ((((((((((m.putF o.x (rs.map (·.r.x))).putF o.y (rs.map (·.r.y))).putF o.z (rs.map (·.r.z))).putF o.vx (rs.map (·.v.x))).putF o.vy
    (rs.map (·.v.y))).putF o.vz (rs.map (·.v.z))).putF o.t (rs.map (·.t))).putF o.wavelength (rs.map (·.wavelength))).putF o.flux
    (rs.map (·.flux))).putB o.vignetted (rs.map (·.vignetted))).putB o.failed (rs.map (·.failed))

/-- An operation of `batoid/trace.py`, which works in place on the arrays and sets the frame. -/
def run (s : Mem F × Obj F) (op : RayOp F) : Mem F × Obj F :=
  let rv := op.run (s.2.value s.1)
  (s.2.store s.1 rv.rays, { s.2 with coordSys := rv.coordSys })

/-- Any number of operations. -/
def runAll (s : Mem F × Obj F) (ops : List (RayOp F)) : Mem F × Obj F := ops.foldl run s

end Obj

/-! ## `RayVector.__init__` -/

/-- `np.broadcast(...).shape` for one dimensional arguments, with `(1,)` for `()`: batoid/rayVector.py L50-54. -/
def shape (lens : List ℕ) : Except PyErr ℕ :=
  match lens.filter (· ≠ 1) with
  | [] => .ok 1
  | n :: ns => if ns.all (· = n) then .ok n else .error .valueError

/-- `np.broadcast_to(array, shape)` once the shape is known. -/
def stretch {A : Type} (n : ℕ) : List A → List A
  | [x] => List.replicate n x
  | l => l

/-- The arguments of `RayVector(...)`. -/
structure InitArgs (F : Type) where
  x : Arg F
  y : Arg F
  z : Arg F
  vx : Arg F
  vy : Arg F
  vz : Arg F
  t : Arg F
  wavelength : Arg F
  flux : Arg F
  vignetted : Arg Bool
  failed : Arg Bool
  coordSys : CoordSys F

/-- The arguments that are numbers, in the order of batoid/rayVector.py L55-58. -/
def InitArgs.numbers (a : InitArgs F) : List (Arg F) := [a.x, a.y, a.z, a.vx, a.vy, a.vz, a.t, a.wavelength, a.flux]

/-- `RayVector.__init__` and `_reshape_arrays`: batoid/rayVector.py L17-23, L46-77.  Every array is a new one. -/
def init (a : InitArgs F) (m : Mem F) : Except PyErr (Mem F × Obj F) := do
  let n ← shape (a.numbers.map (fun g => (g.values m.float).length) ++
    [(a.vignetted.values m.bool).length, (a.failed.values m.bool).length])
  let k := m.floats.length
  let j := m.bools.length
  .ok (⟨m.floats ++ a.numbers.map (fun g => stretch n (g.values m.float)),
      m.bools ++ [stretch n (a.vignetted.values m.bool), stretch n (a.failed.values m.bool)]⟩,
    ⟨k, k + 1, k + 2, k + 3, k + 4, k + 5, k + 6, k + 7, k + 8, j, j + 1, a.coordSys⟩)

/-! ## The class methods -/

section
variable [Arith F]

/-- `np.atleast_1d(x).astype(float, copy=False)`, batoid/rayVector.py L970-971: an array of doubles is taken as it is. -/
def asFloat (x : Arg F) (m : Mem F) : Mem F × Addr :=
  match x with
  | .num v => (m.newF [v], m.floats.length)
  | .list l => (m.newF l, m.floats.length)
  | .array a => (m, a)

/-- A loop of C++ that replaces every point `(x[i], y[i], z[i])`. -/
def mapXYZ (ax ay az : Addr) (f : V3 F → V3 F) (m : Mem F) : Mem F :=
  let new := (List.zip (m.float ax) (List.zip (m.float ay) (m.float az))).map fun p => f ⟨p.1, p.2.1, p.2.2⟩
  ((m.putF ax (new.map (·.x))).putF ay (new.map (·.y))).putF az (new.map (·.z))

/-- `flux`: a number, an array made by the constructor itself, or an array of the caller. -/
abbrev FluxArg := Arg

/-- `if isinstance(flux, Real): flux = np.full(len(x), float(flux))`, batoid/rayVector.py L821-822.  An array is kept. -/
def fluxArray (flux : FluxArg F) (n : ℕ) (m : Mem F) : Mem F × Addr :=
  match flux with
  | .num f => (m.newF (List.replicate n f), m.floats.length)
  | .list l => (m.newF l, m.floats.length)
  | .array a => (m, a)

/-- The end of the class methods from `z = stopSurface.surface.sag(x, y)` on, and `_finish`: batoid/rayVector.py L972-982,
L817-847, with the arrays `x` and `y` at `ax` and `ay`.  `dir` is the array passed as `dirCos`, if it is one. -/
def launch (s : Setup F) (ax ay : Addr) (flux : FluxArg F) (m : Mem F) : Except PyErr (Mem F × Option (Obj F)) :=
  let n := (m.float ax).length
  let ct := CoordTransform.make s.stop.coordSys s.coordSys
  -- z = stopSurface.surface.sag(x, y)
  let az := m.floats.length
  let m := m.newF (List.zipWith s.stop.surface.sag (m.float ax) (m.float ay))
  -- applyForwardTransformArrays(transform, x, y, z)
  let m := mapXYZ ax ay az ct.forward m
  -- w = np.empty_like(x); w.fill(wavelength)
  let aw := m.floats.length
  let m := m.newF (List.replicate n s.wavelength)
  let index := s.medium.getN s.wavelength
  let mf := fluxArray flux n m
  let m := mf.1
  match s.source, s.dirCos with
  | some _, _ => .ok (m, none)
  | none, none => .error .typeError
  | none, some d =>
    -- vv = np.array(dirCos, dtype=float, copy=True); vv /= n*np.sqrt(np.dot(vv, vv))
    let av := m.floats.length
    let m := m.newF [d.x, d.y, d.z]
    let vv := velocity d index
    let m := m.putF av [vv.x, vv.y, vv.z]
    let m := mapXYZ ax ay az (finishParallel (launchFrame vv index s.backDist) vv) m
    -- np.full_like, np.zeros
    let k := m.floats.length
    let j := m.bools.length
    .ok (⟨m.floats ++ [List.replicate n vv.x, List.replicate n vv.y, List.replicate n vv.z, List.replicate n 0],
        m.bools ++ [List.replicate n false, List.replicate n false]⟩,
      some ⟨ax, ay, az, k, k + 1, k + 2, k + 3, aw, mf.2, j, j + 1, s.coordSys⟩)

/-- The keyword argument `dirCos` given as an array. -/
def readDir (a : Args F) (dir : Option Addr) (m : Mem F) : Args F :=
  match dir with
  | none => a
  | some d => { a with dirCos := some ⟨(m.float d).getD 0 0, (m.float d).getD 1 0, (m.float d).getD 2 0⟩ }

/-- `RayVector.fromStop`: batoid/rayVector.py L860-982. -/
def fromStop (a : Args F) (dir : Option Addr) (x y : Arg F) (flux : FluxArg F) (m : Mem F) :
    Except PyErr (Mem F × Option (Obj F)) := do
  let s ← setup false (readDir a dir m)
  let mx := asFloat x m
  let my := asFloat y mx.1
  launch s mx.2 my.2 flux my.1

/-- The other class methods compute `x` and `y` themselves, in arrays of their own. -/
def launchFresh (s : Setup F) (pts : List (F × F)) (flux : FluxArg F) (m : Mem F) : Except PyErr (Mem F × Option (Obj F)) :=
  launch s m.floats.length (m.floats.length + 1) flux ((m.newF (pts.map Prod.fst)).newF (pts.map Prod.snd))

/-- `RayVector.asGrid`: batoid/rayVector.py L219-444. -/
def asGrid (a : Args F) (dir : Option Addr) (g : GridArgs F) (draws : Option (List (F × F))) (flux : FluxArg F) (m : Mem F) :
    Except PyErr (Mem F × Option (Obj F)) := do
  let lx ← gridLength (readDir a dir m) g
  let s ← setup true (readDir a dir m)
  let sh ← gridShape { g with lx := lx }
  let pts ← gridPoints sh draws
  launchFresh s pts flux m

/-- `RayVector.asPolar`: batoid/rayVector.py L459-643, with `nrandom=None`. -/
def asPolar (junk : ℕ → F) (a : Args F) (dir : Option Addr) (outer inner : Option F) (nrad naz : Option ℤ) (kfold : ℤ)
    (flux : FluxArg F) (m : Mem F) : Except PyErr (Mem F × Option (Obj F)) := do
  let outer ← pupilOuter (readDir a dir m) outer
  let inner ← polarInner (readDir a dir m) inner
  let s ← setup false (readDir a dir m)
  match outer, nrad, naz with
  | some outer, some nrad, some naz =>
    let rt ← Grids.hexapolar junk outer inner nrad naz kfold true
    launchFresh s ((rt.1.zip rt.2).map fromPolar) flux m
  | _, _, _ => .error .typeError

/-- The six projections give new arrays, except that `orthographicToDirCos` returns its arguments: batoid/utils.py L299-305.
The result is the memory and the arrays of the direction cosines. -/
def dirArrays (projection : String) (ax ay : Addr) (m : Mem F) : Except PyErr (Mem F × Addr × Addr × Addr) := do
  let ds ← (List.zip (m.float ax) (m.float ay)).mapM fun th => Projection.fieldToDirCos th.1 th.2 projection
  let k := m.floats.length
  if projection = "orthographic" then .ok (m.newF (ds.map (·.2.2)), ax, ay, k)
  else .ok (((m.newF (ds.map (·.1))).newF (ds.map (·.2.1))).newF (ds.map (·.2.2)), k, k + 1, k + 2)

/-- `RayVector.fromFieldAngles` for arrays of angles: batoid/rayVector.py L984-1080. -/
def fromFieldAngles (a : Args F) (ax ay : Addr) (x y flux : F) (m : Mem F) : Except PyErr (Mem F × Obj F) := do
  let backDist ← fromOptic a.backDist a.optic (·.backDist)
  let medium ← fromOptic a.medium a.optic (·.inMedium)
  let stop ← fromOptic a.stopSurface a.optic (·.stopSurface)
  match a.wavelength with
  | none => .error .valueError
  | some w => do
    let d ← dirArrays a.projection ax ay m
    let n := (medium.getD (Medium.const 1)).getN w
    -- vx /= n; vy /= n; vz /= n
    let m := d.1
    let m := m.putF d.2.1 ((m.float d.2.1).map (· / n))
    let m := m.putF d.2.2.1 ((m.float d.2.2.1).map (· / n))
    let m := m.putF d.2.2.2 ((m.float d.2.2.2).map (· / n))
    let stop := stop.getD defaultStop
    let r ← init ⟨.num x, .num y, .num (stop.surface.sag x y), .array d.2.1, .array d.2.2.1, .array d.2.2.2, .num 0, .num w, .num flux,
      .num false, .num false, stop.coordSys⟩ m
    .ok (Obj.run r (.propagate (-(backDist.getD 40) * n)))

end

end Batoid.Arrays
