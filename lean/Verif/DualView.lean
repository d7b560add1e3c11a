import Mathlib.Data.List.Basic

/-!
# Host and device copies of a ray vector

Model of `src/dualView.cpp`, of the synchronisation done by the kernels in `src/batoid.cpp` and `src/rayVector.cpp`, and of the
accessors in `batoid/rayVector.py`.  `gpu` says whether the code was compiled with `BATOID_GPU`; without it there is one copy of the
data and the pragmas disappear.  What a kernel computes is a parameter; which arrays it synchronises, reads and writes is not.
Values of type `double` and `bool` are of one type `V`.  Arrays a caller keeps from an earlier access are not modelled.
-/

namespace Batoid

/-- `enum class SyncState`: include/dualView.h L10. -/
inductive SyncState where
  | host
  | device
  deriving DecidableEq

/-- `DualView<T>`: include/dualView.h L16-44.  `device` has no meaning unless `gpu`. -/
structure DualView (V : Type) where
  hostData : List V
  deviceData : List V
  syncState : SyncState

namespace DualView
variable {V : Type} (gpu : Bool)

/-- `DualView(T* data, size_t size)`: src/dualView.cpp L5-10.  Device memory is allocated, not written. -/
def make (data junk : List V) : DualView V := ⟨data, junk, .host⟩

/-- `syncToHost`: src/dualView.cpp L28-36. -/
def syncToHost (d : DualView V) : DualView V :=
  if d.syncState = .device then
    { d with hostData := if gpu then d.deviceData else d.hostData, syncState := .host }
  else d

/-- `syncToDevice`: src/dualView.cpp L38-46. -/
def syncToDevice (d : DualView V) : DualView V :=
  if d.syncState = .host then
    { d with deviceData := if gpu then d.hostData else d.deviceData, syncState := .device }
  else d

/-- `data[i]` inside an `omp target` region (a plain loop without `BATOID_GPU`). -/
def inKernel (d : DualView V) : List V := if gpu then d.deviceData else d.hostData

/-- Assignments to `data[i]` inside such a region. -/
def setInKernel (d : DualView V) (l : List V) : DualView V :=
  if gpu then { d with deviceData := l } else { d with hostData := l }

end DualView

/-- The arrays of a ray vector: include/rayVector.h. -/
inductive Field where
  | x | y | z | vx | vy | vz | t | wavelength | flux | vignetted | failed
  deriving DecidableEq

/-- The functions that run a kernel over one ray vector; the flag is whether a coating is given. -/
inductive Kernel where
  | positionAtTime | propagateInPlace | phase | amplitude | sumAmplitude
  | forwardTransform | reverseTransform | obscure
  | intersect (coated : Bool) | reflect (coated : Bool) | refract (coated : Bool) | refractScreen | rSplit
  deriving DecidableEq

namespace Kernel

/-- x, y, z, vx, vy, vz. -/
def phaseSpace : Field → Bool
  | .x | .y | .z | .vx | .vy | .vz => true
  | _ => false

/-- The arrays on which the function calls `syncToDevice`.  src/rayVector.cpp L29-35, L57-63, L88-95, L128-135, L173-183;
src/batoid.cpp L72-77, L112-117, L152-155, L183-195, L281-293, L390-402, L518-528, L685-694. -/
def synced : Kernel → Field → Bool
  | positionAtTime, f | propagateInPlace, f => phaseSpace f || f = .t
  | phase, f | amplitude, f => phaseSpace f || f = .t || f = .wavelength
  | sumAmplitude, _ => true
  | forwardTransform, f | reverseTransform, f => phaseSpace f
  | obscure, f => f = .x || f = .y || f = .z || f = .vignetted
  | intersect c, f | reflect c, f =>
    phaseSpace f || f = .t || f = .vignetted || f = .failed || (c && (f = .wavelength || f = .flux))
  | refract c, f => phaseSpace f || f = .t || f = .vignetted || f = .failed || f = .wavelength || (c && f = .flux)
  | refractScreen, f => phaseSpace f || f = .t || f = .vignetted || f = .failed || f = .wavelength
  | rSplit, _ => true

/-- The arrays whose elements the loop uses, or writes only for some of the rays.  src/rayVector.cpp L49-53, L76-81, L110-121, L155-165,
L207-220; src/batoid.cpp L92-108, L131-147, L169-171, L221-268, L319-376, L430-505, L586-673, L713-. -/
def reads : Kernel → Field → Bool
  | positionAtTime, f | propagateInPlace, f => phaseSpace f || f = .t
  | phase, f | amplitude, f => phaseSpace f || f = .t || f = .wavelength
  | sumAmplitude, _ => true
  | forwardTransform, f | reverseTransform, f => phaseSpace f
  | obscure, f => f = .x || f = .y || f = .vignetted
  | intersect c, f | reflect c, f =>
    phaseSpace f || f = .t || f = .vignetted || f = .failed || (c && (f = .wavelength || f = .flux))
  | refract c, f => phaseSpace f || f = .t || f = .vignetted || f = .failed || f = .wavelength || (c && f = .flux)
  | refractScreen, f => phaseSpace f || f = .t || f = .vignetted || f = .failed
  | rSplit, _ => true

/-- The arrays the loop writes. -/
def writes : Kernel → Field → Bool
  | positionAtTime, _ | phase, _ | amplitude, _ | sumAmplitude, _ => false
  | propagateInPlace, f => f = .x || f = .y || f = .z || f = .t
  | forwardTransform, f | reverseTransform, f => phaseSpace f
  | obscure, f => f = .vignetted
  | intersect c, f | reflect c, f | refract c, f =>
    phaseSpace f || f = .t || f = .vignetted || f = .failed || (c && f = .flux)
  | refractScreen, f => phaseSpace f || f = .t || f = .vignetted || f = .failed
  | rSplit, f => phaseSpace f || f = .t || f = .vignetted || f = .failed || f = .flux

end Kernel

/-- The arrays of one ray vector. -/
abbrev DualRays (V : Type) := Field → DualView V

/-- Contents of the arrays of one ray vector. -/
abbrev Contents (V : Type) := Field → List V

namespace DualRays
variable {V : Type} (gpu : Bool)

/-- The body of a kernel sees the arrays it reads. -/
def restrict (k : Kernel) (c : Contents V) : Contents V := fun f => if k.reads f then c f else []

/-- A call of a kernel: synchronise, then run `body` on what the device has. -/
def run (k : Kernel) (body : Contents V → Contents V) (rv : DualRays V) : DualRays V :=
  let s : DualRays V := fun f => if k.synced f then (rv f).syncToDevice gpu else rv f
  let res := body (restrict k fun f => (s f).inKernel gpu)
  fun f => if k.writes f then (s f).setInKernel gpu (res f) else s f

/-- What the loop sees. -/
def seen (k : Kernel) (rv : DualRays V) : Contents V :=
  restrict k fun f => (if k.synced f then (rv f).syncToDevice gpu else rv f).inKernel gpu

/-- The property `rv.f`: batoid/rayVector.py L1083-1178: synchronise, except for `wavelength` (L1152-1156). -/
def accessed (f : Field) (rv : DualRays V) : DualRays V :=
  if f = .wavelength then rv else fun g => if g = f then (rv g).syncToHost gpu else rv g

/-- `_syncToHost`, batoid/rayVector.py L1225-1239; without `_rv` nothing was ever on the device. -/
def syncAllToHost (rv : DualRays V) : DualRays V := fun f => (rv f).syncToHost gpu

/-- `_syncToDevice`, batoid/rayVector.py L1241-1252. -/
def syncAllToDevice (rv : DualRays V) : DualRays V := fun f => (rv f).syncToDevice gpu

/-- `syncToDevice` on one of the arrays. -/
def syncField (f : Field) (rv : DualRays V) : DualRays V := fun g => if g = f then (rv g).syncToDevice gpu else rv g

end DualRays

/-- What a program does with its ray vectors, referred to by number. -/
inductive DualOp (V : Type) where
  /-- read `rv.f` -/
  | read (i : ℕ) (f : Field)
  /-- `rv.f[...] = ...` -/
  | write (i : ℕ) (f : Field) (g : List V → List V)
  /-- a kernel that works on one ray vector -/
  | kernel (i : ℕ) (k : Kernel) (body : Contents V → Contents V)
  /-- `rv.copy()`; `rv[...]` (batoid/rayVector.py L1320-1349) is the same with `g` selecting elements; `junk` is what device memory
  holds when it is allocated -/
  | copy (i : ℕ) (g : List V → List V) (junk : Contents V)
  /-- `rSplit`: `body` makes the transmitted rays of the incoming ones; `split` the reflected ones of the incoming ones and of what the
  arrays of the second ray vector held -/
  | rSplit (i : ℕ) (body : Contents V → Contents V) (split : Contents V → Contents V → Contents V) (junk : Contents V)
  | syncToHost (i : ℕ)
  | syncToDevice (i : ℕ)
  /-- one of the comparisons of `rv == rhs` (src/rayVector.cpp L224-238) -/
  | compare (i j : ℕ) (f : Field)

namespace DualOp
variable {V : Type} (gpu : Bool)

/-- `RayVector.copy`: batoid/rayVector.py L1254-1270. -/
def copyOf (g : List V → List V) (junk : Contents V) (rv : DualRays V) : DualRays V :=
  fun f => DualView.make (g (rv f).hostData) (junk f)

/-- One operation: the new store and what was seen, either by the caller or by the kernel. -/
def step (s : List (DualRays V)) : DualOp V → List (DualRays V) × Option (Contents V)
  | read i f =>
    match s[i]? with
    | none => (s, none)
    | some rv =>
      let rv' := DualRays.accessed gpu f rv
      (s.set i rv', some fun g => if g = f then (rv' f).hostData else [])
  | write i f g =>
    match s[i]? with
    | none => (s, none)
    | some rv =>
      let rv' := DualRays.accessed gpu f rv
      (s.set i (fun h => if h = f then { rv' h with hostData := g (rv' h).hostData } else rv' h), none)
  | kernel i k body =>
    match s[i]? with
    | none => (s, none)
    | some rv => (s.set i (rv.run gpu k body), some (rv.seen gpu k))
  | copy i g junk =>
    match s[i]? with
    | none => (s, none)
    | some rv =>
      let rv' := rv.syncAllToHost gpu
      (s.set i rv' ++ [copyOf g junk rv'], none)
  | rSplit i body split junk =>
    -- batoid/trace.py L119-136 and src/batoid.cpp L509-674
    match s[i]? with
    | none => (s, none)
    | some rv =>
      let rv' := rv.syncAllToHost gpu
      let rv2 := copyOf id junk rv'
      -- src/batoid.cpp L529-539: the state is set, nothing is copied
      let rv2 : DualRays V := fun f => { rv2 f with syncState := .device }
      let seen := rv'.seen gpu .rSplit
      let res2 := split seen (fun f => (rv2 f).inKernel gpu)
      (s.set i (rv'.run gpu .rSplit body) ++ [fun f => (rv2 f).setInKernel gpu (res2 f)], some seen)
  | syncToHost i =>
    match s[i]? with
    | none => (s, none)
    | some rv => (s.set i (rv.syncAllToHost gpu), none)
  | syncToDevice i =>
    match s[i]? with
    | none => (s, none)
    | some rv => (s.set i (rv.syncAllToDevice gpu), none)
  | compare i j f =>
    -- src/dualView.cpp L48-68; what is seen are the two arrays, one after the other
    match s[i]?, s[j]? with
    | some a, some b =>
      if (a f).syncState = .host ∧ (b f).syncState = .host then
        (s, some fun g => if g = f then (a f).hostData ++ (b f).hostData else [])
      else
        let a' := a.syncField gpu f
        let b' := b.syncField gpu f
        ((s.set i a').set j b', some fun g => if g = f then (a' f).inKernel gpu ++ (b' f).inKernel gpu else [])
    | _, _ => (s, none)

/-- A program: everything seen, in order. -/
def runAll : List (DualRays V) → List (DualOp V) → List (Option (Contents V))
  | _, [] => []
  | s, op :: ops => let r := step gpu s op; r.2 :: runAll r.1 ops

end DualOp

/-- What `rSplit` writes for the second ray vector (src/batoid.cpp L596-673): `hit i` says that ray `i` had not failed and met the
surface, `wasFailed i` that it had failed before.  Rays that miss get the two flags only, rays that had failed nothing.  (`yes` is `true`; it also
stands in where an array is too short.) -/
def splitLoop {V : Type} (yes : V) (hit wasFailed : ℕ → Bool) (new : Contents V → Contents V) (inc old : Contents V) : Contents V :=
  fun f => (List.range (inc .wavelength).length).map fun i =>
    let o := ((old f)[i]?).getD yes
    if hit i then ((new inc f)[i]?).getD yes
    else if wasFailed i then o
    else if f = .vignetted || f = .failed then yes
    else o

end Batoid
