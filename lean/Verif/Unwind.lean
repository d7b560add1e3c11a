import Verif.Optic

/-!
# Calls that do not return

The in-place functions of batoid/trace.py and `trace` of batoid/optic.py once more, statement by statement, as computations that change a
`RayVector` and may stop in the middle: because a statement raises, or because the user interrupts the program (`KeyboardInterrupt`, which
Python raises between two statements; a call into C++ cannot be interrupted).  Arguments may be of any type.
-/

namespace Batoid

/-- Why a call does not return. -/
inductive Exc where
  | err (e : PyErr)
  | interrupt
  deriving DecidableEq, Repr

/-- An argument: `None`, an object of the class expected, or anything else, with the exception that its use raises. -/
inductive Arg (α : Type) where
  | absent
  | given (a : α)
  | wrong (e : PyErr)

namespace Arg
variable {α : Type}

/-- `arg._surface`, `arg._medium`, `arg._obsc`, ...: `None` has no such attribute. -/
def attr : Arg α → Except PyErr α
  | absent => .error .attributeError
  | given a => .ok a
  | wrong e => .error e

/-- `coating._coating if coating else None`: batoid/trace.py L73, L89, L106. -/
def optional : Arg α → Except PyErr (Option α)
  | absent => .ok none
  | given a => .ok (some a)
  | wrong e => .error e

end Arg

/-- The rays, and after how many statements the user interrupts the program. -/
structure Running (F : Type) where
  rv : RayVec F
  fuse : Option ℕ

/-- A computation that changes rays in place. -/
def Act (F α : Type) := Running F → Running F × Except Exc α

namespace Act
variable {F α β : Type}

def run (x : Act F α) (s : Running F) : Running F × Except Exc α := x s

/-- What has been done stays done when a later statement raises. -/
def bind (x : Act F α) (f : α → Act F β) : Act F β := fun s =>
  match x s with
  | (s', .ok a) => f a s'
  | (s', .error e) => (s', .error e)

instance : Monad (Act F) where
  pure a := fun s => (s, .ok a)
  bind := bind

/-- The next statement begins; the program may be interrupted before. -/
def tick : Act F Unit := fun s =>
  match s.fuse with
  | none => (s, .ok ())
  | some 0 => (s, .error .interrupt)
  | some (k + 1) => ({ s with fuse := some k }, .ok ())

def rays : Act F (RayVec F) := fun s => (s, .ok s.rv)
def change (f : RayVec F → RayVec F) : Act F Unit := fun s => ({ s with rv := f s.rv }, .ok ())

/-- An expression that raises or has a value, and changes nothing. -/
def eval (x : Except PyErr α) : Act F α := fun s =>
  match x with
  | .ok a => (s, .ok a)
  | .error e => (s, .error (.err e))

end Act

open Act

section wrappers
variable {F : Type} [Arith F]

/-- The statements that `intersect`, `reflect`, `refract` and `refractScreen` share: batoid/trace.py L68-81, L85-98, L102-116, L140-153.
`args` evaluates the other arguments in the order of the text and gives the loop body of the C++ function. -/
def wrapper (cs : Arg (CoordSys F)) (args : Except PyErr (CoordTransform F → Ray F → Ray F)) : Act F Unit := do
  tick
  -- if coordSys is None: coordSys = rv.coordSys
  let rv ← rays
  let coordSys : Except PyErr (CoordSys F) := match cs with
    | .absent => .ok rv.coordSys
    | .given c => .ok c
    | .wrong e => .error e
  tick
  -- ct = CoordTransform(rv.coordSys, coordSys)
  let c ← eval coordSys
  let ct := CoordTransform.make rv.coordSys c
  tick
  let k ← eval args
  -- _batoid.f(...)
  change fun rv => ⟨rv.rays.map (k ct), rv.coordSys⟩
  tick
  -- rv.coordSys = coordSys
  change fun rv => ⟨rv.rays, c⟩

/-- batoid/trace.py L47-81. -/
def intersectAct (s : Arg (Surface F)) (cs : Arg (CoordSys F)) (coating : Arg (Coating F)) (niter : ℕ) : Act F Unit :=
  wrapper cs do
    let co ← coating.optional
    let sf ← s.attr
    return fun ct => Ray.intersect sf ct co niter

/-- batoid/trace.py L84-98. -/
def reflectAct (s : Arg (Surface F)) (cs : Arg (CoordSys F)) (coating : Arg (Coating F)) (niter : ℕ) : Act F Unit :=
  wrapper cs do
    let co ← coating.optional
    let sf ← s.attr
    return fun ct => Ray.reflect sf ct co niter

/-- batoid/trace.py L101-116. -/
def refractAct (s : Arg (Surface F)) (m1 m2 : Arg (Medium F)) (cs : Arg (CoordSys F)) (coating : Arg (Coating F)) (niter : ℕ) : Act F Unit :=
  wrapper cs do
    let co ← coating.optional
    let sf ← s.attr
    let _ ← m1.attr
    let out ← m2.attr
    return fun ct => Ray.refract sf ct out co niter

/-- batoid/trace.py L139-153. -/
def refractScreenAct (s screen : Arg (Surface F)) (cs : Arg (CoordSys F)) (niter : ℕ) : Act F Unit :=
  wrapper cs do
    let sf ← s.attr
    let sc ← screen.attr
    return fun ct => Ray.refractScreen sf ct sc niter

/-- batoid/trace.py L119-136: `rvSplit` is a copy made before the call. -/
def rSplitAct (s : Arg (Surface F)) (m1 m2 : Arg (Medium F)) (coating : Arg (Coating F)) (cs : Arg (CoordSys F)) (niter : ℕ) :
    Act F (RayVec F) := do
  tick
  let rv ← rays
  let coordSys : Except PyErr (CoordSys F) := match cs with
    | .absent => .ok rv.coordSys
    | .given c => .ok c
    | .wrong e => .error e
  tick
  let c ← eval coordSys
  let ct := CoordTransform.make rv.coordSys c
  tick
  -- rvSplit = rv.copy()
  let split := rv
  tick
  let sf ← eval s.attr
  let _ ← eval m1.attr
  let out ← eval m2.attr
  let co ← eval coating.attr
  change fun rv => ⟨rv.rays.map fun r => (Ray.rSplit sf ct out co niter r).1, rv.coordSys⟩
  let split' : RayVec F := ⟨split.rays.map fun r => (Ray.rSplit sf ct out co niter r).2, split.coordSys⟩
  tick
  change fun rv => ⟨rv.rays, c⟩
  tick
  return ⟨split'.rays, c⟩

/-- batoid/trace.py L41-44, batoid/obscuration.py L29-42. -/
def obscureAct (o : Arg (Obsc F)) : Act F Unit := do
  tick
  let ob ← eval o.attr
  change fun rv => rv.obscure ob

/-- `RayVector.toCoordSys`: batoid/rayVector.py L1272-1287, batoid/trace.py L5-11. -/
def toCoordSysAct (cs : Arg (CoordSys F)) : Act F Unit := do
  tick
  let rv ← rays
  let c ← eval cs.attr
  let ct := CoordTransform.make rv.coordSys c
  tick
  change fun rv => ⟨rv.rays.map (Ray.forward ct), rv.coordSys⟩
  tick
  change fun rv => ⟨rv.rays, c⟩

end wrappers

section optics
variable {F : Type} [Arith F]

/-- `interact` of each class (see `Iface.interact`). -/
def Iface.interactAct (d : Iface F) (niter : ℕ) (reverse : Bool) : Act F Unit :=
  match d.kind with
  | .refractive =>
    if reverse then refractAct (.given d.surface) (.given d.outMedium) (.given d.inMedium) (.given d.coordSys) .absent niter
    else refractAct (.given d.surface) (.given d.inMedium) (.given d.outMedium) (.given d.coordSys) .absent niter
  | .mirror => reflectAct (.given d.surface) (.given d.coordSys) .absent niter
  | .screen s => refractScreenAct (.given d.surface) (.given s) (.given d.coordSys) niter
  | _ => intersectAct (.given d.surface) (.given d.coordSys) .absent niter

/-- `if self.obscuration is not None: self.obscuration.obscure(rv)`. -/
def Iface.obscurationAct (d : Iface F) : Act F Unit := do
  tick
  match d.obscuration with
  | none => pure ()
  | some o => obscureAct (.given o)

/-- `Interface.trace`: batoid/optic.py L416-424. -/
def Iface.traceAct (d : Iface F) (niter : ℕ) (reverse : Bool) : Act F Unit := do
  tick
  d.interactAct niter reverse
  d.obscurationAct

/-- The turn-around of an explicit path: batoid/optic.py L1074-1078. -/
def Iface.turnAct (d : Iface F) (niter : ℕ) : Act F Unit := do
  tick
  reflectAct (.given d.surface) (.given d.coordSys) .absent niter
  d.obscurationAct

namespace Optic

mutual
/-- `trace(rv, reverse)` with `path=None` (see `Optic.trace`). -/
def traceAct (niter : ℕ) (reverse : Bool) : Optic F → Act F Unit
  | iface d => d.traceAct niter reverse
  | compound _ items => if reverse then traceItemsRevAct niter items else traceItemsAct niter items
def traceItemsAct (niter : ℕ) : List (Optic F) → Act F Unit
  | [] => pure ()
  | o :: os => do
    tick
    if o.skip then traceItemsAct niter os
    else
      traceAct niter false o
      traceItemsAct niter os
/-- The loop over `reversed(self.items)`. -/
def traceItemsRevAct (niter : ℕ) : List (Optic F) → Act F Unit
  | [] => pure ()
  | o :: os => do
    traceItemsRevAct niter os
    tick
    if o.skip then pure () else traceAct niter true o
end

/-- One round of the loop over the path: batoid/optic.py L1072-1078. -/
def pathStepAct (niter : ℕ) (item : Optic F) (back back' : Bool) : Act F Unit :=
  if back = back' then item.traceAct niter back
  else match item with
    | iface d => d.turnAct niter
    | compound _ _ => eval (.error .attributeError)

/-- The loop over the path: batoid/optic.py L1055-1078.  `self[currentName]` is evaluated in each round. -/
def pathLoopAct (niter : ℕ) (o : Optic F) (path : List Name) : List Name → Bool → Act F Unit
  | [], _ => pure ()
  | nm :: rest, back => do
    tick
    let item ← eval (o.getItem nm)
    pathStepAct niter item back (nextBack path nm rest back)
    pathLoopAct niter o path rest (nextBack path nm rest back)

/-- `trace(rv, path=path)`: batoid/optic.py L1045-1079. -/
def tracePathAct (niter : ℕ) (o : Optic F) (path : List Name) : Act F Unit := pathLoopAct niter o path path false

end Optic
end optics
end Batoid
