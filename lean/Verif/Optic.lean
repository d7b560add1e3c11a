import Verif.Kernels
import Verif.Py

/-!
# Optics

Model of `batoid/optic.py`: the tree of optics, name lookup, tracing, splitting and the `with*` copies.

Simplifications:
* Optics are values.  The caches of `cached_property` and the aliasing of objects between copies are modelled separately
  (`Verif/OpticHeap.lean`).
* Names are character lists (Python strings); `name=None` (for which name lookup raises `TypeError`) is not modelled.
* A `stopSurface` attribute is represented by its frame and its surface.
* `==` of media (used by assertions) is equality of the modelled media.
* Drawing, `__repr__`, `fromYaml` and radii for drawing are not modelled here.
-/

namespace Batoid

/-- Python strings used as names. -/
abbrev Name := List Char

/-! ### Insertion ordered dictionaries -/

/-- A Python `dict` (or `OrderedDict`) as its list of items in insertion order. -/
abbrev Dict (α β : Type) := List (α × β)

namespace Dict
variable {α β : Type} [DecidableEq α]

/-- `d[k] = v`: an existing key keeps its position. -/
def set : Dict α β → α → β → Dict α β
  | [], k, v => [(k, v)]
  | (k', v') :: d, k, v => if k' = k then (k, v) :: d else (k', v') :: set d k v

/-- `d[k]` / `d.get(k)`. -/
def get? : Dict α β → α → Option β
  | [], _ => none
  | (k', v') :: d, k => if k' = k then some v' else get? d k

/-- `k in d`. -/
def has (d : Dict α β) (k : α) : Bool := (get? d k).isSome

/-- `del d[k]`. -/
def del (d : Dict α β) (k : α) : Dict α β := d.filter (fun kv => !decide (kv.1 = k))

end Dict

/-! ### The tree -/

/-- The subclass of `Interface`. -/
inductive Kind (F : Type) where
  | plain        -- `Interface` itself
  | refractive   -- `RefractiveInterface`
  | mirror       -- `Mirror`
  | detector     -- `Detector`
  | baffle       -- `Baffle`
  | screen (s : Surface F)  -- `OPDScreen` with its `screen`

/-- A `stopSurface`. -/
structure Stop (F : Type) where
  coordSys : CoordSys F
  surface : Surface F

/-- The attributes of an `Interface`: batoid/optic.py L37-46, L115-140, L762-770, L800-808, L828-833, L850-857, L886-890. -/
structure Iface (F : Type) where
  kind : Kind F
  name : Name
  surface : Surface F
  obscuration : Option (Obsc F)
  coordSys : CoordSys F
  inMedium : Medium F
  outMedium : Medium F
  skip : Bool
  forwardCoating : Option (Coating F)
  reverseCoating : Option (Coating F)
  stop : Option (Stop F)

/-- The attributes of a `CompoundOptic` (or `Lens`) other than its items: batoid/optic.py L37-46, L942-945. -/
structure Comp (F : Type) where
  isLens : Bool
  name : Name
  coordSys : CoordSys F
  inMedium : Medium F
  outMedium : Medium F
  skip : Bool
  stop : Option (Stop F)

/-- `Optic`: an interface or a compound of optics. -/
inductive Optic (F : Type) where
  | iface (d : Iface F)
  | compound (d : Comp F) (items : List (Optic F))

namespace Optic
variable {F : Type}

def name : Optic F → Name
  | iface d => d.name
  | compound d _ => d.name
def skip : Optic F → Bool
  | iface d => d.skip
  | compound d _ => d.skip
def coordSys : Optic F → CoordSys F
  | iface d => d.coordSys
  | compound d _ => d.coordSys
def inMedium : Optic F → Medium F
  | iface d => d.inMedium
  | compound d _ => d.inMedium
def outMedium : Optic F → Medium F
  | iface d => d.outMedium
  | compound d _ => d.outMedium
def items : Optic F → List (Optic F)
  | iface _ => []
  | compound _ l => l

end Optic

/-! ### Constructors -/

section ctor
variable {F : Type} [OfNat F 0] [OfNat F 1]

/-- The coatings assigned by the subclass constructors whatever they were before: batoid/optic.py L762-770, L800-808,
L828-833, L850-857.  `Interface` and `OPDScreen` keep what is passed as keyword arguments. -/
def Iface.resetCoatings (d : Iface F) : Iface F :=
  match d.kind with
  | .refractive => { d with forwardCoating := some (.simple 0 1), reverseCoating := some (.simple 0 1) }
  | .mirror => { d with forwardCoating := some (.simple 1 0), reverseCoating := some (.simple 1 0) }
  | .detector => { d with forwardCoating := some (.simple 0 1), reverseCoating := none }
  | .baffle => { d with forwardCoating := some (.simple 0 1), reverseCoating := some (.simple 0 1) }
  | .plain => d
  | .screen _ => d

open Classical in
/-- `Class(surface, **attributes)`: `Optic.__init__` L37-46 sets `skip` to `False` whatever is passed, the subclass
constructors assign the coatings, and `OPDScreen.__init__` L886-890 asserts equal media. -/
noncomputable def Iface.init (d : Iface F) : Except PyErr (Iface F) :=
  match d.kind with
  | .screen _ => if d.inMedium = d.outMedium then .ok { d with skip := false }.resetCoatings
      else .error .assertionError
  | _ => .ok { d with skip := false }.resetCoatings

open Classical in
/-- `CompoundOptic(items, **attributes)` L942-945, `Lens(items, **attributes)` L1758-1761. -/
noncomputable def Optic.mkCompound (d : Comp F) (items : List (Optic F)) : Except PyErr (Optic F) :=
  if d.isLens then
    match items with
    | [a, b] => if a.outMedium = b.inMedium then .ok (.compound { d with skip := false } [a, b])
        else .error .assertionError
    | _ => .error .assertionError
  else .ok (.compound { d with skip := false } items)

end ctor

/-! ### Tracing -/

namespace Iface
variable {F : Type} [Arith F]

/-- `interact` of each class: batoid/optic.py L541-543 (also `Detector` and `Baffle`), L772-777, L810-812, L912-918. -/
def interact (d : Iface F) (niter : ℕ) (reverse : Bool) (rv : RayVec F) : RayVec F :=
  match d.kind with
  | .refractive =>
    if reverse then rv.refract d.surface d.outMedium d.inMedium (some d.coordSys) none niter
    else rv.refract d.surface d.inMedium d.outMedium (some d.coordSys) none niter
  | .mirror => rv.reflect d.surface (some d.coordSys) none niter
  | .screen s => rv.refractScreen d.surface s (some d.coordSys) niter
  | _ => rv.intersect d.surface (some d.coordSys) none niter

/-- `if self.obscuration is not None: self.obscuration.obscure(rv)`. -/
def applyObscuration (d : Iface F) (rv : RayVec F) : RayVec F :=
  match d.obscuration with
  | none => rv
  | some o => rv.obscure o

/-- `Interface.trace`: batoid/optic.py L391-424. -/
def trace (d : Iface F) (niter : ℕ) (reverse : Bool) (rv : RayVec F) : RayVec F :=
  d.applyObscuration (d.interact niter reverse rv)

/-- The turn-around of an explicit path: batoid/optic.py L1074-1078. -/
def turn (d : Iface F) (niter : ℕ) (rv : RayVec F) : RayVec F :=
  d.applyObscuration (rv.reflect d.surface (some d.coordSys) none niter)

end Iface

/-- One value of the dictionary returned by `traceFull`. -/
structure Record (F : Type) where
  name : Name
  input : RayVec F
  output : RayVec F

namespace Optic
variable {F : Type} [Arith F]

mutual
/-- `trace(rv, reverse)` with `path=None`: batoid/optic.py L391-424 and L1040-1044.  `niter` is the global iteration count
of `batoid/global_vars.py`. -/
def trace (niter : ℕ) (reverse : Bool) : Optic F → RayVec F → RayVec F
  | iface d, rv => d.trace niter reverse rv
  | compound _ items, rv =>
    if reverse then traceItemsRev niter items rv else traceItems niter items rv
/-- The loop over `self.items`. -/
def traceItems (niter : ℕ) : List (Optic F) → RayVec F → RayVec F
  | [], rv => rv
  | o :: os, rv => traceItems niter os (if o.skip then rv else trace niter false o rv)
/-- The loop over `reversed(self.items)`. -/
def traceItemsRev (niter : ℕ) : List (Optic F) → RayVec F → RayVec F
  | [], rv => rv
  | o :: os, rv =>
    if o.skip then traceItemsRev niter os rv else trace niter true o (traceItemsRev niter os rv)
end

/-- The loop `for k, v in tf.items(): result[k] = v; rv_in = v['out']`: batoid/optic.py L1123-1125. -/
def mergeFull : Dict Name (Record F) → Dict Name (Record F) × RayVec F → Dict Name (Record F) × RayVec F
  | [], s => s
  | (k, v) :: tf, s => mergeFull tf (s.1.set k v, v.output)

mutual
/-- `traceFull(rv, reverse)` with `path=None`: batoid/optic.py L426-464 and L1115-1125. -/
def traceFull (niter : ℕ) (reverse : Bool) : Optic F → RayVec F → Dict Name (Record F)
  | iface d, rv => if d.skip then [] else [(d.name, ⟨d.name, rv, d.trace niter reverse rv⟩)]
  | compound d items, rv =>
    if d.skip then []
    else if reverse then (fullItemsRev niter items ([], rv)).1 else (fullItems niter items ([], rv)).1
/-- The loop over `self.items`. -/
def fullItems (niter : ℕ) : List (Optic F) → Dict Name (Record F) × RayVec F → Dict Name (Record F) × RayVec F
  | [], s => s
  | o :: os, s => fullItems niter os (mergeFull (traceFull niter false o s.2) s)
/-- The loop over `reversed(self.items)`. -/
def fullItemsRev (niter : ℕ) : List (Optic F) → Dict Name (Record F) × RayVec F → Dict Name (Record F) × RayVec F
  | [], s => s
  | o :: os, s =>
    let s' := fullItemsRev niter os s
    mergeFull (traceFull niter true o s'.2) s'
end

end Optic

/-! ### Name lookup -/

namespace Optic
variable {F : Type}

mutual
/-- `itemDict`: batoid/optic.py L947-968.  An interface has no `itemDict`; the empty dictionary has the effect of
`hasattr(item, 'itemDict')` being false. -/
def itemDict : Optic F → Dict Name (Optic F)
  | iface _ => []
  | compound d items => addItems d.name items [(d.name, compound d items)]
/-- The loop over `self.items` of `itemDict`. -/
def addItems (pre : Name) : List (Optic F) → Dict Name (Optic F) → Dict Name (Optic F)
  | [], out => out
  | o :: os, out =>
    addItems pre os
      ((itemDict o).foldl (fun out kv => Dict.set out (pre ++ '.' :: kv.1) kv.2)
        (Dict.set out (pre ++ '.' :: o.name) o))
end

/-- `shortNames` built from the last token outwards: batoid/optic.py L996-999. -/
def shortFrom : List Name → Name → List Name
  | [], s => [s]
  | t :: ts, s => s :: shortFrom ts (t ++ '.' :: s)

/-- `tokens = k.split('.')` and the list `shortNames`: batoid/optic.py L995-999. -/
def shortNames (k : Name) : List Name :=
  match (k.splitOn '.').reverse with
  | [] => []
  | t :: ts => shortFrom ts t

/-- The inner loop of `_names`: batoid/optic.py L1000-1004. -/
def nameStep (k : Name) (s : Dict Name Name × List Name) (short : Name) : Dict Name Name × List Name :=
  if Dict.has s.1 short then (s.1, short :: s.2) else (Dict.set s.1 short k, s.2)

/-- `_names`: batoid/optic.py L990-1007. -/
def namesOf (keys : List Name) : Dict Name Name :=
  let s := keys.foldl (fun s k => (shortNames k).foldl (nameStep k) s) ([], [])
  s.2.foldl Dict.del s.1

/-- `self._names`. -/
def names (o : Optic F) : Dict Name Name := namesOf (o.itemDict.map Prod.fst)

/-- `optic[key]`: batoid/optic.py L970-988.  An interface does not support indexing. -/
def getItem (o : Optic F) (key : Name) : Except PyErr (Optic F) :=
  match o with
  | iface _ => .error .typeError
  | compound _ _ =>
    match o.itemDict.get? key with
    | some x => .ok x
    | none =>
      match o.names.get? key with
      | none => .error .valueError
      | some full =>
        match o.itemDict.get? full with
        | some x => .ok x
        | none => .error .valueError

end Optic

/-! ### Explicit paths -/

namespace Optic
variable {F : Type} [Arith F]

/-- `nominalOrder`: batoid/optic.py L1047-1053. -/
def nominalOrder (path : List Name) : Dict Name ℕ :=
  path.foldl (fun d nm => if Dict.has d nm then d else Dict.set d nm d.length) []

/-- `nominalOrder[name]` (names of the path are always present). -/
def orderOf (path : List Name) (nm : Name) : ℕ := ((nominalOrder path).get? nm).getD 0

/-- One step of the loop over the path: `back` says whether `direction == "reverse"`, `back'` whether
`nextDirection == "reverse"`: batoid/optic.py L1072-1078. -/
def pathStep (niter : ℕ) (item : Optic F) (back back' : Bool) (rv : RayVec F) : Except PyErr (RayVec F) :=
  if back = back' then .ok (item.trace niter back rv)
  else match item with
    | iface d => .ok (d.turn niter rv)
    | compound _ _ => .error .attributeError

/-- `nextDirection == "reverse"`: batoid/optic.py L1060-1071.  `rest` are the names after the current one. -/
def nextBack (path : List Name) (current : Name) (rest : List Name) (back : Bool) : Bool :=
  match rest with
  | [] => if orderOf path current = 0 then true else back
  | nxt :: _ => decide (orderOf path nxt < orderOf path current)

/-- The loop over the path: batoid/optic.py L1055-1078. -/
def pathLoop (niter : ℕ) (o : Optic F) (path : List Name) : List Name → Bool → RayVec F → Except PyErr (RayVec F)
  | [], _, rv => .ok rv
  | nm :: rest, back, rv => do
    let item ← o.getItem nm
    let back' := nextBack path nm rest back
    let rv' ← pathStep niter item back back' rv
    pathLoop niter o path rest back' rv'

/-- `trace(rv, path=path)`: batoid/optic.py L1045-1079. -/
def tracePath (niter : ℕ) (o : Optic F) (path : List Name) (rv : RayVec F) : Except PyErr (RayVec F) :=
  pathLoop niter o path path false rv

/-- `item.name+'_{}'.format(j)`. -/
def historyKey (nm : Name) (j : ℕ) : Name := nm ++ '_' :: Nat.toDigits 10 j

/-- The loop `while key in result`: batoid/optic.py L1164-1168.  A dictionary of `n` entries cannot hold more than `n` of
the keys tried, so `n` rounds are enough. -/
def freshKey (out : Dict Name (Record F)) (nm : Name) : ℕ → ℕ → Name
  | 0, j => historyKey nm j
  | fuel + 1, j => if Dict.has out (historyKey nm j) then freshKey out nm fuel (j + 1) else historyKey nm j

/-- The loop over the path of `traceFull(rv, path=path)`: batoid/optic.py L1136-1177. -/
def pathFullLoop (niter : ℕ) (o : Optic F) (path : List Name) :
    List Name → Bool → RayVec F → Dict Name (Record F) → Except PyErr (Dict Name (Record F))
  | [], _, _, out => .ok out
  | nm :: rest, back, rv, out => do
    let item ← o.getItem nm
    let back' := nextBack path nm rest back
    let rv' ← pathStep niter item back back' rv
    pathFullLoop niter o path rest back' rv'
      (Dict.set out (freshKey out item.name out.length 0) ⟨item.name, rv, rv'⟩)

/-- `traceFull(rv, path=path)`: batoid/optic.py L1126-1178. -/
def traceFullPath (niter : ℕ) (o : Optic F) (path : List Name) (rv : RayVec F) : Except PyErr (Dict Name (Record F)) :=
  pathFullLoop niter o path path false rv []

end Optic

/-! ### Splitting -/

/-- A ray vector with its `path` attribute (`none`: attribute not set). -/
structure Beam (F : Type) where
  rv : RayVec F
  path : Option (List Name)

namespace Iface
variable {F : Type} [Arith F]

/-- `rSplit` of each class, `(refracted, reflected)`: batoid/optic.py L782-793, L817-819, L835-841, L859-860, L923-925.
A plain `Interface` has no such method and a surface has no method `interact`.  A missing coating (`None`) makes the
compiled code fail with `AttributeError`. -/
def rSplit (d : Iface F) (niter : ℕ) (reverse : Bool) (rv : RayVec F) :
    Except PyErr (Option (RayVec F) × Option (RayVec F)) :=
  match d.kind with
  | .refractive =>
    match (if reverse then d.forwardCoating else d.reverseCoating) with
    | none => .error .attributeError
    | some c =>
      let s := if reverse then rv.rSplit d.surface d.outMedium d.inMedium c (some d.coordSys) niter
        else rv.rSplit d.surface d.inMedium d.outMedium c (some d.coordSys) niter
      .ok (some s.1, some s.2)
  | .mirror => .ok (none, some (rv.reflect d.surface (some d.coordSys) none niter))
  | .detector =>
    if reverse then .error .assertionError
    else match d.forwardCoating with
      | none => .error .attributeError
      | some c =>
        let s := rv.rSplit d.surface d.inMedium d.outMedium c (some d.coordSys) niter
        .ok (some s.1, some s.2)
  | .baffle => .ok (some (rv.intersect d.surface (some d.coordSys) none niter), none)
  | .screen _ => .error .attributeError
  | .plain => .error .attributeError

/-- The path attribute of the outgoing rays: batoid/optic.py L517-527. -/
def extendPath (d : Iface F) (path : Option (List Name)) : Option (List Name) :=
  match path with
  | none => some [d.name]
  | some p => some (p ++ [d.name])

/-- `isinstance(self, Mirror)`. -/
def isMirror (d : Iface F) : Bool := match d.kind with
  | .mirror => true
  | _ => false

/-- `Interface.traceSplit` when not skipped: batoid/optic.py L509-535.  Returns `(rForward, rReverse)`, each a list of one
entry that may be `None`. -/
def traceSplit (d : Iface F) (niter : ℕ) (reverse : Bool) (b : Beam F) :
    Except PyErr (List (Option (Beam F)) × List (Option (Beam F))) := do
  let s ← d.rSplit niter reverse b.rv
  let refracted := s.1.map (fun rv => Beam.mk (d.applyObscuration rv) (d.extendPath b.path))
  let reflected := s.2.map (fun rv => Beam.mk (d.applyObscuration rv) (d.extendPath b.path))
  if (reverse != d.isMirror) then return ([reflected], [refracted]) else return ([refracted], [reflected])

end Iface

namespace Optic
variable {F : Type} [Arith F]

/-- `w = ~rr.vignetted & (rr.flux >= minFlux)`: batoid/optic.py L1250. -/
def keep (minFlux : F) (ray : Ray F) : Bool := !ray.vignetted && Arith.ge ray.flux minFlux

/-- `[i for i in rList if i]` followed by the selection of the bright rays: batoid/optic.py L1243-1259.  (A ray vector is
false when it is empty.) -/
def sift (minFlux : F) (l : List (Option (Beam F))) : List (Beam F) :=
  (l.filterMap id).filterMap (fun b =>
    if b.rv.rays.isEmpty then none
    else some { b with rv := { b.rv with rays := b.rv.rays.filter (keep minFlux) } })

/-- `if len(rr) > 0`: batoid/optic.py L1262, L1268. -/
def nonEmpty (l : List (Beam F)) : List (Beam F) := l.filter (fun b => !b.rv.rays.isEmpty)

/-- An entry of the work queue `(rays, direction, opticIndex)`, `back` meaning `direction == "reverse"`. -/
structure Job (F : Type) where
  beam : Beam F
  back : Bool
  index : ℕ

/-- The new entries pushed on the work queue, in the order of the pushes, and the lists of finished rays, after one
iteration: batoid/optic.py L1261-1274. -/
def pushJobs (n : ℕ) (index : ℕ) (fwd rev : List (Beam F)) : List (Job F) :=
  (if index + 1 = n then [] else (nonEmpty fwd).map (fun b => ⟨b, false, index + 1⟩)) ++
  (if index = 0 then [] else (nonEmpty rev).map (fun b => ⟨b, true, index - 1⟩))
/-- Rays appended to `outRForward`. -/
def outForward (n : ℕ) (index : ℕ) (fwd : List (Beam F)) : List (Beam F) :=
  if index + 1 = n then nonEmpty fwd else []
/-- Rays appended to `outRReverse`. -/
def outReverse (index : ℕ) (rev : List (Beam F)) : List (Beam F) :=
  if index = 0 then nonEmpty rev else []

/-- What `traceSplit` returns: two lists, or (for a skipped optic) a ray vector paired with `None`, which the calling loop
cannot iterate over: batoid/optic.py L503-507 and L1224-1228. -/
inductive SplitResult (F : Type) where
  | lists (fwd rev : List (Option (Beam F)))
  | skipped (b : Beam F)

mutual
/-- `traceSplit`: batoid/optic.py L466-535 and L1180-1276.  The work loop may run for ever, so the recursion is bounded by
`fuel`; `none` means that the fuel was exhausted. -/
def traceSplit (niter : ℕ) (minFlux : F) : ℕ → Bool → Optic F → Beam F → Option (Except PyErr (SplitResult F))
  | 0, _, _, _ => none
  | fuel + 1, reverse, o, b =>
    if o.skip then some (.ok (.skipped b))
    else match o with
      | iface d => some ((d.traceSplit niter reverse b).map (fun s => .lists s.1 s.2))
      | compound _ items =>
        if items.isEmpty then some (.error .indexError)
        else (splitLoop niter minFlux fuel items [⟨b, reverse, if reverse then items.length - 1 else 0⟩] [] []).map
          (fun r => r.map (fun s => .lists (s.1.map some) (s.2.map some)))
/-- The loop `while workQueue`: batoid/optic.py L1238-1275; the queue is a stack, its top is the head of the list. -/
def splitLoop (niter : ℕ) (minFlux : F) : ℕ → List (Optic F) → List (Job F) → List (Beam F) → List (Beam F) →
    Option (Except PyErr (List (Beam F) × List (Beam F)))
  | 0, _, _, _, _ => none
  | _ + 1, _, [], outF, outR => some (.ok (outF, outR))
  | fuel + 1, items, job :: queue, outF, outR =>
    match items[job.index]? with
    | none => some (.error .indexError)
    | some o =>
      match traceSplit niter minFlux fuel job.back o job.beam with
      | none => none
      | some (.error e) => some (.error e)
      | some (.ok (.skipped _)) => some (.error .typeError)
      | some (.ok (.lists f r)) =>
        let fwd := sift minFlux f
        let rev := sift minFlux r
        splitLoop niter minFlux fuel items ((pushJobs items.length job.index fwd rev).reverse ++ queue)
          (outF ++ outForward items.length job.index fwd) (outR ++ outReverse job.index rev)
end

end Optic

/-! ### Copies -/

section copies
variable {F : Type} [Add F] [Sub F] [Mul F] [OfNat F 0] [OfNat F 1]

namespace Stop
/-- `Interface.withGlobalShift` of the stop surface. -/
def globalShift (s : Stop F) (shift : V3 F) : Stop F := { s with coordSys := s.coordSys.shiftGlobal shift }
/-- `Interface.withGlobalRotation` of the stop surface. -/
def globalRotation (s : Stop F) (rot : M3 F) (ce : V3 F) (cs : Option (CoordSys F)) : Stop F :=
  { s with coordSys := s.coordSys.rotateGlobal rot ce cs }
/-- `Interface.withLocalRotation` of the stop surface. -/
def localRotation (s : Stop F) (rot : M3 F) (ce : V3 F) (cs : Option (CoordSys F)) : Stop F :=
  { s with coordSys := s.coordSys.rotateLocal rot ce cs }
end Stop

namespace Iface

/-- `Interface.withGlobalShift`: batoid/optic.py L571-597. -/
noncomputable def withGlobalShift (d : Iface F) (shift : V3 F) : Except PyErr (Iface F) :=
  Iface.init { d with coordSys := d.coordSys.shiftGlobal shift, stop := d.stop.map (·.globalShift shift) }

/-- `Interface.withGlobalRotation`: batoid/optic.py L616-654; `ce` is the centre (default the origin), `cs = none` the
global frame. -/
noncomputable def withGlobalRotation (d : Iface F) (rot : M3 F) (ce : V3 F) (cs : Option (CoordSys F)) :
    Except PyErr (Iface F) :=
  Iface.init { d with coordSys := d.coordSys.rotateGlobal rot ce cs, stop := d.stop.map (·.globalRotation rot ce cs) }

/-- `Interface.withLocalRotation`: batoid/optic.py L656-692; `cs = none` is the frame of the interface. -/
noncomputable def withLocalRotation (d : Iface F) (rot : M3 F) (ce : V3 F) (cs : Option (CoordSys F)) :
    Except PyErr (Iface F) :=
  let cs' := some (cs.getD d.coordSys)
  Iface.init { d with coordSys := d.coordSys.rotateLocal rot ce cs', stop := d.stop.map (·.localRotation rot ce cs') }

/-- `Interface.withSurface`: batoid/optic.py L694-711. -/
noncomputable def withSurface (d : Iface F) (s : Surface F) : Except PyErr (Iface F) :=
  Iface.init { d with surface := s }

end Iface

namespace Optic

mutual
/-- `withGlobalShift`: batoid/optic.py L571-597 and L1358-1388. -/
noncomputable def withGlobalShift (shift : V3 F) : Optic F → Except PyErr (Optic F)
  | iface d => (d.withGlobalShift shift).map iface
  | compound d items => do
    let items' ← shiftItems shift items
    mkCompound { d with coordSys := d.coordSys.shiftGlobal shift, stop := d.stop.map (·.globalShift shift) } items'
noncomputable def shiftItems (shift : V3 F) : List (Optic F) → Except PyErr (List (Optic F))
  | [] => .ok []
  | o :: os => do
    let o' ← withGlobalShift shift o
    let os' ← shiftItems shift os
    return o' :: os'
end

/-- `withLocalShift`: batoid/optic.py L599-614 and L1390-1404. -/
noncomputable def withLocalShift (shift : V3 F) (o : Optic F) : Except PyErr (Optic F) :=
  o.withGlobalShift (o.coordSys.rot.mulVec shift)

mutual
/-- `withGlobalRotation`: batoid/optic.py L616-654 and L1479-1528. -/
noncomputable def withGlobalRotation (rot : M3 F) (ce : V3 F) (cs : Option (CoordSys F)) :
    Optic F → Except PyErr (Optic F)
  | iface d => (d.withGlobalRotation rot ce cs).map iface
  | compound d items => do
    let items' ← rotateItems rot ce cs items
    mkCompound { d with coordSys := d.coordSys.rotateGlobal rot ce cs,
                        stop := d.stop.map (·.globalRotation rot ce cs) } items'
noncomputable def rotateItems (rot : M3 F) (ce : V3 F) (cs : Option (CoordSys F)) :
    List (Optic F) → Except PyErr (List (Optic F))
  | [] => .ok []
  | o :: os => do
    let o' ← withGlobalRotation rot ce cs o
    let os' ← rotateItems rot ce cs os
    return o' :: os'
end

/-- `withLocalRotation`: batoid/optic.py L656-692 and L1530-1557. -/
noncomputable def withLocalRotation (rot : M3 F) (ce : V3 F) (cs : Option (CoordSys F)) :
    Optic F → Except PyErr (Optic F)
  | iface d => (d.withLocalRotation rot ce cs).map iface
  | compound d items =>
    (compound d items).withGlobalRotation ((d.coordSys.rot.mul rot).mul d.coordSys.rot.tr) ce
      (some (cs.getD d.coordSys))

/-! ### Copies with one named item changed -/

/-- What `with*Optic(name, ...)` and `withSurface(name, ...)` do at the named optic. -/
structure NamedOp (F : Type) where
  /-- at a compound whose own name is given -/
  onSelf : Optic F → Except PyErr (Optic F)
  /-- at an item of a compound -/
  onItem : Optic F → Except PyErr (Optic F)
  /-- the exception of calling the method with a name on an `Interface` -/
  onIface : PyErr

mutual
/-- The common shape of `withGloballyShiftedOptic` L1406-1453, `withLocallyRotatedOptic` L1559-1620 and `withSurface`
L1622-1662 of batoid/optic.py. -/
noncomputable def applyNamed (op : NamedOp F) : Optic F → Name → Except PyErr (Optic F)
  | iface _, _ => .error op.onIface
  | compound d items, nm =>
    let full := ((compound d items).names.get? nm).getD nm
    if !((compound d items).itemDict.has full) then .error .valueError
    else if full = d.name then op.onSelf (compound d items)
    else if full.take (d.name.length + 1) = d.name ++ ['.'] then do
      let items' ← applyItems op items (full.drop (d.name.length + 1))
      mkCompound d items'
    else .error .assertionError
/-- The loop over the items: the first item whose name is a prefix (`startswith`) is taken. -/
noncomputable def applyItems (op : NamedOp F) : List (Optic F) → Name → Except PyErr (List (Optic F))
  | [], _ => .error .runtimeError
  | o :: os, nm =>
    if o.name.isPrefixOf nm then do
      let o' ← if nm = o.name then op.onItem o else applyNamed op o nm
      return o' :: os
    else do
      let os' ← applyItems op os nm
      return o :: os'
end

/-- `withGloballyShiftedOptic`: batoid/optic.py L1406-1453. -/
noncomputable def withGloballyShiftedOptic (o : Optic F) (nm : Name) (shift : V3 F) : Except PyErr (Optic F) :=
  o.applyNamed ⟨withGlobalShift shift, withGlobalShift shift, .attributeError⟩ nm

/-- `withLocallyShiftedOptic`: batoid/optic.py L1455-1477. -/
noncomputable def withLocallyShiftedOptic (o : Optic F) (nm : Name) (shift : V3 F) : Except PyErr (Optic F) :=
  match o with
  | iface _ => .error .attributeError
  | compound _ _ =>
    let full := (o.names.get? nm).getD nm
    match o.itemDict.get? full with
    | none => .error .valueError
    | some x => o.withGloballyShiftedOptic full (x.coordSys.rot.mulVec shift)

/-- `withLocallyRotatedOptic`: batoid/optic.py L1559-1620. -/
noncomputable def withLocallyRotatedOptic (o : Optic F) (nm : Name) (rot : M3 F) (ce : V3 F)
    (cs : Option (CoordSys F)) : Except PyErr (Optic F) :=
  match o with
  | iface _ => .error .attributeError
  | compound _ _ =>
    let full := (o.names.get? nm).getD nm
    match o.itemDict.get? full with
    | none => .error .valueError
    | some x =>
      let cs' := some (cs.getD x.coordSys)
      o.applyNamed ⟨withLocalRotation rot ce cs', withLocalRotation rot ce cs', .attributeError⟩ nm

/-- `item.withSurface(surface)`: on a compound the argument `surface` is missing. -/
noncomputable def setSurface (s : Surface F) : Optic F → Except PyErr (Optic F)
  | iface d => (d.withSurface s).map iface
  | compound _ _ => .error .typeError

/-- `withSurface(name, surface)`: batoid/optic.py L1622-1662.  Naming the compound itself fails the assertion. -/
noncomputable def withSurface (o : Optic F) (nm : Name) (s : Surface F) : Except PyErr (Optic F) :=
  o.applyNamed ⟨fun _ => .error .assertionError, setSurface s, .typeError⟩ nm

/-- The loop of `withInsertedOptic`: batoid/optic.py L1712-1715. -/
def insertLoop (names : Dict Name Name) (before : Name) (item : Optic F) :
    List (Optic F) → Except PyErr (List (Optic F))
  | [] => .ok []
  | it :: rest =>
    match names.get? it.name, names.get? before with
    | some a, some b => do
      let rest' ← insertLoop names before item rest
      return (if a = b then [item, it] else [it]) ++ rest'
    | _, _ => .error .keyError

/-- `withInsertedOptic(before, item)`: batoid/optic.py L1687-1717. -/
noncomputable def withInsertedOptic (o : Optic F) (before : Name) (item : Optic F) : Except PyErr (Optic F) :=
  match o with
  | iface _ => .error .attributeError
  | compound d items =>
    let full := (o.names.get? before).getD before
    if !(o.itemDict.has full) then .error .valueError
    else do
      let items' ← insertLoop o.names full item items
      mkCompound d items'

/-- The loop of `withRemovedOptic`: batoid/optic.py L1740-1742. -/
def removeLoop (names : Dict Name Name) (item : Name) : List (Optic F) → Except PyErr (List (Optic F))
  | [] => .ok []
  | it :: rest =>
    match names.get? it.name, names.get? item with
    | some a, some b => do
      let rest' ← removeLoop names item rest
      return (if a = b then [] else [it]) ++ rest'
    | _, _ => .error .keyError

/-- `withRemovedOptic(item)`: batoid/optic.py L1719-1746. -/
noncomputable def withRemovedOptic (o : Optic F) (item : Name) : Except PyErr (Optic F) :=
  match o with
  | iface _ => .error .attributeError
  | compound d items =>
    let full := (o.names.get? item).getD item
    if !(o.itemDict.has full) then .error .valueError
    else do
      let items' ← removeLoop o.names full items
      mkCompound d items'

mutual
/-- `clearObscuration(unless)`: batoid/optic.py L537-539 and L1329-1331. -/
def clearObscuration (keepNames : List Name) : Optic F → Optic F
  | iface d => if d.name ∈ keepNames then iface d else iface { d with obscuration := none }
  | compound d items => compound d (clearItems keepNames items)
def clearItems (keepNames : List Name) : List (Optic F) → List (Optic F)
  | [] => []
  | o :: os => clearObscuration keepNames o :: clearItems keepNames os
end

end Optic
end copies

section perturb
variable {F : Type} [Arith F]

namespace Iface
/-- `Interface.withPerturbedSurface`: batoid/optic.py L713-727. -/
noncomputable def withPerturbedSurface (d : Iface F) (p : Surface F) : Except PyErr (Iface F) :=
  d.withSurface (Surface.sum [d.surface, p])

end Iface

namespace Optic
/-- `withPerturbedSurface(name, perturbation)`: batoid/optic.py L1664-1685; `surface + perturbation` is
`Sum(surface, perturbation)`, batoid/surface.py L160-161.  An `Interface` takes one argument only, and a compound has no
attribute `surface`. -/
noncomputable def withPerturbedSurface (o : Optic F) (nm : Name) (p : Surface F) : Except PyErr (Optic F) :=
  match o with
  | iface _ => .error .typeError
  | compound _ _ =>
    let full := (o.names.get? nm).getD nm
    match o.itemDict.get? full with
    | none => .error .keyError
    | some (compound _ _) => .error .attributeError
    | some (iface x) => o.withSurface full (Surface.sum [x.surface, p])

end Optic
end perturb

end Batoid
