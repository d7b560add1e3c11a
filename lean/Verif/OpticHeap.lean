import Verif.Optic

/-!
# Optics as objects

Model of the object structure behind `batoid/optic.py`: `Verif/Optic.lean` treats optics as values, here they are objects in
memory that refer to their items, keep the results of `cached_property` in their `__dict__`, and are shared between copies.

Simplifications:
* A reference to an object is its position in the memory, a natural number; objects are never freed.
* Surfaces, media, obscurations, frames and stop surfaces are values (they are never modified in place).
* Recursion over the items carries fuel: the position plus one is enough, since items are older than the compound they are in.
  Running out of it is reported as `RuntimeError` (of which `RecursionError` is a subclass).
* An object whose constructor raises is not put in memory (nothing can refer to it).
* Explicit `R_inner` and `R_outer` keyword arguments are not modelled.
-/

namespace Batoid.ObjHeap

/-- An object.  `rInner`, `rOuter`, `dict` and `names` are the entries `R_inner`, `R_outer`, `itemDict` and `_names` that
`cached_property` adds to `__dict__`; `none` means that the property has not been read yet. -/
inductive Cell (F : Type) where
  | iface (d : Iface F) (rInner rOuter : Option (Option F)) (inRadius outRadius : Option F)
  | comp (d : Comp F) (items : List ℕ) (dict : Option (Dict Name ℕ)) (names : Option (Dict Name Name))

/-- The memory. -/
abbrev Heap (F : Type) := List (Cell F)

/-- Programs that use the memory.  An exception does not undo what was done before it. -/
def M (F α : Type) := Heap F → Except PyErr α × Heap F

namespace M
variable {F α β : Type}
def ret (a : α) : M F α := fun h => (.ok a, h)
def andThen (m : M F α) (f : α → M F β) : M F β := fun h =>
  match m h with
  | (.ok a, h') => f a h'
  | (.error e, h') => (.error e, h')
instance : Monad (M F) where
  pure := ret
  bind := andThen
/-- `raise`. -/
def raise (e : PyErr) : M F α := fun h => (.error e, h)
end M

section access
variable {F : Type}

/-- Follow a reference. -/
def fetch (r : ℕ) : M F (Cell F) := fun h =>
  match h[r]? with
  | some c => (.ok c, h)
  | none => (.error .attributeError, h)

/-- Change an object in place. -/
def modify (r : ℕ) (f : Cell F → Cell F) : M F Unit := fun h => (.ok (), List.modify h r f)

/-- Create an object. -/
def alloc (c : Cell F) : M F ℕ := fun h => (.ok h.length, h ++ [c])

namespace Cell
def name : Cell F → Name
  | iface d _ _ _ _ => d.name
  | comp d _ _ _ => d.name
def coordSys : Cell F → CoordSys F
  | iface d _ _ _ _ => d.coordSys
  | comp d _ _ _ => d.coordSys
def inMedium : Cell F → Medium F
  | iface d _ _ _ _ => d.inMedium
  | comp d _ _ _ => d.inMedium
def outMedium : Cell F → Medium F
  | iface d _ _ _ _ => d.outMedium
  | comp d _ _ _ => d.outMedium
/-- Filling the cache of `itemDict`. -/
def setDict (D : Dict Name ℕ) : Cell F → Cell F
  | comp d items _ names => comp d items (some D) names
  | c => c
/-- Filling the cache of `_names`. -/
def setNames (ns : Dict Name Name) : Cell F → Cell F
  | comp d items dict _ => comp d items dict (some ns)
  | c => c
/-- Filling the cache of `R_inner`. -/
def setInner (v : Option F) : Cell F → Cell F
  | iface d _ rOuter i o => iface d (some v) rOuter i o
  | c => c
/-- Filling the cache of `R_outer`. -/
def setOuter (v : Option F) : Cell F → Cell F
  | iface d rInner _ i o => iface d rInner (some v) i o
  | c => c
/-- `self.obscuration = None`. -/
def clear : Cell F → Cell F
  | iface d rInner rOuter i o => iface { d with obscuration := none } rInner rOuter i o
  | c => c
end Cell

/-! ## Lookup -/

/-- The loop over `self.items` of `itemDict`: batoid/optic.py L963-967; `sub` gives `item.itemDict`. -/
def addItems (sub : ℕ → M F (Dict Name ℕ)) (pre : Name) : List ℕ → Dict Name ℕ → M F (Dict Name ℕ)
  | [], out => pure out
  | i :: is, out => do
    let c ← fetch i
    let D ← sub i
    addItems sub pre is (D.foldl (fun out kv => Dict.set out (pre ++ '.' :: kv.1) kv.2) (Dict.set out (pre ++ '.' :: c.name) i))

/-- `itemDict`: batoid/optic.py L946-968.  For an interface, which has none, the empty dictionary. -/
def itemDict : ℕ → ℕ → M F (Dict Name ℕ)
  | 0, _ => M.raise .runtimeError
  | n + 1, r => do
    let c ← fetch r
    match c with
    | .iface _ _ _ _ _ => pure []
    | .comp _ _ (some D) _ => pure D
    | .comp d items none _ => do
      let D ← addItems (itemDict n) d.name items [(d.name, r)]
      modify r (Cell.setDict D)
      pure D

/-- `_names`: batoid/optic.py L990-1007. -/
def names (r : ℕ) : M F (Dict Name Name) := do
  let c ← fetch r
  match c with
  | .iface _ _ _ _ _ => M.raise .attributeError
  | .comp _ _ _ (some ns) => pure ns
  | .comp _ _ _ none => do
    let D ← itemDict (r + 1) r
    modify r (Cell.setNames (Optic.namesOf (D.map Prod.fst)))
    pure (Optic.namesOf (D.map Prod.fst))

/-- `optic[key]`: batoid/optic.py L970-988. -/
def getItem (r : ℕ) (key : Name) : M F ℕ := do
  let c ← fetch r
  match c with
  | .iface _ _ _ _ _ => M.raise .typeError
  | .comp _ _ _ _ => do
    let D ← itemDict (r + 1) r
    match D.get? key with
    | some x => pure x
    | none => do
      let ns ← names r
      match ns.get? key with
      | none => M.raise .valueError
      | some full =>
        match D.get? full with
        | some x => pure x
        | none => M.raise .valueError

end access

/-! ## Radii -/

section radii
variable {F : Type} [OfNat F 0] [OfNat F 1]

/-- The obscuration, or what it is the complement of. -/
def core : Obsc F → Obsc F
  | .negation o => o
  | o => o

/-- What `R_outer` computes: batoid/optic.py L729-741. -/
def outerOf : Option (Obsc F) → Option F
  | none => none
  | some o => match core o with
    | .annulus _ outer _ _ => some outer
    | .circle radius _ _ => some radius
    | _ => none

/-- What `R_inner` computes: batoid/optic.py L743-755. -/
def innerOf : Option (Obsc F) → Option F
  | none => none
  | some o => match core o with
    | .annulus inner _ _ _ => some inner
    | .circle _ _ _ => some 0
    | _ => none

/-- `optic.R_inner`. -/
def rInner (r : ℕ) : M F (Option F) := do
  let c ← fetch r
  match c with
  | .iface _ (some v) _ _ _ => pure v
  | .iface d none _ _ _ => do
    modify r (Cell.setInner (innerOf d.obscuration))
    pure (innerOf d.obscuration)
  | .comp _ _ _ _ => M.raise .attributeError

/-- `optic.R_outer`. -/
def rOuter (r : ℕ) : M F (Option F) := do
  let c ← fetch r
  match c with
  | .iface _ _ (some v) _ _ => pure v
  | .iface d _ none _ _ => do
    modify r (Cell.setOuter (outerOf d.obscuration))
    pure (outerOf d.obscuration)
  | .comp _ _ _ _ => M.raise .attributeError

/-! ## Constructors -/

/-- The inner radius `__init__` takes from an annulus, directly or through a negation: L127-129, L132-134. -/
def annulusInner : Option (Obsc F) → Option F
  | none => none
  | some o => match core o with
    | .annulus inner _ _ _ => some inner
    | _ => none

/-- The object made by the constructor of an interface class called with the attributes `d` and whatever caches were among the
keyword arguments: batoid/optic.py L115-140.  `R_inner` is always read, `R_outer` only if the obscuration has no radius. -/
def ifaceCell (d : Iface F) (rIn rOut : Option (Option F)) : Cell F :=
  let rIn' := rIn.getD (innerOf d.obscuration)
  let inRadius := match annulusInner d.obscuration with
    | some v => some v
    | none => rIn'
  match outerOf d.obscuration with
  | some v => .iface d (some rIn') rOut inRadius (some v)
  | none => .iface d (some rIn') (some (rOut.getD none)) inRadius (rOut.getD none)

/-- `Class(surface, **attributes)`. -/
noncomputable def newIface (d : Iface F) (rIn rOut : Option (Option F)) : M F ℕ :=
  match Iface.init d with
  | .error e => M.raise e
  | .ok d' => alloc (ifaceCell d' rIn rOut)

open Classical in
/-- `CompoundOptic(items, **attributes)` and `Lens(items, **attributes)`: batoid/optic.py L38-46, L942-945, L1758-1761.
`Optic.__init__` drops `itemDict` but keeps `_names`. -/
noncomputable def newComp (d : Comp F) (items : List ℕ) (ns : Option (Dict Name Name)) : M F ℕ :=
  if d.isLens then
    match items with
    | [a, b] => do
      let ca ← fetch a
      let cb ← fetch b
      if ca.outMedium = cb.inMedium then alloc (.comp { d with skip := false } [a, b] none ns)
      else M.raise .assertionError
    | _ => M.raise .assertionError
  else alloc (.comp { d with skip := false } items none ns)

/-! ## Copies -/

/-- A list comprehension. -/
def mapItems (f : ℕ → M F ℕ) : List ℕ → M F (List ℕ)
  | [] => pure []
  | i :: is => do
    let i' ← f i
    let is' ← mapItems f is
    pure (i' :: is')

/-- The common shape of `withGlobalShift` (batoid/optic.py L571-597, L1358-1388) and `withGlobalRotation` (L616-654,
L1479-1528): `fI` and `fC` change the attributes of interfaces and compounds.  The caches of radii and `_names` are among the
attributes that are passed on. -/
noncomputable def copy (fI : Iface F → Iface F) (fC : Comp F → Comp F) : ℕ → ℕ → M F ℕ
  | 0, _ => M.raise .runtimeError
  | n + 1, r => do
    let c ← fetch r
    match c with
    | .iface d rIn rOut _ _ => newIface (fI d) rIn rOut
    | .comp d items _ ns => do
      let items' ← mapItems (copy fI fC n) items
      newComp (fC d) items' ns

section moves
variable [Add F] [Sub F] [Mul F]

/-- `withGlobalShift`. -/
noncomputable def withGlobalShift (shift : V3 F) (r : ℕ) : M F ℕ :=
  copy (fun d => { d with coordSys := d.coordSys.shiftGlobal shift, stop := d.stop.map (·.globalShift shift) })
    (fun d => { d with coordSys := d.coordSys.shiftGlobal shift, stop := d.stop.map (·.globalShift shift) }) (r + 1) r

/-- `withLocalShift`: batoid/optic.py L599-614 and L1390-1404. -/
noncomputable def withLocalShift (shift : V3 F) (r : ℕ) : M F ℕ := do
  let c ← fetch r
  withGlobalShift (c.coordSys.rot.mulVec shift) r

/-- `withGlobalRotation`. -/
noncomputable def withGlobalRotation (rot : M3 F) (ce : V3 F) (cs : Option (CoordSys F)) (r : ℕ) : M F ℕ :=
  copy (fun d => { d with coordSys := d.coordSys.rotateGlobal rot ce cs, stop := d.stop.map (·.globalRotation rot ce cs) })
    (fun d => { d with coordSys := d.coordSys.rotateGlobal rot ce cs, stop := d.stop.map (·.globalRotation rot ce cs) })
    (r + 1) r

/-- `withLocalRotation`: batoid/optic.py L656-692 and L1530-1557. -/
noncomputable def withLocalRotation (rot : M3 F) (ce : V3 F) (cs : Option (CoordSys F)) (r : ℕ) : M F ℕ := do
  let c ← fetch r
  match c with
  | .iface d rIn rOut _ _ =>
    newIface { d with coordSys := d.coordSys.rotateLocal rot ce (some (cs.getD d.coordSys)),
                      stop := d.stop.map (·.localRotation rot ce (some (cs.getD d.coordSys))) } rIn rOut
  | .comp d _ _ _ =>
    withGlobalRotation ((d.coordSys.rot.mul rot).mul d.coordSys.rot.tr) ce (some (cs.getD d.coordSys)) r

end moves

/-- `item.withSurface(surface)`: batoid/optic.py L694-711. -/
noncomputable def setSurface (s : Surface F) (r : ℕ) : M F ℕ := do
  let c ← fetch r
  match c with
  | .iface d rIn rOut _ _ => newIface { d with surface := s } rIn rOut
  | .comp _ _ _ _ => M.raise .typeError

/-! ## Copies with one named item changed -/

/-- What the methods do at the named optic (compare `Optic.NamedOp`). -/
structure NamedOp (F : Type) where
  onSelf : ℕ → M F ℕ
  onItem : ℕ → M F ℕ
  onIface : PyErr

/-- The loop over the items; the items behind the changed one, like those in front of it, are the same objects as before:
batoid/optic.py L1436-1449. -/
def applyItems (onItem : ℕ → M F ℕ) (rec : ℕ → Name → M F ℕ) : List ℕ → Name → M F (List ℕ)
  | [], _ => M.raise .runtimeError
  | i :: is, nm => do
    let c ← fetch i
    if c.name.isPrefixOf nm then do
      let i' ← if nm = c.name then onItem i else rec i nm
      pure (i' :: is)
    else do
      let is' ← applyItems onItem rec is nm
      pure (i :: is')

/-- `withGloballyShiftedOptic` L1406-1453, `withLocallyRotatedOptic` L1559-1620, `withSurface` L1622-1662 of
batoid/optic.py. -/
noncomputable def applyNamed (op : NamedOp F) : ℕ → ℕ → Name → M F ℕ
  | 0, _, _ => M.raise .runtimeError
  | n + 1, r, nm => do
    let c ← fetch r
    match c with
    | .iface _ _ _ _ _ => M.raise op.onIface
    | .comp d items _ _ => do
      let ns ← names r
      let D ← itemDict (r + 1) r
      if !(D.has ((ns.get? nm).getD nm)) then M.raise .valueError
      else if (ns.get? nm).getD nm = d.name then op.onSelf r
      else if ((ns.get? nm).getD nm).take (d.name.length + 1) = d.name ++ ['.'] then do
        let items' ← applyItems op.onItem (applyNamed op n) items (((ns.get? nm).getD nm).drop (d.name.length + 1))
        newComp d items' (some ns)
      else M.raise .assertionError

section moves
variable [Add F] [Sub F] [Mul F]

/-- `withGloballyShiftedOptic`: batoid/optic.py L1406-1453. -/
noncomputable def withGloballyShiftedOptic (r : ℕ) (nm : Name) (shift : V3 F) : M F ℕ :=
  applyNamed ⟨withGlobalShift shift, withGlobalShift shift, .attributeError⟩ (r + 1) r nm

/-- `withLocallyShiftedOptic`: batoid/optic.py L1455-1477. -/
noncomputable def withLocallyShiftedOptic (r : ℕ) (nm : Name) (shift : V3 F) : M F ℕ := do
  let c ← fetch r
  match c with
  | .iface _ _ _ _ _ => M.raise .attributeError
  | .comp _ _ _ _ => do
    let ns ← names r
    let D ← itemDict (r + 1) r
    match D.get? ((ns.get? nm).getD nm) with
    | none => M.raise .valueError
    | some x => do
      let cx ← fetch x
      withGloballyShiftedOptic r ((ns.get? nm).getD nm) (cx.coordSys.rot.mulVec shift)

/-- `withLocallyRotatedOptic`: batoid/optic.py L1559-1620. -/
noncomputable def withLocallyRotatedOptic (r : ℕ) (nm : Name) (rot : M3 F) (ce : V3 F) (cs : Option (CoordSys F)) : M F ℕ := do
  let c ← fetch r
  match c with
  | .iface _ _ _ _ _ => M.raise .attributeError
  | .comp _ _ _ _ => do
    let ns ← names r
    let D ← itemDict (r + 1) r
    match D.get? ((ns.get? nm).getD nm) with
    | none => M.raise .valueError
    | some x => do
      let cx ← fetch x
      applyNamed ⟨withLocalRotation rot ce (some (cs.getD cx.coordSys)), withLocalRotation rot ce (some (cs.getD cx.coordSys)),
        .attributeError⟩ (r + 1) r nm

end moves

/-- `withSurface(name, surface)`: batoid/optic.py L1622-1662. -/
noncomputable def withSurface (r : ℕ) (nm : Name) (s : Surface F) : M F ℕ :=
  applyNamed ⟨fun _ => M.raise .assertionError, setSurface s, .typeError⟩ (r + 1) r nm

/-- The loop of `withInsertedOptic`: batoid/optic.py L1712-1715. -/
def insertLoop (ns : Dict Name Name) (before : Name) (item : ℕ) : List ℕ → M F (List ℕ)
  | [] => pure []
  | it :: rest => do
    let c ← fetch it
    match ns.get? c.name, ns.get? before with
    | some a, some b => do
      let rest' ← insertLoop ns before item rest
      pure ((if a = b then [item, it] else [it]) ++ rest')
    | _, _ => M.raise .keyError

/-- `withInsertedOptic(before, item)`: batoid/optic.py L1687-1717; all caches are removed. -/
noncomputable def withInsertedOptic (r : ℕ) (before : Name) (item : ℕ) : M F ℕ := do
  let c ← fetch r
  match c with
  | .iface _ _ _ _ _ => M.raise .attributeError
  | .comp d items _ _ => do
    let ns ← names r
    let D ← itemDict (r + 1) r
    if !(D.has ((ns.get? before).getD before)) then M.raise .valueError
    else do
      let items' ← insertLoop ns ((ns.get? before).getD before) item items
      newComp d items' none

/-- The loop of `withRemovedOptic`: batoid/optic.py L1740-1742. -/
def removeLoop (ns : Dict Name Name) (item : Name) : List ℕ → M F (List ℕ)
  | [] => pure []
  | it :: rest => do
    let c ← fetch it
    match ns.get? c.name, ns.get? item with
    | some a, some b => do
      let rest' ← removeLoop ns item rest
      pure ((if a = b then [] else [it]) ++ rest')
    | _, _ => M.raise .keyError

/-- `withRemovedOptic(item)`: batoid/optic.py L1719-1746; all caches are removed. -/
noncomputable def withRemovedOptic (r : ℕ) (item : Name) : M F ℕ := do
  let c ← fetch r
  match c with
  | .iface _ _ _ _ _ => M.raise .attributeError
  | .comp d items _ _ => do
    let ns ← names r
    let D ← itemDict (r + 1) r
    if !(D.has ((ns.get? item).getD item)) then M.raise .valueError
    else do
      let items' ← removeLoop ns ((ns.get? item).getD item) items
      newComp d items' none

/-! ## Modification in place -/

/-- A loop over the items. -/
def forItems (f : ℕ → M F Unit) : List ℕ → M F Unit
  | [] => pure ()
  | i :: is => do
    f i
    forItems f is

/-- `clearObscuration(unless)`: batoid/optic.py L537-539 and L1329-1331. -/
def clearObscuration (keepNames : List Name) : ℕ → ℕ → M F Unit
  | 0, _ => M.raise .runtimeError
  | n + 1, r => do
    let c ← fetch r
    match c with
    | .iface d _ _ _ _ => if d.name ∈ keepNames then pure () else modify r Cell.clear
    | .comp _ items _ _ => forItems (clearObscuration keepNames n) items

end radii
end Batoid.ObjHeap
