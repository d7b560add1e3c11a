import Verif.Props.OpticHeap
import Verif.Props.Trace

/-!
# Histories of method calls (C70, C71)

A program makes optics, looks things up in them, makes changed copies of them and clears obscurations, in any order and any
number of times.  The theorems hold in every memory such a program can reach.
-/

namespace Batoid.Props
open ObjHeap

section calls
variable {F : Type} [Add F] [Sub F] [Mul F] [OfNat F 0] [OfNat F 1]

/-- The methods that copy a whole optic. -/
inductive CopyCall (F : Type)
  | globalShift (shift : V3 F)
  | localShift (shift : V3 F)
  | globalRotation (rot : M3 F) (ce : V3 F) (cs : Option (CoordSys F))
  | localRotation (rot : M3 F) (ce : V3 F) (cs : Option (CoordSys F))
  | surface (s : Surface F)

/-- The call on an object. -/
noncomputable def CopyCall.run : CopyCall F → ℕ → M F ℕ
  | globalShift shift, r => ObjHeap.withGlobalShift shift r
  | localShift shift, r => ObjHeap.withLocalShift shift r
  | globalRotation rot ce cs, r => ObjHeap.withGlobalRotation rot ce cs r
  | localRotation rot ce cs, r => ObjHeap.withLocalRotation rot ce cs r
  | surface s, r => ObjHeap.setSurface s r

/-- What it means for the optic. -/
noncomputable def CopyCall.onValue : CopyCall F → Optic F → Except PyErr (Optic F)
  | globalShift shift, o => o.withGlobalShift shift
  | localShift shift, o => o.withLocalShift shift
  | globalRotation rot ce cs, o => o.withGlobalRotation rot ce cs
  | localRotation rot ce cs, o => o.withLocalRotation rot ce cs
  | surface s, o => o.setSurface s

/-- The methods that change the part with a given name, or the list of items. -/
inductive EditCall (F : Type)
  | globalShift (nm : Name) (shift : V3 F)
  | localShift (nm : Name) (shift : V3 F)
  | localRotation (nm : Name) (rot : M3 F) (ce : V3 F) (cs : Option (CoordSys F))
  | surface (nm : Name) (s : Surface F)
  | remove (item : Name)

/-- The call on an object. -/
noncomputable def EditCall.run : EditCall F → ℕ → M F ℕ
  | globalShift nm shift, r => ObjHeap.withGloballyShiftedOptic r nm shift
  | localShift nm shift, r => ObjHeap.withLocallyShiftedOptic r nm shift
  | localRotation nm rot ce cs, r => ObjHeap.withLocallyRotatedOptic r nm rot ce cs
  | surface nm s, r => ObjHeap.withSurface r nm s
  | remove item, r => ObjHeap.withRemovedOptic r item

/-- What it means for the optic. -/
noncomputable def EditCall.onValue : EditCall F → Optic F → Except PyErr (Optic F)
  | globalShift nm shift, o => o.withGloballyShiftedOptic nm shift
  | localShift nm shift, o => o.withLocallyShiftedOptic nm shift
  | localRotation nm rot ce cs, o => o.withLocallyRotatedOptic nm rot ce cs
  | surface nm s, o => o.withSurface nm s
  | remove item, o => o.withRemovedOptic item

/-- A method call. -/
inductive Call (F : Type)
  | newInterface (d : Iface F)
  | newCompound (d : Comp F) (items : List ℕ)
  | lookup (r : ℕ) (key : Name)
  | rInner (r : ℕ)
  | rOuter (r : ℕ)
  | copy (c : CopyCall F) (r : ℕ)
  | edit (e : EditCall F) (r : ℕ)
  | insert (r : ℕ) (before : Name) (x : ℕ)
  | clear (r : ℕ) (keep : List Name)

/-- The memory after the call, whether it raised an exception or not. -/
noncomputable def Call.after : Call F → Heap F → Heap F
  | newInterface d, h => (ObjHeap.newIface d none none h).2
  | newCompound d items, h => (ObjHeap.newComp d items none h).2
  | lookup r key, h => (ObjHeap.getItem r key h).2
  | rInner r, h => (ObjHeap.rInner r h).2
  | rOuter r, h => (ObjHeap.rOuter r h).2
  | copy c r, h => (c.run r h).2
  | edit e r, h => (e.run r h).2
  | insert r before x, h => (ObjHeap.withInsertedOptic r before x h).2
  | clear r keep, h => (ObjHeap.clearObscuration keep (r + 1) r h).2

omit [Add F] [Sub F] [Mul F] [OfNat F 0] [OfNat F 1] in
/-- The objects the call mentions exist. -/
def Call.Valid (h : Heap F) : Call F → Prop
  | newInterface _ => True
  | newCompound _ items => ∀ i ∈ items, i < h.length
  | lookup r _ => r < h.length
  | rInner r => r < h.length
  | rOuter r => r < h.length
  | copy _ r => r < h.length
  | edit _ r => r < h.length
  | insert r _ x => r < h.length ∧ x < h.length
  | clear r _ => r < h.length

omit [Add F] [Sub F] [Mul F] [OfNat F 0] [OfNat F 1] in
/-- The call modifies objects in place. -/
def Call.IsClear : Call F → Prop
  | clear _ _ => True
  | _ => False

/-- The memory `h'` can be reached from `h` by calls among those allowed. -/
inductive Later (allow : Call F → Prop) (h : Heap F) : Heap F → Prop
  | refl : Later allow h h
  | call {h' : Heap F} (c : Call F) : Later allow h h' → allow c → c.Valid h' → Later allow h (c.after h')

/-- Memories of programs. -/
def Reachable (h : Heap F) : Prop := Later (fun _ => True) [] h

/-- Memories of programs that do not call `clearObscuration`. -/
def ReachableUncleared (h : Heap F) : Prop := Later (fun c => ¬ c.IsClear) [] h

/-! ## The invariant holds -/

omit [Add F] [Sub F] [Mul F] [OfNat F 0] [OfNat F 1] in
theorem exists_reprL {h : Heap F} (ho : Older h) : ∀ is : List ℕ, (∀ i ∈ is, i < h.length) → ∃ os, ReprL h is os
  | [], _ => ⟨[], by simp [ReprL]⟩
  | i :: is, hi => by
    obtain ⟨o, h1⟩ := exists_repr ho i (hi i (by simp))
    obtain ⟨os, h2⟩ := exists_reprL ho is fun j hj => hi j (by simp [hj])
    exact ⟨o :: os, by simp only [ReprL]; exact ⟨h1, h2⟩⟩

variable {rad : Prop} {h : Heap F}

theorem copyCall_refines (c : CopyCall F) {N r : ℕ} {o : Optic F} (hi : Inv rad h) (hr : Repr h r o) (hN : N ≤ h.length) :
    Refines rad h (c.run r) (c.onValue o) (CopyOf N o) := by
  cases c with
  | globalShift shift => exact withGlobalShift_refines _ hi hr hN
  | localShift shift => exact withLocalShift_refines _ hi hr hN
  | globalRotation rot ce cs => exact withGlobalRotation_refines _ _ _ hi hr hN
  | localRotation rot ce cs => exact withLocalRotation_refines _ _ _ hi hr hN
  | surface s => exact setSurface_refines _ hi hr hN

theorem editCall_refines (c : EditCall F) {r : ℕ} {o : Optic F} (hi : Inv rad h) (hr : Repr h r o) :
    Refines rad h (c.run r) (c.onValue o) Repr := by
  cases c with
  | globalShift nm shift => exact (withGloballyShiftedOptic_refines nm shift hi hr).mono fun _ _ _ _ _ _ hh => hh.1
  | localShift nm shift => exact (withLocallyShiftedOptic_refines nm shift hi hr).mono fun _ _ _ _ _ _ hh => hh.1
  | localRotation nm rot ce cs => exact (withLocallyRotatedOptic_refines nm rot ce cs hi hr).mono fun _ _ _ _ _ _ hh => hh.1
  | surface nm s => exact (withSurface_refines nm s hi hr).mono fun _ _ _ _ _ _ hh => hh.1
  | remove item => exact withRemovedOptic_refines item hi hr

theorem call_keeps (c : Call F) (hi : Inv rad h) (hv : c.Valid h) (hc : ¬ c.IsClear) : Inv rad (c.after h) ∧ Ext h (c.after h) := by
  cases c with
  | newInterface d =>
    have := newIface_refines (d := d) (rIn := none) (rOut := none) (N := 0) hi (by simp) (by simp) (Nat.zero_le _)
    exact ⟨this.1, this.2.1⟩
  | newCompound d items =>
    obtain ⟨os, hl⟩ := exists_reprL hi.older items hv
    have := newComp_refines (d := d) (N := 0) (ns := none) hi hl (by simp) (Nat.zero_le _)
    exact ⟨this.1, this.2.1⟩
  | lookup r key =>
    obtain ⟨o, hr⟩ := exists_repr hi.older r hv
    have := getItem_refines hi hr key
    exact ⟨this.1, this.2.1⟩
  | rInner r =>
    obtain ⟨o, hr⟩ := exists_repr hi.older r hv
    exact rInner_refines hi hr
  | rOuter r =>
    obtain ⟨o, hr⟩ := exists_repr hi.older r hv
    exact rOuter_refines hi hr
  | copy c r =>
    obtain ⟨o, hr⟩ := exists_repr hi.older r hv
    have := copyCall_refines c hi hr (Nat.zero_le _)
    exact ⟨this.1, this.2.1⟩
  | edit e r =>
    obtain ⟨o, hr⟩ := exists_repr hi.older r hv
    have := editCall_refines e hi hr
    exact ⟨this.1, this.2.1⟩
  | insert r before x =>
    obtain ⟨o, hr⟩ := exists_repr hi.older r hv.1
    obtain ⟨ox, hx⟩ := exists_repr hi.older x hv.2
    have := withInsertedOptic_refines before hi hr hx
    exact ⟨this.1, this.2.1⟩
  | clear r keep => exact absurd trivial hc

theorem clear_keeps {r : ℕ} {keep : List Name} (hi : Inv rad h) (hr : r < h.length) :
    ∃ h', ObjHeap.clearObscuration keep (r + 1) r h = (.ok (), h') ∧ Cleared keep (Reach h r) h h' ∧ Inv False h' := by
  obtain ⟨h', e, hc⟩ := clear_cleared keep (r + 1) r h hi.older hr (Nat.lt_succ_self r)
  exact ⟨h', e, hc, hc.inv hi⟩

theorem Inv.weaken (hi : Inv rad h) : Inv False h := by
  refine ⟨hi.older, fun r c hc => ?_⟩
  have := hi.caches r c hc
  cases c with
  | iface => exact fun hf => hf.elim
  | comp => exact this

/-- The memory `h'` has at least the objects of `h`, and compounds consist of the same items. -/
def SameItems (h h' : Heap F) : Prop := h.length ≤ h'.length ∧ ∀ r < h.length, ∀ x, Reach h' r x ↔ Reach h r x

omit [Add F] [Sub F] [Mul F] [OfNat F 0] [OfNat F 1] in
theorem SameItems.trans {a b c : Heap F} (h1 : SameItems a b) (h2 : SameItems b c) : SameItems a c :=
  ⟨le_trans h1.1 h2.1, fun r hr x => (h2.2 r (lt_of_lt_of_le hr h1.1) x).trans (h1.2 r hr x)⟩

theorem call_later (c : Call F) (hi : Inv False h) (hv : c.Valid h) : Inv False (c.after h) ∧ SameItems h (c.after h) := by
  by_cases hc : c.IsClear
  · cases c with
    | clear r keep =>
      obtain ⟨h', e, hcl, hi'⟩ := clear_keeps (keep := keep) hi hv
      rw [show Call.after (.clear r keep) h = h' by rw [Call.after, e]]
      exact ⟨hi', hcl.length.ge, fun r _ x => hcl.reach⟩
    | _ => exact absurd hc (by simp [Call.IsClear])
  · obtain ⟨h1, h2⟩ := call_keeps c hi hv hc
    exact ⟨h1, h2.length, fun r hr x => ⟨fun hx => hx.of_ext h2 hi.older hr, fun hx => hx.ext h2⟩⟩

theorem later_keeps {allow : Call F → Prop} {h' : Heap F} (hl : Later allow h h') (hi : Inv False h) : Inv False h' ∧ SameItems h h' := by
  induction hl with
  | refl => exact ⟨hi, le_refl _, fun _ _ _ => Iff.rfl⟩
  | call c _ _ hv ih =>
    obtain ⟨h1, h2⟩ := call_later c ih.1 hv
    exact ⟨h1, ih.2.trans h2⟩

omit [Add F] [Sub F] [Mul F] in
theorem inv_empty : Inv rad ([] : Heap F) := ⟨fun r d is a b hc => by simp at hc, fun r c hc => by simp at hc⟩

theorem reachable_inv (hh : Reachable h) : Inv False h := (later_keeps hh inv_empty).1

theorem uncleared_inv (hh : ReachableUncleared h) : Inv True h := by
  induction hh with
  | refl => exact inv_empty
  | call c _ hc hv ih => exact (call_keeps c ih hv hc).1

/-! ## C70 -/

/-- The object program does the same as the function on values: the same exception, or a reference to the same optic. -/
def Agrees (h : Heap F) (m : M F ℕ) (t : Except PyErr (Optic F)) : Prop :=
  match (m h).1, t with
  | .ok r, .ok o => Repr (m h).2 r o
  | .error e, .error e' => e = e'
  | _, _ => False

omit [Add F] [Sub F] [Mul F] in
theorem Refines.agrees {m : M F ℕ} {t : Except PyErr (Optic F)} {R : Heap F → ℕ → Optic F → Prop} (hm : Refines rad h m t R)
    (hR : ∀ h' r o, R h' r o → Repr h' r o) : Agrees h m t := by
  obtain ⟨-, -, h3⟩ := hm
  unfold Agrees
  revert h3
  cases (m h).1 <;> cases t <;> intro h3
  · exact h3
  · exact h3
  · exact h3
  · exact hR _ _ _ h3

/-- Whatever was looked up, copied, edited or cleared before, every object is an optic, and only one. -/
theorem C70_optics (hh : Reachable h) {r : ℕ} (hr : r < h.length) : ∃! o, Repr h r o := by
  obtain ⟨o, ho⟩ := exists_repr (reachable_inv hh).older r hr
  exact ⟨o, ho, fun o' ho' => Repr.unique _ _ ho' ho⟩

/-- A lookup finds what is found in the optic as it is now. -/
theorem C70_lookup (hh : Reachable h) {r : ℕ} {o : Optic F} (hr : Repr h r o) (key : Name) :
    Agrees h (ObjHeap.getItem r key) (o.getItem key) :=
  (getItem_refines (reachable_inv hh) hr key).agrees fun _ _ _ hR => hR

/-- So do the methods that make copies, all of which look things up or pass caches on. -/
theorem C70_copies (hh : Reachable h) {r : ℕ} {o : Optic F} (hr : Repr h r o) (c : CopyCall F) : Agrees h (c.run r) (c.onValue o) :=
  (copyCall_refines c (N := 0) (reachable_inv hh) hr (Nat.zero_le _)).agrees fun _ _ _ hR => hR.1

theorem C70_edits (hh : Reachable h) {r : ℕ} {o : Optic F} (hr : Repr h r o) (e : EditCall F) : Agrees h (e.run r) (e.onValue o) :=
  (editCall_refines e (reachable_inv hh) hr).agrees fun _ _ _ hR => hR

theorem C70_insert (hh : Reachable h) {r x : ℕ} {o ox : Optic F} (hr : Repr h r o) (hx : Repr h x ox) (before : Name) :
    Agrees h (ObjHeap.withInsertedOptic r before x) (o.withInsertedOptic before ox) :=
  (withInsertedOptic_refines before (reachable_inv hh) hr hx).agrees fun _ _ _ hR => hR

/-- In particular a lookup in the result of a call sees the new items: it finds what is found in the new optic. -/
theorem C70_lookup_in_copy (hh : Reachable h) {r r' : ℕ} {o : Optic F} {h' : Heap F} (hr : Repr h r o) (e : EditCall F)
    (hrun : e.run r h = (.ok r', h')) (key : Name) : ∃ o', e.onValue o = .ok o' ∧ Agrees h' (ObjHeap.getItem r' key) (o'.getItem key) := by
  obtain ⟨h1, h2, h3⟩ := editCall_refines e (reachable_inv hh) hr
  rw [hrun] at h1 h2 h3
  cases ht : e.onValue o with
  | error er => rw [ht] at h3; exact h3.elim
  | ok o' =>
    rw [ht] at h3
    exact ⟨o', rfl, (getItem_refines h1 h3 key).agrees fun _ _ _ hR => hR⟩

omit [Add F] [Sub F] [Mul F] [OfNat F 1] in
/-- The radii of a circular or annular aperture. -/
def apertureRadii : Option (Obsc F) → Option (F × F)
  | some (.circle radius _ _) => some (0, radius)
  | some (.negation (.circle radius _ _)) => some (0, radius)
  | some (.annulus inner outer _ _) => some (inner, outer)
  | some (.negation (.annulus inner outer _ _)) => some (inner, outer)
  | _ => none

omit [Add F] [Sub F] [Mul F] in
theorem innerOf_spec (ob : Option (Obsc F)) : innerOf ob = (apertureRadii ob).map Prod.fst := by
  cases ob with
  | none => rfl
  | some o =>
    cases o with
    | negation o' => cases o' <;> rfl
    | _ => rfl

omit [Add F] [Sub F] [Mul F] in
theorem outerOf_spec (ob : Option (Obsc F)) : outerOf ob = (apertureRadii ob).map Prod.snd := by
  cases ob with
  | none => rfl
  | some o =>
    cases o with
    | negation o' => cases o' <;> rfl
    | _ => rfl

/-- Without `clearObscuration`, the radii are those of the obscuration: the properties `R_inner` and `R_outer` as well as the
attributes `inRadius` and `outRadius`.  Missing for C70: the same after `clearObscuration` (it is false). -/
theorem C70_radii_partial (hh : ReachableUncleared h) {r : ℕ} {d : Iface F} {a b x y} (hc : h[r]? = some (.iface d a b x y)) :
    (ObjHeap.rInner r h).1 = .ok ((apertureRadii d.obscuration).map Prod.fst) ∧
    (ObjHeap.rOuter r h).1 = .ok ((apertureRadii d.obscuration).map Prod.snd) ∧
    x = (apertureRadii d.obscuration).map Prod.fst ∧ y = (apertureRadii d.obscuration).map Prod.snd := by
  obtain ⟨k1, k2, k3, k4⟩ := (uncleared_inv hh).caches r _ hc trivial
  have hfetch : ∀ {α : Type} (f : Cell F → M F α), (ObjHeap.fetch r >>= f) h = f (.iface d a b x y) h := fun f => by
    show M.andThen (ObjHeap.fetch r) f h = _
    simp only [M.andThen, ObjHeap.fetch, hc]
  rw [← innerOf_spec, ← outerOf_spec]
  refine ⟨?_, ?_, k3, k4⟩
  · rw [ObjHeap.rInner, hfetch]
    cases a with
    | none => rfl
    | some v => exact congrArg Except.ok (k1 v rfl)
  · rw [ObjHeap.rOuter, hfetch]
    cases b with
    | none => rfl
    | some v => exact congrArg Except.ok (k2 v rfl)

/-- After `clearObscuration` an interface made with a circular aperture still has the inner radius 0 and the outer radius of the
aperture, although it has no obscuration any more. -/
theorem C70_radii_violated {d d' : Iface F} (hd : Iface.init d = .ok d') {radius cx cy : F}
    (ho : d.obscuration = some (.negation (.circle radius cx cy))) :
    ∃ h : Heap F, Reachable h ∧ ∃ a b x y, h[0]? = some (.iface { d' with obscuration := none } a b x y) ∧
      (ObjHeap.rInner 0 h).1 = .ok (some 0) ∧ y = some radius := by
  have ho' := (init_same hd).2
  rw [ho] at ho'
  have e1 : Call.after (.newInterface d) ([] : Heap F) = [.iface d' (some (some 0)) none (some 0) (some radius)] := by
    simp only [Call.after, ObjHeap.newIface, hd, ObjHeap.alloc, List.nil_append, ifaceCell, ho', innerOf, outerOf, core, annulusInner,
      Option.getD_none]
  have e2 : Call.after (.clear 0 []) ([.iface d' (some (some 0)) none (some 0) (some radius)] : Heap F) =
      [.iface { d' with obscuration := none } (some (some 0)) none (some 0) (some radius)] := by
    simp only [Call.after, ObjHeap.clearObscuration]
    rfl
  refine ⟨_, .call (.clear 0 []) (.call (.newInterface d) .refl trivial trivial) trivial ?_, ?_⟩
  · rw [e1]; simp [Call.Valid]
  · rw [e1, e2]
    exact ⟨_, _, _, _, rfl, rfl, rfl⟩

/-! ## C71 -/

/-- No method but `clearObscuration` changes an existing optic. -/
theorem C71_methods (hh : Reachable h) (c : Call F) (hv : c.Valid h) (hc : ¬ c.IsClear) {r : ℕ} {o : Optic F} (hr : Repr h r o) :
    Repr (c.after h) r o := hr.ext (call_keeps c (reachable_inv hh) hv hc).2

/-- `clearObscuration` clears the optic it is called on. -/
theorem C71_clear (hh : Reachable h) {r : ℕ} {o : Optic F} (hr : Repr h r o) (keep : List Name) :
    Repr ((Call.clear r keep).after h) r (o.clearObscuration keep) := by
  obtain ⟨h', e, hcl, -⟩ := clear_keeps (keep := keep) (reachable_inv hh) hr.lt
  rw [show Call.after (.clear r keep) h = h' by rw [Call.after, e]]
  exact hcl.repr_clear o hr fun x hx => hx

/-- An optic that has no object in common with the one that is cleared stays as it is. -/
theorem clear_other (hi : Inv rad h) {r s : ℕ} {o : Optic F} (hs : s < h.length) (hr : Repr h r o) (keep : List Name)
    (hd : ∀ x, Reach h r x → ¬ Reach h s x) : Repr ((Call.clear s keep).after h) r o := by
  obtain ⟨h', e, hcl, -⟩ := clear_keeps (keep := keep) hi hs
  rw [show Call.after (.clear s keep) h = h' by rw [Call.after, e]]
  exact hcl.repr_other o hr hd

omit [Add F] [Sub F] [Mul F] [OfNat F 0] [OfNat F 1] in
theorem Reach.le {h : Heap F} (ho : Older h) {r x : ℕ} (hx : Reach h r x) : x ≤ r := by
  induction hx with
  | refl => exact le_refl _
  | item hc hm _ ih => exact le_trans ih (le_of_lt (ho _ _ _ _ _ hc _ hm))

/-- A copy of a whole optic made by `withGlobalShift`, `withLocalShift`, `withGlobalRotation`, `withLocalRotation` or, for an
interface, `withSurface`, is independent of all optics that existed before, for ever: whatever happens afterwards, clearing the
copy does not change them, and clearing them does not change the copy.  Missing for C71: the methods that change a named part or
the list of items (for those it is false). -/
theorem C71_copies_partial {h1 h2 : Heap F} (hh : Reachable h) {r r' : ℕ} (hr : r < h.length) (c : CopyCall F)
    (hrun : c.run r h = (.ok r', h1)) {allow : Call F → Prop} (hl : Later allow h1 h2) (keep : List Name) :
    (∀ s < h.length, ∀ o, Repr h2 s o → Repr ((Call.clear r' keep).after h2) s o) ∧
    (∀ s < h.length, ∀ o, Repr h2 r' o → Repr ((Call.clear s keep).after h2) r' o) := by
  have hi := reachable_inv hh
  obtain ⟨o, ho⟩ := exists_repr hi.older r hr
  obtain ⟨k1, k2, k3⟩ := copyCall_refines c hi ho (le_refl h.length)
  rw [hrun] at k1 k2 k3
  cases ht : c.onValue o with
  | error er => rw [ht] at k3; exact k3.elim
  | ok o' =>
    rw [ht] at k3
    obtain ⟨k3, kf, -⟩ := k3
    obtain ⟨i2, s2⟩ := later_keeps hl k1
    have hr' : r' < h2.length := lt_of_lt_of_le k3.lt s2.1
    have old : ∀ s < h.length, ∀ x, Reach h2 s x → x < h.length := fun s hs x hx =>
      lt_of_le_of_lt (Reach.le i2.older hx) hs
    have new : ∀ x, Reach h2 r' x → h.length ≤ x := fun x hx => kf x ((s2.2 r' k3.lt x).1 hx)
    refine ⟨fun s hs p hp => clear_other i2 hr' hp keep fun x hx hx' => ?_, fun s hs p hp => ?_⟩
    · have := old s hs x hx; have := new x hx'; omega
    · refine clear_other i2 ?_ hp keep fun x hx hx' => ?_
      · exact lt_of_lt_of_le hs (le_trans k2.length s2.1)
      · have := old s hs x hx'; have := new x hx; omega

omit [Add F] [Sub F] [Mul F] [OfNat F 0] [OfNat F 1] in
theorem pair_names : Optic.namesOf [['T'], ['T', '.', 'A'], ['T', '.', 'B']] =
    [(['T'], ['T']), (['A'], ['T', '.', 'A']), (['T', '.', 'A'], ['T', '.', 'A']), (['B'], ['T', '.', 'B']),
      (['T', '.', 'B'], ['T', '.', 'B'])] := by decide

/-- Two interfaces `A` and `B` in a compound `T`: the copy with `A` shifted still refers to the old `B`. -/
theorem shared_run {dA dB : Iface F} {d : Comp F} (hA : dA.name = ['A']) (hB : dB.name = ['B']) (hd : d.name = ['T'])
    (hlens : d.isLens = false) (shift : V3 F) {dA' : Iface F} {aA bA x1 y1 aB bB x2 y2}
    (hinit : Iface.init { dA with coordSys := dA.coordSys.shiftGlobal shift, stop := dA.stop.map (·.globalShift shift) } = .ok dA') :
    ∃ D ns, (EditCall.globalShift ['A'] shift).run 2
      [.iface dA aA bA x1 y1, .iface dB aB bB x2 y2, .comp d [0, 1] none none] =
    (.ok 4, [.iface dA aA bA x1 y1, .iface dB aB bB x2 y2, .comp d [0, 1] (some D) (some ns),
      ifaceCell dA' aA bA, .comp { d with skip := false } [3, 1] none (some ns)]) := by
  rw [hA] at hinit
  simp [EditCall.run, ObjHeap.withGloballyShiftedOptic, ObjHeap.applyNamed, bind, pure, M.andThen, M.ret, ObjHeap.fetch, ObjHeap.names,
    ObjHeap.itemDict, ObjHeap.addItems, hA, hB, hd, hlens, Cell.name, ObjHeap.modify, Dict.set, pair_names, Cell.setNames, Cell.setDict,
    Dict.get?, Dict.has, ObjHeap.applyItems, ObjHeap.withGlobalShift, ObjHeap.copy, ObjHeap.newIface, hinit, ObjHeap.alloc, ObjHeap.newComp]

/-- Copies made by the methods that change a named part share the other parts with the original: after shifting `A` in a copy of a
compound of `A` and `B`, clearing the copy clears `B` in the original too. -/
theorem C71_shared_violated {dA dB dA' dB' dA'' : Iface F} {d : Comp F} (hA : dA.name = ['A']) (hB : dB.name = ['B'])
    (hd : d.name = ['T']) (hlens : d.isLens = false) (shift : V3 F) (h1 : Iface.init dA = .ok dA') (h2 : Iface.init dB = .ok dB')
    (h3 : Iface.init { dA' with coordSys := dA'.coordSys.shiftGlobal shift, stop := dA'.stop.map (·.globalShift shift) } = .ok dA'') :
    ∃ h h' : Heap F, Reachable h ∧ (EditCall.globalShift ['A'] shift).run 2 h = (.ok 4, h') ∧
      Repr h' 2 (.compound { d with skip := false } [.iface dA', .iface dB']) ∧
      Repr ((Call.clear 4 []).after h') 2 (.compound { d with skip := false } [.iface dA', .iface { dB' with obscuration := none }]) := by
  obtain ⟨aA, bA, x1, y1, cA⟩ := ifaceCell_iface dA' none none
  obtain ⟨aB, bB, x2, y2, cB⟩ := ifaceCell_iface dB' none none
  obtain ⟨aC, bC, x3, y3, cC⟩ := ifaceCell_iface dA'' aA bA
  have nA : dA'.name = ['A'] := (init_same h1).1.trans hA
  have nB : dB'.name = ['B'] := (init_same h2).1.trans hB
  have e1 : Call.after (.newInterface dA) ([] : Heap F) = [.iface dA' aA bA x1 y1] := by
    simp only [Call.after, ObjHeap.newIface, h1, ObjHeap.alloc, List.nil_append, cA]
  have e2 : Call.after (.newInterface dB) [.iface dA' aA bA x1 y1] = [.iface dA' aA bA x1 y1, .iface dB' aB bB x2 y2] := by
    simp only [Call.after, ObjHeap.newIface, h2, ObjHeap.alloc, List.cons_append, List.nil_append, cB]
  have e3 : Call.after (.newCompound d [0, 1]) [.iface dA' aA bA x1 y1, .iface dB' aB bB x2 y2] =
      [.iface dA' aA bA x1 y1, .iface dB' aB bB x2 y2, .comp { d with skip := false } [0, 1] none none] := by
    simp [Call.after, ObjHeap.newComp, hlens, ObjHeap.alloc]
  obtain ⟨D, ns, hrun⟩ := shared_run (d := { d with skip := false }) (aA := aA) (bA := bA) (x1 := x1) (y1 := y1) (aB := aB) (bB := bB)
    (x2 := x2) (y2 := y2) nA nB hd hlens shift h3
  rw [cC] at hrun
  have hreach : Reachable [.iface dA' aA bA x1 y1, .iface dB' aB bB x2 y2, .comp { d with skip := false } [0, 1] none none] := by
    rw [← e3]
    refine .call (.newCompound d [0, 1]) ?_ trivial (by simp [Call.Valid])
    rw [← e2, ← e1]
    exact .call (.newInterface dB) (.call (.newInterface dA) .refl trivial trivial) trivial trivial
  refine ⟨_, _, hreach, hrun, ?_⟩
  · refine ⟨?_, ?_⟩
    · simp [Repr, ReprL]
    · have : ObjHeap.clearObscuration [] 5 4 [.iface dA' aA bA x1 y1, .iface dB' aB bB x2 y2, .comp { d with skip := false } [0, 1] (some D)
          (some ns), .iface dA'' aC bC x3 y3, .comp { d with skip := false } [3, 1] none (some ns)] =
        (.ok (), [.iface dA' aA bA x1 y1, .iface { dB' with obscuration := none } aB bB x2 y2,
          .comp { d with skip := false } [0, 1] (some D) (some ns), .iface { dA'' with obscuration := none } aC bC x3 y3,
          .comp { d with skip := false } [3, 1] none (some ns)]) := rfl
      rw [Call.after, this]
      simp [Repr, ReprL]

end calls

/-! ## Cases -/

/-- A mirror with a circular aperture. -/
noncomputable def roundMirror (nm : Name) : Iface Dbl :=
  { demoMirror with name := nm, obscuration := some (.negation (.circle (.fin 1) (.fin 0) (.fin 0))) }

/-- The constructor accepts it. -/
theorem roundMirror_init (nm : Name) : ∃ d', Iface.init (roundMirror nm) = .ok d' :=
  ⟨_, rfl⟩

example : ∃ h : Heap Dbl, Reachable h ∧ ∃ d, d.obscuration = none ∧ ∃ a b x y, h[0]? = some (.iface d a b x y) ∧
    (ObjHeap.rInner 0 h).1 = .ok (some 0) ∧ y = some (.fin 1) := by
  obtain ⟨d', hd⟩ := roundMirror_init ['A']
  obtain ⟨h, hh, a, b, x, y, k⟩ := C70_radii_violated hd rfl
  exact ⟨h, hh, _, rfl, a, b, x, y, k⟩

/-- Both kinds of copy exist: a mirror can be shifted as a whole, and in a compound by name. -/
example : ∃ h h' : Heap Dbl, Reachable h ∧ (EditCall.globalShift ['A'] ⟨0, 0, 1⟩).run 2 h = (.ok 4, h') ∧
    ∃ o o', o ≠ o' ∧ Repr h' 2 o ∧ Repr ((Call.clear 4 []).after h') 2 o' := by
  obtain ⟨dA', hA⟩ := roundMirror_init ['A']
  obtain ⟨dB', hB⟩ := roundMirror_init ['B']
  have kA : dA'.kind = .mirror := by rw [← Except.ok.inj hA]; rfl
  have oB : dB'.obscuration = some (.negation (.circle (.fin 1) (.fin 0) (.fin 0))) := (init_same hB).2
  obtain ⟨dA'', hA'⟩ : ∃ d,
      Iface.init { dA' with coordSys := dA'.coordSys.shiftGlobal ⟨0, 0, 1⟩, stop := dA'.stop.map (·.globalShift ⟨0, 0, 1⟩) } = .ok d := by
    simp [Iface.init, kA]
  obtain ⟨h, h', k1, k2, k3, k4⟩ := C71_shared_violated (d := ⟨false, ['T'], (CoordSys.std ℝ).fin, ⟨fun _ => .fin 1⟩, ⟨fun _ => .fin 1⟩,
    false, none⟩) rfl rfl rfl rfl ⟨0, 0, 1⟩ hA hB hA'
  refine ⟨h, h', k1, k2, _, _, ?_, k3, k4⟩
  intro he
  simp only [Optic.compound.injEq, List.cons.injEq, Optic.iface.injEq] at he
  have := congrArg Iface.obscuration he.2.2.1
  rw [oB] at this
  cases this

example : ∃ (h h1 : Heap Dbl) (r' : ℕ), Reachable h ∧ (CopyCall.globalShift ⟨0, 0, 1⟩).run 0 h = (.ok r', h1) ∧ r' ≠ 0 := by
  obtain ⟨d', hd⟩ := roundMirror_init ['A']
  have k : d'.kind = .mirror := by rw [← Except.ok.inj hd]; rfl
  obtain ⟨d'', hd'⟩ : ∃ d,
      Iface.init { d' with coordSys := d'.coordSys.shiftGlobal ⟨0, 0, 1⟩, stop := d'.stop.map (·.globalShift ⟨0, 0, 1⟩) } = .ok d := by
    simp [Iface.init, k]
  obtain ⟨a, b, x, y, c⟩ := ifaceCell_iface d' none none
  have e1 : Call.after (.newInterface (roundMirror ['A'])) ([] : Heap Dbl) = [.iface d' a b x y] := by
    simp only [Call.after, ObjHeap.newIface, hd, ObjHeap.alloc, List.nil_append, c]
  refine ⟨_, [.iface d' a b x y, ifaceCell d'' a b], 1, .call (.newInterface (roundMirror ['A'])) .refl trivial trivial, ?_, by omega⟩
  rw [e1]
  have : ObjHeap.fetch 0 [Cell.iface d' a b x y] = (.ok (.iface d' a b x y), [.iface d' a b x y]) := rfl
  simp only [CopyCall.run, ObjHeap.withGlobalShift, ObjHeap.copy, bind, M.andThen, this, ObjHeap.newIface, hd']
  rfl

end Batoid.Props
