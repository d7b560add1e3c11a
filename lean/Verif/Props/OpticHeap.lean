import Verif.OpticHeap

/-!
# Caches and sharing (C70, C71)

`Repr h r o` says that the object at `r` in the memory `h`, read through all its references, is the optic `o` of
`Verif/Optic.lean`.  Every method is shown to return what the corresponding function on values returns, whatever was cached
before, and to leave all existing optics as they were; only `clearObscuration` changes objects.
-/

namespace Batoid.Props
open ObjHeap

section heap
variable {F : Type}

/-! ## Reading the memory -/

mutual
/-- The object at a reference is this optic. -/
def Repr (h : Heap F) : ℕ → Optic F → Prop
  | r, .iface d => ∃ a b c e, h[r]? = some (.iface d a b c e)
  | r, .compound d os => ∃ is a b, h[r]? = some (.comp d is a b) ∧ ReprL h is os
/-- The same for a list. -/
def ReprL (h : Heap F) : List ℕ → List (Optic F) → Prop
  | [], [] => True
  | i :: is, o :: os => Repr h i o ∧ ReprL h is os
  | _, _ => False
end

/-- Two objects that differ at most in their caches. -/
def SameCell : Cell F → Cell F → Prop
  | .iface d _ _ i o, .iface d' _ _ i' o' => d = d' ∧ i = i' ∧ o = o'
  | .comp d is _ _, .comp d' is' _ _ => d = d' ∧ is = is'
  | _, _ => False

theorem SameCell.refl (c : Cell F) : SameCell c c := by cases c <;> simp [SameCell]
theorem SameCell.trans {a b c : Cell F} (h : SameCell a b) (h' : SameCell b c) : SameCell a c := by
  cases a <;> cases b <;> simp only [SameCell] at h <;> cases c <;> simp only [SameCell] at h' ⊢
  · obtain ⟨rfl, rfl, rfl⟩ := h; exact h'
  · obtain ⟨rfl, rfl⟩ := h; exact h'

/-- All objects of `h` are still there in `h'`, except for their caches. -/
def Ext (h h' : Heap F) : Prop := ∀ (r : ℕ) (c : Cell F), h[r]? = some c → ∃ c' : Cell F, h'[r]? = some c' ∧ SameCell c c'

theorem Ext.refl (h : Heap F) : Ext h h := fun _ c hc => ⟨c, hc, SameCell.refl c⟩
theorem Ext.trans {a b c : Heap F} (h : Ext a b) (h' : Ext b c) : Ext a c := by
  intro r x hx
  obtain ⟨y, hy, hxy⟩ := h r x hx
  obtain ⟨z, hz, hyz⟩ := h' r y hy
  exact ⟨z, hz, hxy.trans hyz⟩
theorem Ext.length {h h' : Heap F} (e : Ext h h') : h.length ≤ h'.length := by
  by_contra hlt
  push Not at hlt
  obtain ⟨c', hc', -⟩ := e h'.length _ (List.getElem?_eq_getElem hlt)
  simp at hc'

theorem Ext.iface {h h' : Heap F} (e : Ext h h') {r : ℕ} {d a b x y} (hc : h[r]? = some (.iface d a b x y)) :
    ∃ a' b', h'[r]? = some (.iface d a' b' x y) := by
  obtain ⟨c', hc', s⟩ := e r _ hc
  cases c' with
  | comp => exact absurd s (by simp [SameCell])
  | iface d' a' b' x' y' => obtain ⟨rfl, rfl, rfl⟩ := s; exact ⟨_, _, hc'⟩
theorem Ext.comp {h h' : Heap F} (e : Ext h h') {r : ℕ} {d is a b} (hc : h[r]? = some (.comp d is a b)) :
    ∃ a' b', h'[r]? = some (.comp d is a' b') := by
  obtain ⟨c', hc', s⟩ := e r _ hc
  cases c' with
  | iface => exact absurd s (by simp [SameCell])
  | comp d' is' a' b' => obtain ⟨rfl, rfl⟩ := s; exact ⟨_, _, hc'⟩

mutual
theorem Repr.ext {h h' : Heap F} (e : Ext h h') : ∀ {r : ℕ} (o : Optic F), Repr h r o → Repr h' r o
  | r, .iface d, hr => by
    simp only [Repr] at hr ⊢
    obtain ⟨a, b, c, x, hc⟩ := hr
    obtain ⟨a', b', hc'⟩ := e.iface hc
    exact ⟨_, _, _, _, hc'⟩
  | r, .compound d os, hr => by
    simp only [Repr] at hr ⊢
    obtain ⟨is, a, b, hc, hl⟩ := hr
    obtain ⟨a', b', hc'⟩ := e.comp hc
    exact ⟨is, _, _, hc', ReprL.ext e os hl⟩
theorem ReprL.ext {h h' : Heap F} (e : Ext h h') : ∀ {is : List ℕ} (os : List (Optic F)), ReprL h is os → ReprL h' is os
  | [], [], _ => by simp [ReprL]
  | i :: is, o :: os, hl => by
    simp only [ReprL] at hl ⊢
    exact ⟨Repr.ext e o hl.1, ReprL.ext e os hl.2⟩
  | [], o :: os, hl => by simp [ReprL] at hl
  | i :: is, [], hl => by simp [ReprL] at hl
end

mutual
/-- An object is one optic only. -/
theorem Repr.unique {h : Heap F} : ∀ {r : ℕ} (o o' : Optic F), Repr h r o → Repr h r o' → o = o'
  | r, .iface d, .iface d', hr, hr' => by
    simp only [Repr] at hr hr'
    obtain ⟨a, b, c, x, hc⟩ := hr
    obtain ⟨a', b', c', x', hc'⟩ := hr'
    rw [hc] at hc'
    cases hc'
    rfl
  | r, .compound d os, .compound d' os', hr, hr' => by
    simp only [Repr] at hr hr'
    obtain ⟨is, a, b, hc, hl⟩ := hr
    obtain ⟨is', a', b', hc', hl'⟩ := hr'
    rw [hc] at hc'
    cases hc'
    rw [ReprL.unique os os' hl hl']
  | r, .iface d, .compound d' os', hr, hr' => by
    simp only [Repr] at hr hr'
    obtain ⟨a, b, c, x, hc⟩ := hr
    obtain ⟨is', a', b', hc', hl'⟩ := hr'
    rw [hc] at hc'
    cases hc'
  | r, .compound d os, .iface d', hr, hr' => by
    simp only [Repr] at hr hr'
    obtain ⟨a, b, c, x, hc⟩ := hr'
    obtain ⟨is', a', b', hc', hl'⟩ := hr
    rw [hc] at hc'
    cases hc'
theorem ReprL.unique {h : Heap F} : ∀ {is : List ℕ} (os os' : List (Optic F)), ReprL h is os → ReprL h is os' → os = os'
  | [], [], [], _, _ => rfl
  | i :: is, o :: os, o' :: os', hl, hl' => by
    simp only [ReprL] at hl hl'
    rw [Repr.unique o o' hl.1 hl'.1, ReprL.unique os os' hl.2 hl'.2]
  | [], o :: os, _, hl, _ => by simp [ReprL] at hl
  | [], [], o :: os, _, hl => by simp [ReprL] at hl
  | i :: is, [], _, hl, _ => by simp [ReprL] at hl
  | i :: is, o :: os, [], _, hl => by simp [ReprL] at hl
end

theorem ReprL.length {h : Heap F} : ∀ {is : List ℕ} {os : List (Optic F)}, ReprL h is os → is.length = os.length
  | [], [], _ => rfl
  | i :: is, o :: os, hl => by simp only [ReprL] at hl; simp [ReprL.length hl.2]
  | [], o :: os, hl => by simp [ReprL] at hl
  | i :: is, [], hl => by simp [ReprL] at hl

/-- The attributes read from an object are those of the optic. -/
theorem Repr.fetch {h : Heap F} {r : ℕ} {o : Optic F} (hr : Repr h r o) : ∃ c : Cell F, h[r]? = some c ∧ c.name = o.name ∧
    c.coordSys = o.coordSys ∧ c.inMedium = o.inMedium ∧ c.outMedium = o.outMedium := by
  cases o with
  | iface d =>
    simp only [Repr] at hr
    obtain ⟨a, b, c, x, hc⟩ := hr
    exact ⟨_, hc, rfl, rfl, rfl, rfl⟩
  | compound d os =>
    simp only [Repr] at hr
    obtain ⟨is, a, b, hc, -⟩ := hr
    exact ⟨_, hc, rfl, rfl, rfl, rfl⟩

/-! ## The dictionary without caches -/

/-- The loop of `itemDict`, without caches. -/
def freshItems (h : Heap F) (sub : ℕ → Dict Name ℕ) (pre : Name) : List ℕ → Dict Name ℕ → Dict Name ℕ
  | [], out => out
  | i :: is, out =>
    freshItems h sub pre is ((sub i).foldl (fun out kv => Dict.set out (pre ++ '.' :: kv.1) kv.2)
      (Dict.set out (pre ++ '.' :: ((h[i]?).map Cell.name).getD []) i))

/-- What `itemDict` would be if nothing was cached. -/
def freshDict (h : Heap F) : ℕ → ℕ → Dict Name ℕ
  | 0, _ => []
  | n + 1, r => match h[r]? with
    | some (.comp d items _ _) => freshItems h (freshDict h n) d.name items [(d.name, r)]
    | _ => []

/-- Items are older than the compounds they are in. -/
def Older (h : Heap F) : Prop := ∀ (r : ℕ) (d : Comp F) (is : List ℕ) (a : Option (Dict Name ℕ)) (b : Option (Dict Name Name)),
  h[r]? = some (.comp d is a b) → ∀ i ∈ is, i < r

theorem freshItems_congr {h h' : Heap F} {sub sub' : ℕ → Dict Name ℕ} {pre : Name} : ∀ {is : List ℕ} {out : Dict Name ℕ},
    (∀ i ∈ is, sub i = sub' i ∧ (h[i]?).map Cell.name = (h'[i]?).map Cell.name) →
    freshItems h sub pre is out = freshItems h' sub' pre is out
  | [], _, _ => rfl
  | i :: is, out, hi => by
    simp only [freshItems]
    rw [(hi i (by simp)).1, (hi i (by simp)).2]
    exact freshItems_congr fun j hj => hi j (by simp [hj])

theorem SameCell.name {c c' : Cell F} (h : SameCell c c') : c.name = c'.name := by
  cases c <;> cases c' <;> simp only [SameCell] at h
  · obtain ⟨rfl, -⟩ := h; rfl
  · obtain ⟨rfl, -⟩ := h; rfl

/-- It does not depend on caches, on newer objects or on the fuel. -/
theorem freshDict_ext {h h' : Heap F} (e : Ext h h') (ho : Older h) : ∀ {n n' : ℕ} {r : ℕ}, r < n → r < n' → r < h.length →
    freshDict h n r = freshDict h' n' r
  | 0, _, _, hn, _, _ => absurd hn (Nat.not_lt_zero _)
  | _ + 1, 0, _, _, hn, _ => absurd hn (Nat.not_lt_zero _)
  | n + 1, n' + 1, r, hn, hn', hr => by
    simp only [freshDict]
    match hc : h[r]? with
    | none => simp [hr] at hc
    | some (.iface d a b x y) => obtain ⟨a', b', hc'⟩ := e.iface hc; rw [hc']
    | some (.comp d is a b) =>
      obtain ⟨a', b', hc'⟩ := e.comp hc
      rw [hc']
      refine freshItems_congr fun i hi => ?_
      have hir : i < r := ho r d is a b hc i hi
      refine ⟨freshDict_ext e ho (by omega) (by omega) (by omega), ?_⟩
      obtain ⟨c', hc'', s⟩ := e i _ (List.getElem?_eq_getElem (by omega : i < h.length))
      rw [hc'', List.getElem?_eq_getElem (by omega : i < h.length)]
      simp [s.name]

/-! ## The invariant -/

section inv
variable [OfNat F 0] [OfNat F 1]

/-- The radii an interface keeps are those of its obscuration. -/
def RadiiOk : Cell F → Prop
  | .iface d rIn rOut i o => (∀ v, rIn = some v → v = innerOf d.obscuration) ∧ (∀ v, rOut = some v → v = outerOf d.obscuration) ∧
      i = innerOf d.obscuration ∧ o = outerOf d.obscuration
  | .comp _ _ _ _ => True

/-- What is cached in the object `c` at `r` is what would be computed now.  For the radii this is asked for only if `rad`
holds. -/
def CacheOk (rad : Prop) (h : Heap F) (r : ℕ) : Cell F → Prop
  | .iface d rIn rOut i o => rad → RadiiOk (.iface d rIn rOut i o)
  | .comp _ _ a b => (∀ D, a = some D → D = freshDict h (r + 1) r) ∧
      (∀ ns, b = some ns → ns = Optic.namesOf ((freshDict h (r + 1) r).map Prod.fst))

/-- What holds between calls of methods. -/
structure Inv (rad : Prop) (h : Heap F) : Prop where
  older : Older h
  caches : ∀ (r : ℕ) (c : Cell F), h[r]? = some c → CacheOk rad h r c

omit [OfNat F 0] [OfNat F 1] in
theorem lt_of_get {h : Heap F} {r : ℕ} {c : Cell F} (hc : h[r]? = some c) : r < h.length := (List.getElem?_eq_some_iff.1 hc).1

theorem CacheOk.ext {rad : Prop} {h h' : Heap F} (e : Ext h h') (ho : Older h) {r : ℕ} (hr : r < h.length) {c : Cell F}
    (hc : CacheOk rad h r c) : CacheOk rad h' r c := by
  cases c with
  | iface => exact hc
  | comp d is a b =>
    simp only [CacheOk] at hc ⊢
    rw [← freshDict_ext e ho (Nat.lt_succ_self r) (Nat.lt_succ_self r) hr]
    exact hc

theorem SameCell.comp_left {c : Cell F} {d is a b} (s : SameCell c (.comp d is a b)) : ∃ a' b', c = .comp d is a' b' := by
  cases c with
  | iface => exact absurd s (by simp [SameCell])
  | comp d' is' a' b' => obtain ⟨rfl, rfl⟩ := s; exact ⟨_, _, rfl⟩

/-- Filling a cache with the right value. -/
theorem Inv.modify {rad : Prop} {h : Heap F} (hi : Inv rad h) {r : ℕ} {c : Cell F} (hc : h[r]? = some c) {f : Cell F → Cell F}
    (hs : SameCell c (f c)) (hok : CacheOk rad h r (f c)) : Inv rad (List.modify h r f) ∧ Ext h (List.modify h r f) := by
  have get : ∀ x, (List.modify h r f)[x]? = if r = x then (h[x]?).map f else h[x]? := fun x => by
    rw [List.getElem?_modify]; split <;> simp_all
  have ext : Ext h (List.modify h r f) := by
    intro x cx hx
    rw [get]
    by_cases hrx : r = x
    · subst hrx
      rw [hc] at hx; cases hx
      exact ⟨f c, by simp [hc], hs⟩
    · exact ⟨cx, by simp [hrx, hx], SameCell.refl cx⟩
  refine ⟨⟨?_, ?_⟩, ext⟩
  · intro x d is a b hx i hi'
    rw [get] at hx
    by_cases hrx : r = x
    · subst hrx
      simp only [if_true, hc, Option.map_some, Option.some.injEq] at hx
      rw [hx] at hs
      obtain ⟨a', b', rfl⟩ := hs.comp_left
      exact hi.older _ _ _ _ _ hc i hi'
    · rw [if_neg hrx] at hx
      exact hi.older _ _ _ _ _ hx i hi'
  · intro x cx hx
    rw [get] at hx
    by_cases hrx : r = x
    · subst hrx
      simp only [if_true, hc, Option.map_some, Option.some.injEq] at hx
      subst hx
      exact hok.ext ext hi.older (lt_of_get hc)
    · rw [if_neg hrx] at hx
      exact (hi.caches x cx hx).ext ext hi.older (lt_of_get hx)

theorem ext_append (h : Heap F) (c : Cell F) : Ext h (h ++ [c]) := by
  intro x cx hx
  exact ⟨cx, by rw [List.getElem?_append_left (lt_of_get hx)]; exact hx, SameCell.refl cx⟩

/-- A new object. -/
theorem Inv.alloc {rad : Prop} {h : Heap F} (hi : Inv rad h) {c : Cell F}
    (hit : ∀ d is a b, c = .comp d is a b → ∀ i ∈ is, i < h.length) (hok : CacheOk rad (h ++ [c]) h.length c) :
    Inv rad (h ++ [c]) := by
  have get : ∀ x cx, (h ++ [c])[x]? = some cx → h[x]? = some cx ∨ (x = h.length ∧ cx = c) := by
    intro x cx hx
    by_cases hlt : x < h.length
    · left; rwa [List.getElem?_append_left hlt] at hx
    · right
      have := lt_of_get hx
      simp only [List.length_append, List.length_singleton] at this
      have e : x = h.length := by omega
      subst e
      simp at hx
      exact ⟨rfl, hx.symm⟩
  refine ⟨?_, ?_⟩
  · intro x d is a b hx i hmem
    rcases get x _ hx with hx | ⟨rfl, rfl⟩
    · exact hi.older _ _ _ _ _ hx i hmem
    · exact hit _ _ _ _ rfl i hmem
  · intro x cx hx
    rcases get x _ hx with hx | ⟨rfl, rfl⟩
    · exact (hi.caches x cx hx).ext (ext_append h c) hi.older (lt_of_get hx)
    · exact hok

/-! ## Refinement -/

/-- The program `m`, started in `h`, does the same as `t` does on values: it raises the same exception, or results are related
by `R`.  Existing objects are not changed except for their caches. -/
def Refines {α β : Type} (rad : Prop) (h : Heap F) (m : M F α) (t : Except PyErr β) (R : Heap F → α → β → Prop) : Prop :=
  Inv rad (m h).2 ∧ Ext h (m h).2 ∧
  match (m h).1, t with
  | .ok a, .ok b => R (m h).2 a b
  | .error e, .error e' => e = e'
  | _, _ => False

variable {rad : Prop} {h : Heap F}

theorem Refines.raise {α β : Type} {R : Heap F → α → β → Prop} (hi : Inv rad h) (e : PyErr) :
    Refines rad h (M.raise e) (.error e) R := ⟨hi, Ext.refl h, rfl⟩
theorem Refines.pure {α β : Type} {R : Heap F → α → β → Prop} (hi : Inv rad h) {a : α} {b : β} (hR : R h a b) :
    Refines rad h (Pure.pure a) (.ok b) R := ⟨hi, Ext.refl h, hR⟩

theorem Refines.bind {α α' β β' : Type} {m : M F α} {t : Except PyErr β} {R : Heap F → α → β → Prop} {f : α → M F α'}
    {g : β → Except PyErr β'} {R' : Heap F → α' → β' → Prop} (hm : Refines rad h m t R)
    (hf : ∀ h' a b, Inv rad h' → Ext h h' → R h' a b → Refines rad h' (f a) (g b) R') :
    Refines rad h (m >>= f) (t >>= g) R' := by
  obtain ⟨h1, h2, h3⟩ := hm
  have e : (m >>= f) h = (match m h with | (.ok a, h') => f a h' | (.error e, h') => (.error e, h')) := rfl
  unfold Refines
  rw [e]
  rcases hmh : m h with ⟨res, h'⟩
  rw [hmh] at h1 h2 h3
  cases res with
  | error er =>
    cases t with
    | ok b => exact h3.elim
    | error er' => exact ⟨h1, h2, h3⟩
  | ok a =>
    cases t with
    | error er' => exact h3.elim
    | ok b =>
      obtain ⟨k1, k2, k3⟩ := hf h' a b h1 h2 h3
      exact ⟨k1, h2.trans k2, k3⟩

/-- The same for a step that does nothing on values. -/
theorem Refines.step {α α' β β' : Type} {m : M F α} {b : β} {R : Heap F → α → β → Prop} {f : α → M F α'}
    {t : Except PyErr β'} {R' : Heap F → α' → β' → Prop} (hm : Refines rad h m (.ok b) R)
    (hf : ∀ h' a, Inv rad h' → Ext h h' → R h' a b → Refines rad h' (f a) t R') :
    Refines rad h (m >>= f) t R' := by
  have hm' : Refines rad h m (.ok b) (fun h' a b' => b' = b ∧ R h' a b') := by
    obtain ⟨h1, h2, h3⟩ := hm
    refine ⟨h1, h2, ?_⟩
    revert h3
    cases (m h).1 <;> simp
  exact Refines.bind (t := .ok b) (g := fun _ => t) hm' fun h' a b' hi e hR => hf h' a hi e (hR.1 ▸ hR.2)

theorem Refines.fetch {α β : Type} {r : ℕ} {c : Cell F} {f : Cell F → M F α} {t : Except PyErr β} {R : Heap F → α → β → Prop}
    (hc : h[r]? = some c) (hf : Refines rad h (f c) t R) : Refines rad h (ObjHeap.fetch r >>= f) t R := by
  have e : (ObjHeap.fetch r >>= f) h = f c h := by
    show M.andThen (ObjHeap.fetch r) f h = _
    simp only [M.andThen, ObjHeap.fetch, hc]
  unfold Refines
  rw [e]
  exact hf

theorem Refines.modify {α β : Type} {r : ℕ} {c : Cell F} {g : Cell F → Cell F} {f : Unit → M F α} {t : Except PyErr β}
    {R : Heap F → α → β → Prop} (hi : Inv rad h) (hc : h[r]? = some c) (hs : SameCell c (g c)) (hok : CacheOk rad h r (g c))
    (hf : ∀ h', Inv rad h' → Ext h h' → Refines rad h' (f ()) t R) : Refines rad h (ObjHeap.modify r g >>= f) t R :=
  Refines.step (b := ()) (R := fun _ _ _ => True) ⟨(hi.modify hc hs hok).1, (hi.modify hc hs hok).2, trivial⟩
    fun h' _ hi' e _ => hf h' hi' e

theorem Refines.mono {α β : Type} {m : M F α} {t : Except PyErr β} {R R' : Heap F → α → β → Prop} (hm : Refines rad h m t R)
    (hR : ∀ h' a b, Inv rad h' → Ext h h' → t = .ok b → R h' a b → R' h' a b) : Refines rad h m t R' := by
  obtain ⟨h1, h2, h3⟩ := hm
  refine ⟨h1, h2, ?_⟩
  generalize hmh : m h = mh at *
  rcases mh with ⟨res, h'⟩
  cases res <;> cases t
  · exact h3
  · exact h3
  · exact h3
  · exact hR _ _ _ h1 h2 rfl h3

/-! ## Lookup -/

theorem addItems_refines {sub : ℕ → M F (Dict Name ℕ)} {n : ℕ} {pre : Name}
    (hsub : ∀ (h : Heap F) (r : ℕ), Inv rad h → r < h.length → r < n → Refines rad h (sub r) (.ok (freshDict h n r)) (fun _ => Eq)) :
    ∀ {is : List ℕ} {h : Heap F} {out : Dict Name ℕ}, Inv rad h → (∀ i ∈ is, i < h.length ∧ i < n) →
    Refines rad h (ObjHeap.addItems sub pre is out) (.ok (freshItems h (freshDict h n) pre is out)) (fun _ => Eq)
  | [], h, out, hi, _ => by
    rw [ObjHeap.addItems]
    exact Refines.pure hi rfl
  | i :: is, h, out, hi, hb => by
    obtain ⟨hl, hn⟩ := hb i (by simp)
    rw [ObjHeap.addItems]
    refine Refines.fetch (List.getElem?_eq_getElem hl) ?_
    refine Refines.step (hsub h i hi hl hn) fun h' D hi' e hD => ?_
    subst hD
    have hb' : ∀ j ∈ is, j < h'.length ∧ j < n := fun j hj =>
      ⟨lt_of_lt_of_le (hb j (by simp [hj])).1 e.length, (hb j (by simp [hj])).2⟩
    have := addItems_refines hsub (pre := pre) (is := is) (out := (freshDict h n i).foldl
      (fun out kv => Dict.set out (pre ++ '.' :: kv.1) kv.2) (Dict.set out (pre ++ '.' :: h[i].name) i)) hi' hb'
    rw [freshItems, List.getElem?_eq_getElem hl]
    rw [← freshItems_congr (h := h) (sub := freshDict h n)] at this
    · exact this
    · intro j hj
      obtain ⟨hjl, hjn⟩ := hb j (by simp [hj])
      refine ⟨freshDict_ext e hi.older hjn hjn hjl, ?_⟩
      obtain ⟨c', hc', s⟩ := e j _ (List.getElem?_eq_getElem hjl)
      rw [hc', List.getElem?_eq_getElem hjl]
      simp [s.name]

theorem itemDict_fresh : ∀ {n : ℕ} {h : Heap F} {r : ℕ}, Inv rad h → r < h.length → r < n →
    Refines rad h (ObjHeap.itemDict n r) (.ok (freshDict h n r)) (fun _ => Eq)
  | 0, _, _, _, _, hn => absurd hn (Nat.not_lt_zero _)
  | n + 1, h, r, hi, hl, hn => by
    rw [ObjHeap.itemDict]
    have hc := List.getElem?_eq_getElem hl
    refine Refines.fetch hc ?_
    rw [freshDict]
    rw [hc]
    have hok := hi.caches r _ hc
    match hcell : h[r], hok with
    | .iface d a b x y, _ => exact Refines.pure hi rfl
    | .comp d is (some D) b, hok =>
      have e1 := hok.1 D rfl
      rw [freshDict_ext (Ext.refl h) hi.older (Nat.lt_succ_self r) hn hl, freshDict, hc, hcell] at e1
      exact Refines.pure hi e1
    | .comp d is none b, hok =>
      rw [hcell] at hc
      have hb : ∀ i ∈ is, i < h.length ∧ i < n := fun i hmem => by
        have := hi.older _ _ _ _ _ hc i hmem
        omega
      refine Refines.step (addItems_refines (fun h r => itemDict_fresh) hi hb) fun h' D hi' e hD => ?_
      obtain ⟨a', b', hc'⟩ := e.comp hc
      have hD' : D = freshDict h' (r + 1) r := by
        rw [hD, ← freshDict_ext e hi.older (Nat.lt_succ_self r) (Nat.lt_succ_self r) hl,
          freshDict_ext (Ext.refl h) hi.older (Nat.lt_succ_self r) hn hl, freshDict, hc]
      refine Refines.modify hi' hc' ⟨rfl, rfl⟩ ⟨fun D' hh => ?_, (hi'.caches r _ hc').2⟩ fun h'' hi'' _ => Refines.pure hi'' hD
      cases hh
      exact hD'

/-- The names of a compound. -/
theorem names_fresh {h : Heap F} {r : ℕ} (hi : Inv rad h) {d is a b} (hc : h[r]? = some (.comp d is a b)) :
    Refines rad h (ObjHeap.names r) (.ok (Optic.namesOf ((freshDict h (r + 1) r).map Prod.fst))) (fun _ => Eq) := by
  rw [ObjHeap.names]
  refine Refines.fetch hc ?_
  have hok := hi.caches r _ hc
  cases b with
  | some ns => exact Refines.pure hi (hok.2 ns rfl)
  | none =>
    refine Refines.step (itemDict_fresh hi (lt_of_get hc) (Nat.lt_succ_self r)) fun h' D hi' e hD => ?_
    obtain ⟨a', b', hc'⟩ := e.comp hc
    subst hD
    refine Refines.modify hi' hc' ⟨rfl, rfl⟩ ⟨(hi'.caches r _ hc').1, fun ns hh => ?_⟩ fun h'' hi'' _ => Refines.pure hi'' rfl
    cases hh
    rw [freshDict_ext e hi.older (Nat.lt_succ_self r) (Nat.lt_succ_self r) (lt_of_get hc)]

/-- A dictionary of references and a dictionary of optics with the same keys. -/
def DictRel (h : Heap F) (D : Dict Name ℕ) (T : Dict Name (Optic F)) : Prop :=
  List.Forall₂ (fun p q => p.1 = q.1 ∧ Repr h p.2 q.2) D T

omit [OfNat F 0] [OfNat F 1] in
theorem DictRel.set {h : Heap F} {k : Name} {r : ℕ} {o : Optic F} (hr : Repr h r o) : ∀ {D : Dict Name ℕ} {T : Dict Name (Optic F)},
    DictRel h D T → DictRel h (D.set k r) (T.set k o)
  | [], [], _ => .cons ⟨rfl, hr⟩ .nil
  | (k1, v1) :: D, (k2, v2) :: T, hd => by
    obtain ⟨⟨e, hv⟩, ht⟩ := List.forall₂_cons.1 hd
    simp only at e hv
    subst e
    simp only [Dict.set]
    split
    · exact .cons ⟨rfl, hr⟩ ht
    · exact .cons ⟨rfl, hv⟩ (DictRel.set hr ht)
  | [], _ :: _, hd => by cases hd
  | _ :: _, [], hd => by cases hd

omit [OfNat F 0] [OfNat F 1] in
theorem DictRel.get {h : Heap F} {k : Name} : ∀ {D : Dict Name ℕ} {T : Dict Name (Optic F)}, DictRel h D T →
    (D.get? k = none ∧ T.get? k = none) ∨ ∃ r o, D.get? k = some r ∧ T.get? k = some o ∧ Repr h r o
  | [], [], _ => .inl ⟨rfl, rfl⟩
  | (k1, v1) :: D, (k2, v2) :: T, hd => by
    obtain ⟨⟨e, hv⟩, ht⟩ := List.forall₂_cons.1 hd
    simp only at e hv
    subst e
    simp only [Dict.get?]
    split
    · exact .inr ⟨_, _, rfl, rfl, hv⟩
    · exact DictRel.get ht
  | [], _ :: _, hd => by cases hd
  | _ :: _, [], hd => by cases hd

omit [OfNat F 0] [OfNat F 1] in
theorem DictRel.has {h : Heap F} {k : Name} {D : Dict Name ℕ} {T : Dict Name (Optic F)} (hd : DictRel h D T) : D.has k = T.has k := by
  rcases hd.get (k := k) with ⟨h1, h2⟩ | ⟨r, o, h1, h2, -⟩ <;> simp [Dict.has, h1, h2]

omit [OfNat F 0] [OfNat F 1] in
theorem DictRel.fold {h : Heap F} {pre : Name} : ∀ {D : Dict Name ℕ} {T : Dict Name (Optic F)} {out : Dict Name ℕ}
    {out' : Dict Name (Optic F)}, DictRel h D T → DictRel h out out' →
    DictRel h (D.foldl (fun out kv => Dict.set out (pre ++ '.' :: kv.1) kv.2) out)
      (T.foldl (fun out kv => Dict.set out (pre ++ '.' :: kv.1) kv.2) out')
  | [], [], _, _, _, ho => ho
  | (k1, v1) :: D, (k2, v2) :: T, out, out', hd, ho => by
    obtain ⟨⟨e, hv⟩, ht⟩ := List.forall₂_cons.1 hd
    simp only at e hv
    subst e
    simp only [List.foldl_cons]
    exact DictRel.fold ht (ho.set hv)
  | [], _ :: _, _, _, hd, _ => by cases hd
  | _ :: _, [], _, _, hd, _ => by cases hd

omit [OfNat F 0] [OfNat F 1] in
theorem DictRel.keys {h : Heap F} : ∀ {D : Dict Name ℕ} {T : Dict Name (Optic F)}, DictRel h D T → D.map Prod.fst = T.map Prod.fst
  | [], [], _ => rfl
  | p :: D, q :: T, hd => by
    obtain ⟨⟨e, -⟩, ht⟩ := List.forall₂_cons.1 hd
    simp [e, DictRel.keys ht]
  | [], _ :: _, hd => by cases hd
  | _ :: _, [], hd => by cases hd

mutual
/-- The dictionary of references corresponds to the dictionary of the optic. -/
theorem freshDict_rel {h : Heap F} (ho : Older h) : ∀ {n r : ℕ} (o : Optic F), Repr h r o → r < n →
    DictRel h (freshDict h n r) o.itemDict
  | 0, _, _, _, hn => absurd hn (Nat.not_lt_zero _)
  | n + 1, r, .iface d, hr, _ => by
    simp only [Repr] at hr
    obtain ⟨a, b, x, y, hc⟩ := hr
    rw [freshDict, hc, Optic.itemDict]
    exact .nil
  | n + 1, r, .compound d os, hr, hn => by
    have hr' := hr
    simp only [Repr] at hr
    obtain ⟨is, a, b, hc, hl⟩ := hr
    rw [freshDict, hc, Optic.itemDict]
    exact freshItems_rel ho os hl (fun i hmem => by have := ho _ _ _ _ _ hc i hmem; omega) (.cons ⟨rfl, hr'⟩ .nil)
theorem freshItems_rel {h : Heap F} (ho : Older h) {n : ℕ} {pre : Name} : ∀ {is : List ℕ} {out : Dict Name ℕ} {out' : Dict Name (Optic F)}
    (os : List (Optic F)), ReprL h is os → (∀ i ∈ is, i < n) → DictRel h out out' →
    DictRel h (freshItems h (freshDict h n) pre is out) (Optic.addItems pre os out')
  | [], out, out', [], _, _, hout => by simpa [freshItems, Optic.addItems] using hout
  | i :: is, out, out', o :: os, hl, hb, hout => by
    simp only [ReprL] at hl
    obtain ⟨c, hc, hname, -⟩ := hl.1.fetch
    rw [freshItems, Optic.addItems, hc]
    simp only [Option.map_some, Option.getD_some]
    rw [hname]
    exact freshItems_rel ho os hl.2 (fun j hj => hb j (by simp [hj]))
      (DictRel.fold (freshDict_rel ho o hl.1 (hb i (by simp))) (hout.set hl.1))
  | [], _, _, _ :: _, hl, _, _ => by simp [ReprL] at hl
  | _ :: _, _, _, [], hl, _, _ => by simp [ReprL] at hl
end

/-- `itemDict`, whatever is cached. -/
theorem itemDict_refines {r : ℕ} {o : Optic F} (hi : Inv rad h) (hr : Repr h r o) :
    Refines rad h (ObjHeap.itemDict (r + 1) r) (.ok o.itemDict) DictRel := by
  obtain ⟨c, hc, -⟩ := hr.fetch
  obtain ⟨h1, h2, h3⟩ := itemDict_fresh (rad := rad) hi (lt_of_get hc) (Nat.lt_succ_self r)
  refine ⟨h1, h2, ?_⟩
  rw [freshDict_ext h2 hi.older (Nat.lt_succ_self r) (Nat.lt_succ_self r) (lt_of_get hc)] at h3
  have := freshDict_rel h1.older o (hr.ext h2) (Nat.lt_succ_self r)
  revert h3
  cases (ObjHeap.itemDict (r + 1) r h).1 with
  | error e => exact id
  | ok D => intro h3; simp only at h3 ⊢; rw [h3]; exact this

/-- `_names`, whatever is cached. -/
theorem names_refines {r : ℕ} {d : Comp F} {os : List (Optic F)} (hi : Inv rad h) (hr : Repr h r (.compound d os)) :
    Refines rad h (ObjHeap.names r) (.ok (Optic.compound d os).names) (fun _ => Eq) := by
  have hr' := hr
  simp only [Repr] at hr
  obtain ⟨is, a, b, hc, hl⟩ := hr
  have := names_fresh (rad := rad) hi hc
  rw [(freshDict_rel hi.older _ hr' (Nat.lt_succ_self r)).keys] at this
  exact this

theorem getItem_refines {r : ℕ} {o : Optic F} (hi : Inv rad h) (hr : Repr h r o) (key : Name) :
    Refines rad h (ObjHeap.getItem r key) (o.getItem key) Repr := by
  rw [ObjHeap.getItem]
  cases o with
  | iface d =>
    simp only [Repr] at hr
    obtain ⟨a, b, x, y, hc⟩ := hr
    exact Refines.fetch hc (Refines.raise hi _)
  | compound d os =>
    have hr' := hr
    simp only [Repr] at hr
    obtain ⟨is, a, b, hc, hl⟩ := hr
    refine Refines.fetch hc ?_
    refine Refines.step (itemDict_refines hi hr') fun h' D hi' e hD => ?_
    simp only [Optic.getItem]
    rcases hD.get (k := key) with ⟨h1, h2⟩ | ⟨x, y, h1, h2, hxy⟩
    · rw [h1, h2]
      refine Refines.step (names_refines hi' (hr'.ext e)) fun h'' ns hi'' e' hns => ?_
      subst hns
      cases (Optic.compound d os).names.get? key with
      | none => exact Refines.raise hi'' _
      | some full =>
        rcases hD.get (k := full) with ⟨h1, h2⟩ | ⟨x, y, h1, h2, hxy⟩
        · simp only [h1, h2]
          exact Refines.raise hi'' _
        · simp only [h1, h2]
          exact Refines.pure hi'' (hxy.ext e')
    · rw [h1, h2]
      exact Refines.pure hi' hxy

/-! ## Names of copies -/

mutual
/-- The same tree of names. -/
def SameNames : Optic F → Optic F → Prop
  | .iface d, .iface d' => d.name = d'.name
  | .compound d os, .compound d' os' => d.name = d'.name ∧ SameNamesL os os'
  | _, _ => False
def SameNamesL : List (Optic F) → List (Optic F) → Prop
  | [], [] => True
  | o :: os, o' :: os' => SameNames o o' ∧ SameNamesL os os'
  | _, _ => False
end

section names
omit [OfNat F 0] [OfNat F 1]

mutual
theorem SameNames.refl : ∀ o : Optic F, SameNames o o
  | .iface d => by simp [SameNames]
  | .compound d os => by rw [SameNames]; exact ⟨rfl, SameNamesL.refl os⟩
theorem SameNamesL.refl : ∀ os : List (Optic F), SameNamesL os os
  | [] => by simp [SameNamesL]
  | o :: os => by simp only [SameNamesL]; exact ⟨SameNames.refl o, SameNamesL.refl os⟩
end

theorem SameNames.name {o o' : Optic F} (h : SameNames o o') : o.name = o'.name := by
  cases o <;> cases o' <;> simp only [SameNames] at h
  · exact h
  · exact h.1

theorem keys_set {α β γ : Type} [DecidableEq α] {k : α} {v : β} {v' : γ} : ∀ {D : Dict α β} {T : Dict α γ}, D.map Prod.fst = T.map Prod.fst →
    (D.set k v).map Prod.fst = (T.set k v').map Prod.fst
  | [], [], _ => rfl
  | (k1, v1) :: D, (k2, v2) :: T, hk => by
    simp only [List.map_cons, List.cons.injEq] at hk
    obtain ⟨rfl, hk⟩ := hk
    simp only [Dict.set]
    split
    · simp [hk]
    · simp [keys_set (v := v) (v' := v') hk]
  | [], _ :: _, hk => by simp at hk
  | _ :: _, [], hk => by simp at hk

theorem keys_fold {β γ : Type} {pre : Name} : ∀ {D : Dict Name β} {T : Dict Name γ} {out : Dict Name β} {out' : Dict Name γ},
    D.map Prod.fst = T.map Prod.fst → out.map Prod.fst = out'.map Prod.fst →
    (D.foldl (fun out kv => Dict.set out (pre ++ '.' :: kv.1) kv.2) out).map Prod.fst =
      (T.foldl (fun out kv => Dict.set out (pre ++ '.' :: kv.1) kv.2) out').map Prod.fst
  | [], [], _, _, _, ho => ho
  | (k1, v1) :: D, (k2, v2) :: T, out, out', hk, ho => by
    simp only [List.map_cons, List.cons.injEq] at hk
    obtain ⟨rfl, hk⟩ := hk
    simp only [List.foldl_cons]
    exact keys_fold hk (keys_set ho)
  | [], _ :: _, _, _, hk, _ => by simp at hk
  | _ :: _, [], _, _, hk, _ => by simp at hk

mutual
theorem SameNames.keys : ∀ (o o' : Optic F), SameNames o o' → o.itemDict.map Prod.fst = o'.itemDict.map Prod.fst
  | .iface d, .iface d', _ => by simp [Optic.itemDict]
  | .compound d os, .compound d' os', h => by
    simp only [SameNames] at h
    rw [Optic.itemDict, Optic.itemDict, h.1]
    exact SameNamesL.keys os os' h.2 rfl
  | .iface d, .compound d' os', h => by simp [SameNames] at h
  | .compound d os, .iface d', h => by simp [SameNames] at h
theorem SameNamesL.keys {pre : Name} : ∀ (os os' : List (Optic F)) {out out' : Dict Name (Optic F)}, SameNamesL os os' →
    out.map Prod.fst = out'.map Prod.fst → (Optic.addItems pre os out).map Prod.fst = (Optic.addItems pre os' out').map Prod.fst
  | [], [], out, out', _, ho => by simpa [Optic.addItems] using ho
  | o :: os, o' :: os', out, out', h, ho => by
    simp only [SameNamesL] at h
    rw [Optic.addItems, Optic.addItems, h.1.name]
    exact SameNamesL.keys os os' h.2 (keys_fold (SameNames.keys o o' h.1) (keys_set ho))
  | [], _ :: _, _, _, h, _ => by simp [SameNamesL] at h
  | _ :: _, [], _, _, h, _ => by simp [SameNamesL] at h
end

/-- The same names give the same short names. -/
theorem SameNames.names {o o' : Optic F} (h : SameNames o o') : o.names = o'.names := by
  rw [Optic.names, Optic.names, h.keys]

end names

/-! ## Reachable objects -/

/-- The objects an object consists of. -/
inductive Reach (h : Heap F) : ℕ → ℕ → Prop
  | refl (r : ℕ) : Reach h r r
  | item {r i x : ℕ} {d is a b} : h[r]? = some (.comp d is a b) → i ∈ is → Reach h i x → Reach h r x

/-- All of them were created after the first `N` objects. -/
def Fresh (N : ℕ) (h : Heap F) (r : ℕ) : Prop := ∀ x, Reach h r x → N ≤ x

omit [OfNat F 0] [OfNat F 1] in
/-- Later objects do not become part of earlier ones. -/
theorem Reach.of_ext {h h' : Heap F} (e : Ext h h') (ho : Older h) {r x : ℕ} (hx : Reach h' r x) (hr : r < h.length) : Reach h r x := by
  induction hx with
  | refl r => exact .refl r
  | @item r i x d is a b hc hmem _ ih =>
    match hcell : h[r]? with
    | none => simp [hr] at hcell
    | some (.iface d' a' b' x' y') =>
      obtain ⟨a2, b2, h2⟩ := e.iface hcell
      rw [h2] at hc; cases hc
    | some (.comp d' is' a' b') =>
      obtain ⟨a2, b2, h2⟩ := e.comp hcell
      rw [h2] at hc; cases hc
      exact .item hcell hmem (ih (lt_trans (ho _ _ _ _ _ hcell i hmem) hr))

omit [OfNat F 0] [OfNat F 1] in
theorem Reach.ext {h h' : Heap F} (e : Ext h h') {r x : ℕ} (hx : Reach h r x) : Reach h' r x := by
  induction hx with
  | refl r => exact .refl r
  | item hc hmem _ ih =>
    obtain ⟨a2, b2, h2⟩ := e.comp hc
    exact .item h2 hmem ih

omit [OfNat F 0] [OfNat F 1] in
theorem Repr.lt {h : Heap F} {r : ℕ} {o : Optic F} (hr : Repr h r o) : r < h.length := by
  obtain ⟨c, hc, -⟩ := hr.fetch
  exact lt_of_get hc

omit [OfNat F 0] [OfNat F 1] in
theorem ReprL.lt {h : Heap F} : ∀ {is : List ℕ} {os : List (Optic F)}, ReprL h is os → ∀ i ∈ is, i < h.length
  | [], [], _, i, hi => by simp at hi
  | j :: is, o :: os, hl, i, hi => by
    simp only [ReprL] at hl
    rcases List.mem_cons.1 hi with rfl | hi
    · exact hl.1.lt
    · exact ReprL.lt hl.2 i hi
  | [], _ :: _, hl, _, _ => by simp [ReprL] at hl
  | _ :: _, [], hl, _, _ => by simp [ReprL] at hl

omit [OfNat F 0] [OfNat F 1] in
theorem Fresh.ext {N : ℕ} {h h' : Heap F} (e : Ext h h') (ho : Older h) {r : ℕ} (hr : r < h.length) (hf : Fresh N h r) : Fresh N h' r :=
  fun x hx => hf x (hx.of_ext e ho hr)

/-! ## Constructors -/

theorem init_same {d d' : Iface F} (h : Iface.init d = .ok d') : d'.name = d.name ∧ d'.obscuration = d.obscuration := by
  unfold Iface.init at h
  have : ∀ x : Iface F, x.resetCoatings.name = x.name ∧ x.resetCoatings.obscuration = x.obscuration := by
    intro x
    unfold Iface.resetCoatings
    split <;> exact ⟨rfl, rfl⟩
  split at h
  · split at h
    · cases h; exact this _
    · cases h
  · cases h; exact this _

theorem inner_annulus (ob : Option (Obsc F)) : ∀ v, annulusInner ob = some v → innerOf ob = some v := by
  intro v hv
  cases ob with
  | none => simp [annulusInner] at hv
  | some o =>
    simp only [annulusInner, innerOf] at hv ⊢
    cases hcore : core o <;> rw [hcore] at hv <;> simp_all

theorem ifaceCell_radii {d : Iface F} {rIn rOut : Option (Option F)} (h1 : ∀ v, rIn = some v → v = innerOf d.obscuration)
    (h2 : ∀ v, rOut = some v → v = outerOf d.obscuration) : RadiiOk (ifaceCell d rIn rOut) := by
  have e1 : rIn.getD (innerOf d.obscuration) = innerOf d.obscuration := by
    cases rIn with
    | none => rfl
    | some v => exact h1 v rfl
  have e3 : (match annulusInner d.obscuration with | some v => some v | none => innerOf d.obscuration) = innerOf d.obscuration := by
    cases ha : annulusInner d.obscuration with
    | none => rfl
    | some v => exact (inner_annulus _ _ ha).symm
  unfold ifaceCell
  simp only [e1]
  cases ho : outerOf d.obscuration with
  | some v =>
    refine ⟨fun w hw => ?_, ?_, e3, ho.symm⟩
    · cases hw; rfl
    · exact h2
  | none =>
    have e2 : rOut.getD none = none := by
      cases rOut with
      | none => rfl
      | some v => rw [ho] at h2; exact h2 v rfl
    refine ⟨fun w hw => ?_, fun w hw => ?_, e3, ?_⟩
    · cases hw; rfl
    · cases hw; rw [ho]; exact e2
    · rw [ho]; exact e2

theorem ifaceCell_iface (d : Iface F) (rIn rOut : Option (Option F)) : ∃ a b x y, ifaceCell d rIn rOut = .iface d a b x y := by
  unfold ifaceCell
  simp only
  split <;> exact ⟨_, _, _, _, rfl⟩

omit [OfNat F 0] [OfNat F 1] in
theorem get_new (h : Heap F) (c : Cell F) : (h ++ [c])[h.length]? = some c := by simp

theorem newIface_refines {d : Iface F} {rIn rOut : Option (Option F)} {N : ℕ} (hi : Inv rad h)
    (h1 : rad → ∀ v, rIn = some v → v = innerOf d.obscuration) (h2 : rad → ∀ v, rOut = some v → v = outerOf d.obscuration)
    (hN : N ≤ h.length) :
    Refines rad h (newIface d rIn rOut) ((Iface.init d).map .iface)
      (fun h' r o => Repr h' r o ∧ Fresh N h' r ∧ ∃ d', o = .iface d' ∧ d'.name = d.name) := by
  unfold newIface
  cases hd : Iface.init d with
  | error e => exact Refines.raise hi e
  | ok d' =>
    obtain ⟨hn, ho⟩ := init_same hd
    obtain ⟨a, b, x, y, hcell⟩ := ifaceCell_iface d' rIn rOut
    refine ⟨hi.alloc ?_ ?_, ext_append _ _, ?_, ?_, d', rfl, hn⟩
    · intro d is a' b' hh
      rw [hcell] at hh; cases hh
    · have : rad → RadiiOk (ifaceCell d' rIn rOut) := fun hrad =>
        ifaceCell_radii (by rw [ho]; exact h1 hrad) (by rw [ho]; exact h2 hrad)
      rw [hcell] at this ⊢
      exact this
    · simp only [Repr]
      exact ⟨a, b, x, y, by rw [← hcell]; exact get_new _ _⟩
    · intro z hz
      cases hz with
      | refl => exact hN
      | item hc => 
        have := get_new h (ifaceCell d' rIn rOut)
        rw [hcell] at this
        rw [show (alloc (ifaceCell d' rIn rOut) h).2 = h ++ [ifaceCell d' rIn rOut] from rfl, hcell, this] at hc
        cases hc

/-- What a new compound needs for its cached names to be right. -/
theorem alloc_comp_refines {d : Comp F} {is : List ℕ} {os : List (Optic F)} {ns : Option (Dict Name Name)} {N : ℕ} (hi : Inv rad h)
    (hl : ReprL h is os) (hns : ∀ x, ns = some x → x = (Optic.compound d os).names) (hN : N ≤ h.length) :
    Refines rad h (alloc (.comp d is none ns)) (.ok (.compound d os))
      (fun h' r o => Repr h' r o ∧ ((∀ i ∈ is, Fresh N h i) → Fresh N h' r)) := by
  have hr : Repr (h ++ [.comp d is none ns]) h.length (.compound d os) := by
    simp only [Repr]
    exact ⟨is, none, ns, get_new _ _, hl.ext (ext_append _ _) os⟩
  have hold : Older (h ++ [.comp d is none ns]) :=
    (Inv.alloc (rad := False) (c := .comp d is none none) ⟨hi.older, fun r c hc => by
      have := hi.caches r c hc
      cases c with
      | iface => exact fun hf => hf.elim
      | comp => exact this⟩ (fun d' is' a b hh => by cases hh; exact hl.lt) ⟨by simp, by simp⟩).older |> fun ho => by
        intro r d' is' a b hc i hmem
        by_cases hlt : r < h.length
        · rw [List.getElem?_append_left hlt] at hc
          exact hi.older _ _ _ _ _ hc i hmem
        · have hr' := lt_of_get hc
          simp only [List.length_append, List.length_singleton] at hr'
          have e : r = h.length := by omega
          subst e
          rw [get_new] at hc
          cases hc
          exact hl.lt i hmem
  refine ⟨hi.alloc ?_ ⟨by simp, ?_⟩, ext_append _ _, hr, ?_⟩
  · intro d' is' a b hh
    cases hh
    exact hl.lt
  · intro x hx
    rw [hns x hx, Optic.names, (freshDict_rel hold _ hr (Nat.lt_succ_self _)).keys]
  · intro hf z hz
    cases hz with
    | refl => exact hN
    | @item _ i _ d' is' a b hc hmem hz =>
      rw [show (alloc (.comp d is none ns) h).2 = h ++ [.comp d is none ns] from rfl] at hc hz
      rw [get_new] at hc
      cases hc
      exact hf i hmem z (hz.of_ext (ext_append _ _) hi.older (hl.lt i hmem))

theorem newComp_refines {d : Comp F} {is : List ℕ} {os : List (Optic F)} {ns : Option (Dict Name Name)} {N : ℕ} (hi : Inv rad h)
    (hl : ReprL h is os) (hns : ∀ x, ns = some x → x = (Optic.compound d os).names) (hN : N ≤ h.length) :
    Refines rad h (newComp d is ns) (Optic.mkCompound d os)
      (fun h' r o => Repr h' r o ∧ ((∀ i ∈ is, Fresh N h i) → Fresh N h' r)) := by
  have hns' : ∀ x, ns = some x → x = (Optic.compound { d with skip := false } os).names := fun x hx => by
    rw [hns x hx]
    exact SameNames.names (by rw [SameNames]; exact ⟨rfl, SameNamesL.refl os⟩)
  unfold newComp Optic.mkCompound
  by_cases hlens : d.isLens = true
  · rw [if_pos hlens, if_pos hlens]
    match is, os, hl with
    | [], [], _ => exact Refines.raise hi _
    | [a], [o], _ => exact Refines.raise hi _
    | [a, b], [o, p], hl =>
      have hl' := hl
      simp only [ReprL] at hl'
      obtain ⟨ca, hca, -, -, -, hout⟩ := hl'.1.fetch
      obtain ⟨cb, hcb, -, -, hin, -⟩ := hl'.2.1.fetch
      refine Refines.fetch hca (Refines.fetch hcb ?_)
      rw [hout, hin]
      simp only
      by_cases hm : o.outMedium = p.inMedium
      · rw [if_pos hm, if_pos hm]
        exact alloc_comp_refines hi hl hns' hN
      · rw [if_neg hm, if_neg hm]
        exact Refines.raise hi _
    | _ :: _ :: _ :: _, _ :: _ :: _ :: _, _ => exact Refines.raise hi _
    | [], _ :: _, hl => simp [ReprL] at hl
    | _ :: _, [], hl => simp [ReprL] at hl
    | [_], _ :: _ :: _, hl => simp [ReprL] at hl
    | _ :: _ :: _, [_], hl => simp [ReprL] at hl
    | [_, _], _ :: _ :: _ :: _, hl => simp [ReprL] at hl
    | _ :: _ :: _ :: _, [_, _], hl => simp [ReprL] at hl
  · rw [if_neg hlens, if_neg hlens]
    exact alloc_comp_refines hi hl hns' hN

/-! ## Full copies -/

mutual
/-- The copies on values that change the attributes by `fI` and `fC`. -/
noncomputable def copyTree (fI : Iface F → Iface F) (fC : Comp F → Comp F) : Optic F → Except PyErr (Optic F)
  | .iface d => (Iface.init (fI d)).map .iface
  | .compound d os => do
    let os' ← copyTreeL fI fC os
    Optic.mkCompound (fC d) os'
noncomputable def copyTreeL (fI : Iface F → Iface F) (fC : Comp F → Comp F) : List (Optic F) → Except PyErr (List (Optic F))
  | [] => .ok []
  | o :: os => do
    let o' ← copyTree fI fC o
    let os' ← copyTreeL fI fC os
    pure (o' :: os')
end

omit [OfNat F 0] [OfNat F 1] in
theorem mkCompound_result {d : Comp F} {os : List (Optic F)} {o : Optic F} (hm : Optic.mkCompound d os = .ok o) :
    o = .compound { d with skip := false } os := by
  unfold Optic.mkCompound at hm
  split at hm
  · split at hm
    · split at hm
      · cases hm; rfl
      · cases hm
    · cases hm
  · cases hm; rfl

/-- What is known about a copy: it represents the copied value, all its objects are new, and names are kept. -/
def CopyOf (N : ℕ) (o : Optic F) (h : Heap F) (r' : ℕ) (o' : Optic F) : Prop := Repr h r' o' ∧ Fresh N h r' ∧ SameNames o o'

theorem iface_caches {r : ℕ} {d : Iface F} {a b x y} (hi : Inv rad h) (hc : h[r]? = some (.iface d a b x y)) :
    (rad → ∀ v, a = some v → v = innerOf d.obscuration) ∧ (rad → ∀ v, b = some v → v = outerOf d.obscuration) :=
  ⟨fun hr => (hi.caches r _ hc hr).1, fun hr => (hi.caches r _ hc hr).2.1⟩

theorem comp_names {r : ℕ} {d : Comp F} {os : List (Optic F)} {is a b} (hi : Inv rad h) (hr : Repr h r (.compound d os))
    (hc : h[r]? = some (.comp d is a b)) : ∀ ns, b = some ns → ns = (Optic.compound d os).names := fun ns hns => by
  rw [(hi.caches r _ hc).2 ns hns, Optic.names, (freshDict_rel hi.older _ hr (Nat.lt_succ_self r)).keys]

mutual
theorem copy_refines {fI : Iface F → Iface F} {fC : Comp F → Comp F} (h1 : ∀ d, (fI d).name = d.name ∧ (fI d).obscuration = d.obscuration)
    (h2 : ∀ d, (fC d).name = d.name) {N : ℕ} : ∀ (o : Optic F) {n r : ℕ} {h : Heap F}, Inv rad h → Repr h r o → r < n → N ≤ h.length →
    Refines rad h (copy fI fC n r) (copyTree fI fC o) (CopyOf N o)
  | .iface d, 0, r, h, _, _, hn, _ => absurd hn (by omega)
  | .compound d os, 0, r, h, _, _, hn, _ => absurd hn (by omega)
  | .iface d, n + 1, r, h, hi, hr, hn, hN => by
    simp only [Repr] at hr
    obtain ⟨a, b, x, y, hc⟩ := hr
    rw [copy, copyTree]
    refine Refines.fetch hc ?_
    obtain ⟨k1, k2⟩ := iface_caches hi hc
    refine (newIface_refines (d := fI d) hi (by rw [(h1 d).2]; exact k1) (by rw [(h1 d).2]; exact k2) hN).mono ?_
    rintro h' r' o' - - - ⟨hr', hf, d', rfl, hn'⟩
    exact ⟨hr', hf, by simp only [SameNames]; rw [hn', (h1 d).1]⟩
  | .compound d os, n + 1, r, h, hi, hr, hn, hN => by
    have hr0 := hr
    simp only [Repr] at hr
    obtain ⟨is, a, b, hc, hl⟩ := hr
    rw [copy, copyTree]
    refine Refines.fetch hc ?_
    refine Refines.bind (copyItems_refines h1 h2 os hi hl (fun i hm => by have := hi.older _ _ _ _ _ hc i hm; omega) hN) ?_
    rintro h' is' os' hi' e ⟨hl', hf, hs⟩
    have hsn : SameNames (.compound d os) (.compound (fC d) os') := by rw [SameNames]; exact ⟨(h2 d).symm, hs⟩
    refine (newComp_refines (d := fC d) (N := N) hi' hl' ?_ (le_trans hN e.length)).mono ?_
    · intro ns hns
      rw [comp_names hi hr0 hc ns hns]
      exact hsn.names
    · rintro h'' r' o' - - ho ⟨hr', hf'⟩
      refine ⟨hr', hf' hf, ?_⟩
      rw [mkCompound_result ho]
      rw [SameNames] at hsn ⊢
      exact hsn
theorem copyItems_refines {fI : Iface F → Iface F} {fC : Comp F → Comp F}
    (h1 : ∀ d, (fI d).name = d.name ∧ (fI d).obscuration = d.obscuration)
    (h2 : ∀ d, (fC d).name = d.name) {N : ℕ} : ∀ (os : List (Optic F)) {n : ℕ} {is : List ℕ} {h : Heap F}, Inv rad h → ReprL h is os →
    (∀ i ∈ is, i < n) → N ≤ h.length →
    Refines rad h (mapItems (copy fI fC n) is) (copyTreeL fI fC os)
      (fun h' is' os' => ReprL h' is' os' ∧ (∀ i ∈ is', Fresh N h' i) ∧ SameNamesL os os')
  | [], n, [], h, hi, hl, _, _ => by
    rw [mapItems, copyTreeL]
    exact Refines.pure hi ⟨by simp [ReprL], by simp, by simp [SameNamesL]⟩
  | o :: os, n, i :: is, h, hi, hl, hn, hN => by
    simp only [ReprL] at hl
    rw [mapItems, copyTreeL]
    refine Refines.bind (copy_refines h1 h2 o hi hl.1 (hn i (by simp)) hN) ?_
    rintro h' i' o' hi' e ⟨hr', hf, hs⟩
    refine Refines.bind (copyItems_refines h1 h2 os hi' (hl.2.ext e os) (fun j hj => hn j (by simp [hj])) (le_trans hN e.length)) ?_
    rintro h'' is' os' hi'' e' ⟨hl', hf', hs'⟩
    refine Refines.pure hi'' ⟨?_, ?_, ?_⟩
    · simp only [ReprL]; exact ⟨hr'.ext e', hl'⟩
    · intro j hj
      rcases List.mem_cons.1 hj with rfl | hj
      · exact hf.ext e' hi'.older hr'.lt
      · exact hf' j hj
    · rw [SameNamesL]; exact ⟨hs, hs'⟩
  | [], n, _ :: _, h, _, hl, _, _ => by simp [ReprL] at hl
  | _ :: _, n, [], h, _, hl, _, _ => by simp [ReprL] at hl
end

section moves
variable [Add F] [Sub F] [Mul F]

mutual
theorem shift_copyTree (shift : V3 F) : ∀ o : Optic F, o.withGlobalShift shift =
    copyTree (fun d => { d with coordSys := d.coordSys.shiftGlobal shift, stop := d.stop.map (·.globalShift shift) })
      (fun d => { d with coordSys := d.coordSys.shiftGlobal shift, stop := d.stop.map (·.globalShift shift) }) o
  | .iface d => by rw [Optic.withGlobalShift, copyTree]; rfl
  | .compound d os => by rw [Optic.withGlobalShift, copyTree, shift_copyTreeL shift os]
theorem shift_copyTreeL (shift : V3 F) : ∀ os : List (Optic F), Optic.shiftItems shift os =
    copyTreeL (fun d => { d with coordSys := d.coordSys.shiftGlobal shift, stop := d.stop.map (·.globalShift shift) })
      (fun d => { d with coordSys := d.coordSys.shiftGlobal shift, stop := d.stop.map (·.globalShift shift) }) os
  | [] => by rw [Optic.shiftItems, copyTreeL]
  | o :: os => by rw [Optic.shiftItems, copyTreeL, shift_copyTree shift o, shift_copyTreeL shift os]
end

mutual
theorem rotate_copyTree (rot : M3 F) (ce : V3 F) (cs : Option (CoordSys F)) : ∀ o : Optic F, o.withGlobalRotation rot ce cs =
    copyTree (fun d => { d with coordSys := d.coordSys.rotateGlobal rot ce cs, stop := d.stop.map (·.globalRotation rot ce cs) })
      (fun d => { d with coordSys := d.coordSys.rotateGlobal rot ce cs, stop := d.stop.map (·.globalRotation rot ce cs) }) o
  | .iface d => by rw [Optic.withGlobalRotation, copyTree]; rfl
  | .compound d os => by rw [Optic.withGlobalRotation, copyTree, rotate_copyTreeL rot ce cs os]
theorem rotate_copyTreeL (rot : M3 F) (ce : V3 F) (cs : Option (CoordSys F)) : ∀ os : List (Optic F), Optic.rotateItems rot ce cs os =
    copyTreeL (fun d => { d with coordSys := d.coordSys.rotateGlobal rot ce cs, stop := d.stop.map (·.globalRotation rot ce cs) })
      (fun d => { d with coordSys := d.coordSys.rotateGlobal rot ce cs, stop := d.stop.map (·.globalRotation rot ce cs) }) os
  | [] => by rw [Optic.rotateItems, copyTreeL]
  | o :: os => by rw [Optic.rotateItems, copyTreeL, rotate_copyTree rot ce cs o, rotate_copyTreeL rot ce cs os]
end

theorem withGlobalShift_refines {N r : ℕ} {o : Optic F} (shift : V3 F) (hi : Inv rad h) (hr : Repr h r o) (hN : N ≤ h.length) :
    Refines rad h (ObjHeap.withGlobalShift shift r) (o.withGlobalShift shift) (CopyOf N o) := by
  rw [shift_copyTree, ObjHeap.withGlobalShift]
  refine copy_refines ?_ ?_ o hi hr (Nat.lt_succ_self r) hN
  · exact fun d => ⟨rfl, rfl⟩
  · exact fun d => rfl

theorem withGlobalRotation_refines {N r : ℕ} {o : Optic F} (rot : M3 F) (ce : V3 F) (cs : Option (CoordSys F)) (hi : Inv rad h)
    (hr : Repr h r o) (hN : N ≤ h.length) :
    Refines rad h (ObjHeap.withGlobalRotation rot ce cs r) (o.withGlobalRotation rot ce cs) (CopyOf N o) := by
  rw [rotate_copyTree, ObjHeap.withGlobalRotation]
  refine copy_refines ?_ ?_ o hi hr (Nat.lt_succ_self r) hN
  · exact fun d => ⟨rfl, rfl⟩
  · exact fun d => rfl

theorem withLocalShift_refines {N r : ℕ} {o : Optic F} (shift : V3 F) (hi : Inv rad h) (hr : Repr h r o) (hN : N ≤ h.length) :
    Refines rad h (ObjHeap.withLocalShift shift r) (o.withLocalShift shift) (CopyOf N o) := by
  obtain ⟨c, hc, -, hcs, -⟩ := hr.fetch
  rw [Optic.withLocalShift, ObjHeap.withLocalShift]
  refine Refines.fetch hc ?_
  rw [hcs]
  exact withGlobalShift_refines _ hi hr hN

theorem withLocalRotation_refines {N r : ℕ} {o : Optic F} (rot : M3 F) (ce : V3 F) (cs : Option (CoordSys F)) (hi : Inv rad h)
    (hr : Repr h r o) (hN : N ≤ h.length) :
    Refines rad h (ObjHeap.withLocalRotation rot ce cs r) (o.withLocalRotation rot ce cs) (CopyOf N o) := by
  have hr0 := hr
  rw [ObjHeap.withLocalRotation]
  cases o with
  | iface d =>
    simp only [Repr] at hr
    obtain ⟨a, b, x, y, hc⟩ := hr
    refine Refines.fetch hc ?_
    obtain ⟨k1, k2⟩ := iface_caches hi hc
    refine Refines.mono (newIface_refines hi ?_ ?_ hN) ?_
    · exact k1
    · exact k2
    · rintro h' r' o' - - - ⟨hr', hf, d', rfl, hn'⟩
      exact ⟨hr', hf, by simp only [SameNames]; rw [hn']⟩
  | compound d os =>
    simp only [Repr] at hr
    obtain ⟨is, a, b, hc, -⟩ := hr
    refine Refines.fetch hc ?_
    exact withGlobalRotation_refines _ _ _ hi hr0 hN

end moves

theorem setSurface_refines {N r : ℕ} {o : Optic F} (s : Surface F) (hi : Inv rad h) (hr : Repr h r o) (hN : N ≤ h.length) :
    Refines rad h (ObjHeap.setSurface s r) (o.setSurface s) (CopyOf N o) := by
  rw [ObjHeap.setSurface]
  cases o with
  | iface d =>
    simp only [Repr] at hr
    obtain ⟨a, b, x, y, hc⟩ := hr
    refine Refines.fetch hc ?_
    obtain ⟨k1, k2⟩ := iface_caches hi hc
    refine Refines.mono (newIface_refines hi ?_ ?_ hN) ?_
    · exact k1
    · exact k2
    · rintro h' r' o' - - - ⟨hr', hf, d', rfl, hn'⟩
      exact ⟨hr', hf, by simp only [SameNames]; rw [hn']⟩
  | compound d os =>
    simp only [Repr] at hr
    obtain ⟨is, a, b, hc, -⟩ := hr
    exact Refines.fetch hc (Refines.raise hi _)

/-! ## Copies with one named item changed -/

/-- What is known about an edited optic: it represents the edited value, and names are kept. -/
def EditOf (o : Optic F) (h : Heap F) (r' : ℕ) (o' : Optic F) : Prop := Repr h r' o' ∧ SameNames o o'

/-- What the methods do at the named optic is the same on objects as on values. -/
structure OpRefines (rad : Prop) (op : ObjHeap.NamedOp F) (t : Optic.NamedOp F) : Prop where
  self : ∀ (h : Heap F) (r : ℕ) (o : Optic F), Inv rad h → Repr h r o → Refines rad h (op.onSelf r) (t.onSelf o) (EditOf o)
  item : ∀ (h : Heap F) (r : ℕ) (o : Optic F), Inv rad h → Repr h r o → Refines rad h (op.onItem r) (t.onItem o) (EditOf o)
  iface : op.onIface = t.onIface

mutual
theorem applyNamed_refines {op : ObjHeap.NamedOp F} {t : Optic.NamedOp F} (ho : OpRefines rad op t) : ∀ (o : Optic F) {n r : ℕ} {h : Heap F}
    {nm : Name}, Inv rad h → Repr h r o → r < n → Refines rad h (ObjHeap.applyNamed op n r nm) (o.applyNamed t nm) (EditOf o)
  | .iface d, 0, r, h, _, _, _, hn => absurd hn (by omega)
  | .compound d os, 0, r, h, _, _, _, hn => absurd hn (by omega)
  | .iface d, n + 1, r, h, nm, hi, hr, hn => by
    simp only [Repr] at hr
    obtain ⟨a, b, x, y, hc⟩ := hr
    rw [ObjHeap.applyNamed, Optic.applyNamed, ← ho.iface]
    exact Refines.fetch hc (Refines.raise hi _)
  | .compound d os, n + 1, r, h, nm, hi, hr, hn => by
    have hr0 := hr
    simp only [Repr] at hr
    obtain ⟨is, a, b, hc, hl⟩ := hr
    rw [ObjHeap.applyNamed, Optic.applyNamed]
    refine Refines.fetch hc ?_
    refine Refines.step (names_refines hi hr0) fun h1 ns hi1 e1 hns => ?_
    subst hns
    refine Refines.step (itemDict_refines hi1 (hr0.ext e1)) fun h2 D hi2 e2 hD => ?_
    have e12 := e1.trans e2
    rw [hD.has]
    split
    · exact Refines.raise hi2 _
    · split
      · exact ho.self _ _ _ hi2 (hr0.ext e12)
      · split
        · refine Refines.bind (applyItems_refines ho os hi2 (hl.ext e12 os) (fun i hm => by have := hi.older _ _ _ _ _ hc i hm; omega)) ?_
          rintro h3 is' os' hi3 e3 ⟨hl', hs⟩
          have hsn : SameNames (.compound d os) (.compound d os') := by rw [SameNames]; exact ⟨rfl, hs⟩
          refine (newComp_refines (N := 0) hi3 hl' ?_ (Nat.zero_le _)).mono ?_
          · rintro x hx
            cases hx
            exact hsn.names
          · rintro h4 r' o' - - hok ⟨hr', -⟩
            refine ⟨hr', ?_⟩
            rw [mkCompound_result hok]
            rw [SameNames] at hsn ⊢
            exact hsn
        · exact Refines.raise hi2 _
theorem applyItems_refines {op : ObjHeap.NamedOp F} {t : Optic.NamedOp F} (ho : OpRefines rad op t) : ∀ (os : List (Optic F)) {n : ℕ}
    {is : List ℕ} {h : Heap F} {nm : Name}, Inv rad h → ReprL h is os → (∀ i ∈ is, i < n) →
    Refines rad h (ObjHeap.applyItems op.onItem (ObjHeap.applyNamed op n) is nm) (Optic.applyItems t os nm)
      (fun h' is' os' => ReprL h' is' os' ∧ SameNamesL os os')
  | [], n, [], h, nm, hi, hl, hn => by
    rw [ObjHeap.applyItems, Optic.applyItems]
    exact Refines.raise hi _
  | o :: os, n, i :: is, h, nm, hi, hl, hn => by
    simp only [ReprL] at hl
    obtain ⟨c, hc, hcn, -⟩ := hl.1.fetch
    rw [ObjHeap.applyItems, Optic.applyItems]
    refine Refines.fetch hc ?_
    rw [hcn]
    by_cases hp : o.name.isPrefixOf nm = true
    · rw [if_pos hp, if_pos hp]
      have key : ∀ {m : M F ℕ} {tr : Except PyErr (Optic F)}, Refines rad h m tr (EditOf o) →
          Refines rad h (m >>= fun i' => pure (i' :: is)) (tr >>= fun o' => pure (o' :: os))
            (fun h' is' os' => ReprL h' is' os' ∧ SameNamesL (o :: os) os') := fun hm =>
        Refines.bind hm fun h' i' o' hi' e hh => Refines.pure hi'
          ⟨by simp only [ReprL]; exact ⟨hh.1, hl.2.ext e os⟩, by rw [SameNamesL]; exact ⟨hh.2, SameNamesL.refl os⟩⟩
      by_cases hnm : nm = o.name
      · simp only [if_pos hnm]
        exact key (ho.item _ _ _ hi hl.1)
      · simp only [if_neg hnm]
        exact key (applyNamed_refines ho o hi hl.1 (hn i (by simp)))
    · rw [if_neg hp, if_neg hp]
      refine Refines.bind (applyItems_refines ho os hi hl.2 (fun j hj => hn j (by simp [hj]))) ?_
      rintro h' is' os' hi' e ⟨hl', hs⟩
      refine Refines.pure hi' ⟨?_, ?_⟩
      · simp only [ReprL]; exact ⟨hl.1.ext e, hl'⟩
      · rw [SameNamesL]; exact ⟨SameNames.refl o, hs⟩
  | [], n, _ :: _, h, _, _, hl, _ => by simp [ReprL] at hl
  | _ :: _, n, [], h, _, _, hl, _ => by simp [ReprL] at hl
end

omit [OfNat F 0] [OfNat F 1] in
theorem CopyOf.edit {N : ℕ} {o : Optic F} {h : Heap F} {r' : ℕ} {o' : Optic F} (hc : CopyOf N o h r' o') : EditOf o h r' o' := ⟨hc.1, hc.2.2⟩

section moves
variable [Add F] [Sub F] [Mul F]

theorem withGloballyShiftedOptic_refines {r : ℕ} {o : Optic F} (nm : Name) (shift : V3 F) (hi : Inv rad h) (hr : Repr h r o) :
    Refines rad h (ObjHeap.withGloballyShiftedOptic r nm shift) (o.withGloballyShiftedOptic nm shift) (EditOf o) := by
  have h1 : ∀ (h : Heap F) (r : ℕ) (o : Optic F), Inv rad h → Repr h r o →
      Refines rad h (ObjHeap.withGlobalShift shift r) (o.withGlobalShift shift) (EditOf o) := fun h r o hi hr =>
    (withGlobalShift_refines shift hi hr (Nat.zero_le _)).mono fun _ _ _ _ _ _ hc => hc.edit
  exact applyNamed_refines ⟨h1, h1, rfl⟩ o hi hr (Nat.lt_succ_self r)

theorem withLocallyShiftedOptic_refines {r : ℕ} {o : Optic F} (nm : Name) (shift : V3 F) (hi : Inv rad h) (hr : Repr h r o) :
    Refines rad h (ObjHeap.withLocallyShiftedOptic r nm shift) (o.withLocallyShiftedOptic nm shift) (EditOf o) := by
  rw [ObjHeap.withLocallyShiftedOptic]
  cases o with
  | iface d =>
    simp only [Repr] at hr
    obtain ⟨a, b, x, y, hc⟩ := hr
    exact Refines.fetch hc (Refines.raise hi _)
  | compound d os =>
    have hr0 := hr
    simp only [Repr] at hr
    obtain ⟨is, a, b, hc, hl⟩ := hr
    refine Refines.fetch hc ?_
    refine Refines.step (names_refines hi hr0) fun h1 ns hi1 e1 hns => ?_
    subst hns
    refine Refines.step (itemDict_refines hi1 (hr0.ext e1)) fun h2 D hi2 e2 hD => ?_
    simp only [Optic.withLocallyShiftedOptic]
    rcases hD.get (k := ((Optic.compound d os).names.get? nm).getD nm) with ⟨k1, k2⟩ | ⟨x, y, k1, k2, hxy⟩
    · rw [k1, k2]
      exact Refines.raise hi2 _
    · rw [k1, k2]
      obtain ⟨c, hcx, -, hcs, -⟩ := hxy.fetch
      refine Refines.fetch hcx ?_
      rw [hcs]
      exact withGloballyShiftedOptic_refines _ _ hi2 (hr0.ext (e1.trans e2))

theorem withLocallyRotatedOptic_refines {r : ℕ} {o : Optic F} (nm : Name) (rot : M3 F) (ce : V3 F) (cs : Option (CoordSys F)) (hi : Inv rad h)
    (hr : Repr h r o) :
    Refines rad h (ObjHeap.withLocallyRotatedOptic r nm rot ce cs) (o.withLocallyRotatedOptic nm rot ce cs) (EditOf o) := by
  rw [ObjHeap.withLocallyRotatedOptic]
  cases o with
  | iface d =>
    simp only [Repr] at hr
    obtain ⟨a, b, x, y, hc⟩ := hr
    exact Refines.fetch hc (Refines.raise hi _)
  | compound d os =>
    have hr0 := hr
    simp only [Repr] at hr
    obtain ⟨is, a, b, hc, hl⟩ := hr
    refine Refines.fetch hc ?_
    refine Refines.step (names_refines hi hr0) fun h1 ns hi1 e1 hns => ?_
    subst hns
    refine Refines.step (itemDict_refines hi1 (hr0.ext e1)) fun h2 D hi2 e2 hD => ?_
    simp only [Optic.withLocallyRotatedOptic]
    rcases hD.get (k := ((Optic.compound d os).names.get? nm).getD nm) with ⟨k1, k2⟩ | ⟨x, y, k1, k2, hxy⟩
    · rw [k1, k2]
      exact Refines.raise hi2 _
    · rw [k1, k2]
      obtain ⟨c, hcx, -, hcs, -⟩ := hxy.fetch
      refine Refines.fetch hcx ?_
      rw [hcs]
      have h1 : ∀ (h : Heap F) (r : ℕ) (o : Optic F), Inv rad h → Repr h r o →
          Refines rad h (ObjHeap.withLocalRotation rot ce (some (cs.getD y.coordSys)) r)
            (o.withLocalRotation rot ce (some (cs.getD y.coordSys))) (EditOf o) := fun h r o hi hr =>
        (withLocalRotation_refines _ _ _ hi hr (Nat.zero_le _)).mono fun _ _ _ _ _ _ hc => hc.edit
      exact applyNamed_refines ⟨h1, h1, rfl⟩ _ hi2 (hr0.ext (e1.trans e2)) (Nat.lt_succ_self r)

end moves

theorem withSurface_refines {r : ℕ} {o : Optic F} (nm : Name) (s : Surface F) (hi : Inv rad h) (hr : Repr h r o) :
    Refines rad h (ObjHeap.withSurface r nm s) (o.withSurface nm s) (EditOf o) := by
  refine applyNamed_refines ⟨fun h r o hi hr => Refines.raise hi _, fun h r o hi hr => ?_, rfl⟩ o hi hr (Nat.lt_succ_self r)
  exact (setSurface_refines s hi hr (Nat.zero_le _)).mono fun _ _ _ _ _ _ hc => hc.edit

theorem insertLoop_refines {ns : Dict Name Name} {before : Name} {x : ℕ} {ox : Optic F} : ∀ (os : List (Optic F)) {is : List ℕ} {h : Heap F},
    Inv rad h → Repr h x ox → ReprL h is os →
    Refines rad h (ObjHeap.insertLoop ns before x is) (Optic.insertLoop ns before ox os) ReprL
  | [], [], h, hi, _, _ => by
    rw [ObjHeap.insertLoop, Optic.insertLoop]
    exact Refines.pure hi (by simp [ReprL])
  | o :: os, i :: is, h, hi, hx, hl => by
    simp only [ReprL] at hl
    obtain ⟨c, hc, hcn, -⟩ := hl.1.fetch
    rw [ObjHeap.insertLoop, Optic.insertLoop]
    refine Refines.fetch hc ?_
    rw [hcn]
    cases ns.get? o.name with
    | none => exact Refines.raise hi _
    | some a =>
      cases ns.get? before with
      | none => exact Refines.raise hi _
      | some b =>
        refine Refines.bind (insertLoop_refines os hi hx hl.2) fun h' is' os' hi' e hl' => Refines.pure hi' ?_
        by_cases hab : a = b
        · simp only [hab, if_true, List.cons_append, List.nil_append, ReprL]
          exact ⟨hx.ext e, hl.1.ext e, hl'⟩
        · simp only [hab, if_false, List.cons_append, List.nil_append, ReprL]
          exact ⟨hl.1.ext e, hl'⟩
  | [], _ :: _, _, _, _, hl => by simp [ReprL] at hl
  | _ :: _, [], _, _, _, hl => by simp [ReprL] at hl

theorem removeLoop_refines {ns : Dict Name Name} {item : Name} : ∀ (os : List (Optic F)) {is : List ℕ} {h : Heap F},
    Inv rad h → ReprL h is os → Refines rad h (ObjHeap.removeLoop ns item is) (Optic.removeLoop ns item os) ReprL
  | [], [], h, hi, _ => by
    rw [ObjHeap.removeLoop, Optic.removeLoop]
    exact Refines.pure hi (by simp [ReprL])
  | o :: os, i :: is, h, hi, hl => by
    simp only [ReprL] at hl
    obtain ⟨c, hc, hcn, -⟩ := hl.1.fetch
    rw [ObjHeap.removeLoop, Optic.removeLoop]
    refine Refines.fetch hc ?_
    rw [hcn]
    cases ns.get? o.name with
    | none => exact Refines.raise hi _
    | some a =>
      cases ns.get? item with
      | none => exact Refines.raise hi _
      | some b =>
        refine Refines.bind (removeLoop_refines os hi hl.2) fun h' is' os' hi' e hl' => Refines.pure hi' ?_
        by_cases hab : a = b
        · simp only [hab, if_true, List.nil_append]
          exact hl'
        · simp only [hab, if_false, List.cons_append, List.nil_append, ReprL]
          exact ⟨hl.1.ext e, hl'⟩
  | [], _ :: _, _, _, hl => by simp [ReprL] at hl
  | _ :: _, [], _, _, hl => by simp [ReprL] at hl

theorem withInsertedOptic_refines {r x : ℕ} {o ox : Optic F} (before : Name) (hi : Inv rad h) (hr : Repr h r o) (hx : Repr h x ox) :
    Refines rad h (ObjHeap.withInsertedOptic r before x) (o.withInsertedOptic before ox) Repr := by
  rw [ObjHeap.withInsertedOptic]
  cases o with
  | iface d =>
    simp only [Repr] at hr
    obtain ⟨a, b, x, y, hc⟩ := hr
    exact Refines.fetch hc (Refines.raise hi _)
  | compound d os =>
    have hr0 := hr
    simp only [Repr] at hr
    obtain ⟨is, a, b, hc, hl⟩ := hr
    refine Refines.fetch hc ?_
    refine Refines.step (names_refines hi hr0) fun h1 ns hi1 e1 hns => ?_
    subst hns
    refine Refines.step (itemDict_refines hi1 (hr0.ext e1)) fun h2 D hi2 e2 hD => ?_
    have e12 := e1.trans e2
    simp only [Optic.withInsertedOptic]
    rw [hD.has]
    split
    · exact Refines.raise hi2 _
    · refine Refines.bind (insertLoop_refines os hi2 (hx.ext e12) (hl.ext e12 os)) fun h3 is' os' hi3 e3 hl' => ?_
      exact (newComp_refines (N := 0) hi3 hl' (by simp) (Nat.zero_le _)).mono fun _ _ _ _ _ _ hh => hh.1

theorem withRemovedOptic_refines {r : ℕ} {o : Optic F} (item : Name) (hi : Inv rad h) (hr : Repr h r o) :
    Refines rad h (ObjHeap.withRemovedOptic r item) (o.withRemovedOptic item) Repr := by
  rw [ObjHeap.withRemovedOptic]
  cases o with
  | iface d =>
    simp only [Repr] at hr
    obtain ⟨a, b, x, y, hc⟩ := hr
    exact Refines.fetch hc (Refines.raise hi _)
  | compound d os =>
    have hr0 := hr
    simp only [Repr] at hr
    obtain ⟨is, a, b, hc, hl⟩ := hr
    refine Refines.fetch hc ?_
    refine Refines.step (names_refines hi hr0) fun h1 ns hi1 e1 hns => ?_
    subst hns
    refine Refines.step (itemDict_refines hi1 (hr0.ext e1)) fun h2 D hi2 e2 hD => ?_
    have e12 := e1.trans e2
    simp only [Optic.withRemovedOptic]
    rw [hD.has]
    split
    · exact Refines.raise hi2 _
    · refine Refines.bind (removeLoop_refines os hi2 (hl.ext e12 os)) fun h3 is' os' hi3 e3 hl' => ?_
      exact (newComp_refines (N := 0) hi3 hl' (by simp) (Nat.zero_le _)).mono fun _ _ _ _ _ _ hh => hh.1

/-! ## Radii -/

theorem rInner_refines {r : ℕ} {o : Optic F} (hi : Inv rad h) (hr : Repr h r o) :
    Inv rad (ObjHeap.rInner r h).2 ∧ Ext h (ObjHeap.rInner r h).2 := by
  have key : Refines rad h (ObjHeap.rInner r) (match o with | .iface _ => .ok () | .compound _ _ => .error .attributeError)
      (fun _ _ _ => True) := by
    rw [ObjHeap.rInner]
    cases o with
    | iface d =>
      simp only [Repr] at hr
      obtain ⟨a, b, x, y, hc⟩ := hr
      refine Refines.fetch hc ?_
      cases a with
      | some v => exact Refines.pure hi trivial
      | none =>
        refine Refines.modify hi hc ⟨rfl, rfl, rfl⟩ ?_ fun h' hi' _ => Refines.pure hi' trivial
        intro hrad
        obtain ⟨-, k2, k3, k4⟩ := hi.caches r _ hc hrad
        exact ⟨fun v hv => by cases hv; rfl, k2, k3, k4⟩
    | compound d os =>
      simp only [Repr] at hr
      obtain ⟨is, a, b, hc, -⟩ := hr
      exact Refines.fetch hc (Refines.raise hi _)
  exact ⟨key.1, key.2.1⟩

theorem rOuter_refines {r : ℕ} {o : Optic F} (hi : Inv rad h) (hr : Repr h r o) :
    Inv rad (ObjHeap.rOuter r h).2 ∧ Ext h (ObjHeap.rOuter r h).2 := by
  have key : Refines rad h (ObjHeap.rOuter r) (match o with | .iface _ => .ok () | .compound _ _ => .error .attributeError)
      (fun _ _ _ => True) := by
    rw [ObjHeap.rOuter]
    cases o with
    | iface d =>
      simp only [Repr] at hr
      obtain ⟨a, b, x, y, hc⟩ := hr
      refine Refines.fetch hc ?_
      cases b with
      | some v => exact Refines.pure hi trivial
      | none =>
        refine Refines.modify hi hc ⟨rfl, rfl, rfl⟩ ?_ fun h' hi' _ => Refines.pure hi' trivial
        intro hrad
        obtain ⟨k1, -, k3, k4⟩ := hi.caches r _ hc hrad
        exact ⟨k1, fun v hv => by cases hv; rfl, k3, k4⟩
    | compound d os =>
      simp only [Repr] at hr
      obtain ⟨is, a, b, hc, -⟩ := hr
      exact Refines.fetch hc (Refines.raise hi _)
  exact ⟨key.1, key.2.1⟩

/-! ## Modification in place -/

section clear
omit [OfNat F 0] [OfNat F 1]

/-- What `clearObscuration` does to one object. -/
def clearUnless (keep : List Name) : Cell F → Cell F
  | .iface d a b x y => if d.name ∈ keep then .iface d a b x y else .iface { d with obscuration := none } a b x y
  | c => c

theorem clearUnless_twice (keep : List Name) (c : Cell F) : clearUnless keep (clearUnless keep c) = clearUnless keep c := by
  cases c with
  | comp => rfl
  | iface d a b x y =>
    by_cases hk : d.name ∈ keep <;> simp [clearUnless, hk]

open Classical in
/-- The objects in `P` have been cleared. -/
def Cleared (keep : List Name) (P : ℕ → Prop) (h h' : Heap F) : Prop :=
  ∀ x, h'[x]? = if P x then (h[x]?).map (clearUnless keep) else h[x]?

variable {keep : List Name} {P Q : ℕ → Prop} {h h' h'' : Heap F}

theorem Cleared.trans (h1 : Cleared keep P h h') (h2 : Cleared keep Q h' h'') : Cleared keep (fun x => P x ∨ Q x) h h'' := by
  intro x
  rw [h2 x, h1 x]
  by_cases hp : P x <;> by_cases hq : Q x <;> simp [hp, hq, clearUnless_twice, Function.comp_def]

theorem Cleared.congr (h1 : Cleared keep P h h') (hPQ : ∀ x, P x ↔ Q x) : Cleared keep Q h h' := by
  intro x
  rw [h1 x]
  by_cases hp : P x
  · rw [if_pos hp, if_pos ((hPQ x).1 hp)]
  · rw [if_neg hp, if_neg (fun hq => hp ((hPQ x).2 hq))]

theorem Cleared.comp (h1 : Cleared keep P h h') {r : ℕ} {d is a b} : h'[r]? = some (.comp d is a b) ↔ h[r]? = some (.comp d is a b) := by
  rw [h1 r]
  split
  · cases hc : h[r]? with
    | none => simp
    | some c =>
      cases c with
      | comp => simp [clearUnless]
      | iface d' a' b' x y =>
        by_cases hk : d'.name ∈ keep <;> simp [clearUnless, hk]
  · exact Iff.rfl

theorem Cleared.cell (h1 : Cleared keep P h h') {r : ℕ} {c : Cell F} (hc : h[r]? = some c) :
    ∃ c', h'[r]? = some c' ∧ (c' = c ∨ c' = clearUnless keep c) := by
  rw [h1 r, hc]
  split
  · exact ⟨_, rfl, .inr rfl⟩
  · exact ⟨_, rfl, .inl rfl⟩

theorem Cleared.some (h1 : Cleared keep P h h') {r : ℕ} {c' : Cell F} (hc : h'[r]? = some c') :
    ∃ c, h[r]? = some c ∧ (c' = c ∨ c' = clearUnless keep c) := by
  rw [h1 r] at hc
  split at hc
  · obtain ⟨c, hc1, rfl⟩ := Option.map_eq_some_iff.1 hc
    exact ⟨c, hc1, .inr rfl⟩
  · exact ⟨c', hc, .inl rfl⟩

theorem Cleared.length (h1 : Cleared keep P h h') : h'.length = h.length := by
  apply le_antisymm
  · by_contra hlt
    push Not at hlt
    obtain ⟨c, hc, -⟩ := h1.some (List.getElem?_eq_getElem hlt)
    simp at hc
  · by_contra hlt
    push Not at hlt
    obtain ⟨c, hc, -⟩ := h1.cell (List.getElem?_eq_getElem hlt)
    simp at hc

theorem Cleared.older (h1 : Cleared keep P h h') (ho : Older h) : Older h' := fun r d is a b hc => ho r d is a b (h1.comp.1 hc)

theorem Cleared.reach (h1 : Cleared keep P h h') {r x : ℕ} : Reach h' r x ↔ Reach h r x := by
  constructor
  · intro hx
    induction hx with
    | refl r => exact .refl r
    | item hc hm _ ih => exact .item (h1.comp.1 hc) hm ih
  · intro hx
    induction hx with
    | refl r => exact .refl r
    | item hc hm _ ih => exact .item (h1.comp.2 hc) hm ih

theorem clearUnless_name (keep : List Name) (c : Cell F) : (clearUnless keep c).name = c.name := by
  cases c with
  | comp => rfl
  | iface d a b x y =>
    by_cases hk : d.name ∈ keep <;> simp [clearUnless, hk, Cell.name]

theorem Cleared.name (h1 : Cleared keep P h h') (r : ℕ) : (h'[r]?).map Cell.name = (h[r]?).map Cell.name := by
  cases hc : h[r]? with
  | none =>
    rw [h1 r, hc]
    simp
  | some c =>
    obtain ⟨c', hc', hcc⟩ := h1.cell hc
    rw [hc']
    rcases hcc with rfl | rfl <;> simp [clearUnless_name]

theorem forItems_clear {f : ℕ → M F Unit} {n : ℕ}
    (hf : ∀ (r : ℕ) (h : Heap F), Older h → r < h.length → r < n → ∃ h', f r h = (.ok (), h') ∧ Cleared keep (Reach h r) h h') :
    ∀ (is : List ℕ) (h : Heap F), Older h → (∀ i ∈ is, i < h.length ∧ i < n) →
      ∃ h', forItems f is h = (.ok (), h') ∧ Cleared keep (fun x => ∃ i ∈ is, Reach h i x) h h'
  | [], h, _, _ => ⟨h, rfl, fun x => by simp⟩
  | i :: is, h, ho, hi => by
    obtain ⟨h1, e1, c1⟩ := hf i h ho (hi i (by simp)).1 (hi i (by simp)).2
    obtain ⟨h2, e2, c2⟩ := forItems_clear hf is h1 (c1.older ho) (fun j hj => by
      rw [c1.length]; exact hi j (by simp [hj]))
    refine ⟨h2, ?_, (c1.trans c2).congr fun x => ?_⟩
    · show M.andThen (f i) (fun _ => forItems f is) h = _
      simp only [M.andThen, e1, e2]
    · simp only [List.mem_cons, c1.reach]
      constructor
      · rintro (hx | ⟨j, hj, hx⟩)
        · exact ⟨i, .inl rfl, hx⟩
        · exact ⟨j, .inr hj, hx⟩
      · rintro ⟨j, rfl | hj, hx⟩
        · exact .inl hx
        · exact .inr ⟨j, hj, hx⟩

theorem clear_cleared (keep : List Name) : ∀ (n r : ℕ) (h : Heap F), Older h → r < h.length → r < n →
    ∃ h', ObjHeap.clearObscuration keep n r h = (.ok (), h') ∧ Cleared keep (Reach h r) h h'
  | 0, _, _, _, _, hn => absurd hn (by omega)
  | n + 1, r, h, ho, hr, hn => by
    have hc := List.getElem?_eq_getElem hr
    generalize h[r] = c at hc
    have hfetch : ∀ {α : Type} (f : Cell F → M F α), (ObjHeap.fetch r >>= f) h = f c h := fun f => by
      show M.andThen (ObjHeap.fetch r) f h = _
      simp only [M.andThen, ObjHeap.fetch, hc]
    rw [ObjHeap.clearObscuration, hfetch]
    cases c with
    | iface d a b x y =>
      have hreach : ∀ z, Reach h r z ↔ z = r := fun z => by
        constructor
        · intro hz
          cases hz with
          | refl => rfl
          | item hc' => rw [hc] at hc'; cases hc'
        · rintro rfl; exact .refl z
      by_cases hk : d.name ∈ keep
      · refine ⟨h, by simp only [if_pos hk]; rfl, fun z => ?_⟩
        by_cases hz : z = r
        · subst hz
          simp [hreach, hc, clearUnless, hk]
        · simp [hreach, hz]
      · refine ⟨List.modify h r Cell.clear, by simp only [if_neg hk]; rfl, fun z => ?_⟩
        rw [List.getElem?_modify]
        by_cases hz : z = r
        · subst hz
          simp [hreach, hc, clearUnless, hk, Cell.clear]
        · simp [hreach, hz, Ne.symm hz]
    | comp d is a b =>
      obtain ⟨h', e, hcl⟩ := forItems_clear (clear_cleared keep n) is h ho (fun i hi => by
        have := ho _ _ _ _ _ hc i hi; omega)
      refine ⟨h', e, ?_⟩
      intro z
      by_cases hz : z = r
      · subst hz
        have : h'[z]? = h[z]? := by rw [hc]; exact hcl.comp.2 hc
        rw [this, hc]
        simp [clearUnless]
      · have hreach : ∀ y, y ≠ r → (Reach h r y ↔ ∃ i ∈ is, Reach h i y) := by
          intro y hy
          constructor
          · intro hx
            cases hx with
            | refl => exact absurd rfl hy
            | item hc' hm hx =>
              rw [hc] at hc'
              cases hc'
              exact ⟨_, hm, hx⟩
          · rintro ⟨i, hm, hx⟩
            exact .item hc hm hx
        rw [hcl z]
        by_cases hx : Reach h r z
        · rw [if_pos hx, if_pos ((hreach z hz).1 hx)]
        · rw [if_neg hx, if_neg fun hy => hx ((hreach z hz).2 hy)]

theorem Cleared.freshDict (h1 : Cleared keep P h h') : ∀ (n r : ℕ), freshDict h' n r = freshDict h n r
  | 0, _ => rfl
  | n + 1, r => by
    simp only [Props.freshDict]
    cases hc : h[r]? with
    | none =>
      rw [h1 r, hc]
      simp
    | some c =>
      cases c with
      | comp d is a b =>
        rw [h1.comp.2 hc]
        exact freshItems_congr fun i _ => ⟨h1.freshDict n i, h1.name i⟩
      | iface d a b x y =>
        obtain ⟨c', hc', hcc⟩ := h1.cell hc
        rw [hc']
        rcases hcc with rfl | rfl
        · rfl
        · by_cases hk : d.name ∈ keep <;> simp [clearUnless, hk]

mutual
/-- Optics none of whose objects were cleared are the same as before. -/
theorem Cleared.repr_other (h1 : Cleared keep P h h') : ∀ (o : Optic F) {r : ℕ}, Repr h r o → (∀ x, Reach h r x → ¬ P x) → Repr h' r o
  | .iface d, r, hr, hp => by
    simp only [Repr] at hr ⊢
    rw [h1 r, if_neg (hp r (.refl r))]
    exact hr
  | .compound d os, r, hr, hp => by
    simp only [Repr] at hr ⊢
    obtain ⟨is, a, b, hc, hl⟩ := hr
    exact ⟨is, a, b, h1.comp.2 hc, Cleared.reprL_other h1 os hl fun i hm x hx => hp x (.item hc hm hx)⟩
theorem Cleared.reprL_other (h1 : Cleared keep P h h') : ∀ (os : List (Optic F)) {is : List ℕ}, ReprL h is os →
    (∀ i ∈ is, ∀ x, Reach h i x → ¬ P x) → ReprL h' is os
  | [], [], _, _ => by simp [ReprL]
  | o :: os, i :: is, hl, hp => by
    simp only [ReprL] at hl ⊢
    exact ⟨Cleared.repr_other h1 o hl.1 (hp i (by simp)), Cleared.reprL_other h1 os hl.2 fun j hj => hp j (by simp [hj])⟩
  | [], _ :: _, hl, _ => by simp [ReprL] at hl
  | _ :: _, [], hl, _ => by simp [ReprL] at hl
end

mutual
/-- Optics all of whose objects were cleared. -/
theorem Cleared.repr_clear (h1 : Cleared keep P h h') : ∀ (o : Optic F) {r : ℕ}, Repr h r o → (∀ x, Reach h r x → P x) →
    Repr h' r (o.clearObscuration keep)
  | .iface d, r, hr, hp => by
    simp only [Repr] at hr
    obtain ⟨a, b, x, y, hc⟩ := hr
    have := h1 r
    rw [if_pos (hp r (.refl r)), hc] at this
    by_cases hk : d.name ∈ keep
    · simp only [Optic.clearObscuration, if_pos hk, Repr]
      exact ⟨a, b, x, y, by rw [this]; simp [clearUnless, hk]⟩
    · simp only [Optic.clearObscuration, if_neg hk, Repr]
      exact ⟨a, b, x, y, by rw [this]; simp [clearUnless, hk]⟩
  | .compound d os, r, hr, hp => by
    rw [Optic.clearObscuration]
    simp only [Repr] at hr ⊢
    obtain ⟨is, a, b, hc, hl⟩ := hr
    exact ⟨is, a, b, h1.comp.2 hc, Cleared.reprL_clear h1 os hl fun i hm x hx => hp x (.item hc hm hx)⟩
theorem Cleared.reprL_clear (h1 : Cleared keep P h h') : ∀ (os : List (Optic F)) {is : List ℕ}, ReprL h is os →
    (∀ i ∈ is, ∀ x, Reach h i x → P x) → ReprL h' is (Optic.clearItems keep os)
  | [], [], _, _ => by simp [ReprL, Optic.clearItems]
  | o :: os, i :: is, hl, hp => by
    rw [Optic.clearItems]
    simp only [ReprL] at hl ⊢
    exact ⟨Cleared.repr_clear h1 o hl.1 (hp i (by simp)), Cleared.reprL_clear h1 os hl.2 fun j hj => hp j (by simp [hj])⟩
  | [], _ :: _, hl, _ => by simp [ReprL] at hl
  | _ :: _, [], hl, _ => by simp [ReprL] at hl
end

/-- Every reference is an optic. -/
theorem exists_repr (ho : Older h) : ∀ r, r < h.length → ∃ o, Repr h r o := by
  intro r
  induction r using Nat.strong_induction_on with
  | _ r ih =>
    intro hr
    have hc := List.getElem?_eq_getElem hr
    generalize h[r] = c at hc
    cases c with
    | iface d a b x y => exact ⟨.iface d, by simp only [Repr]; exact ⟨a, b, x, y, hc⟩⟩
    | comp d is a b =>
      have : ∀ js : List ℕ, (∀ j ∈ js, j < r) → ∃ os, ReprL h js os := by
        intro js
        induction js with
        | nil => exact fun _ => ⟨[], by simp [ReprL]⟩
        | cons j js ihj =>
          intro hj
          obtain ⟨o, h1⟩ := ih j (hj j (by simp)) (by have := hj j (by simp); omega)
          obtain ⟨os, h2⟩ := ihj fun k hk => hj k (by simp [hk])
          exact ⟨o :: os, by simp only [ReprL]; exact ⟨h1, h2⟩⟩
      obtain ⟨os, hos⟩ := this is (ho _ _ _ _ _ hc)
      exact ⟨.compound d os, by simp only [Repr]; exact ⟨is, a, b, hc, hos⟩⟩

end clear

theorem Cleared.inv {keep : List Name} {P : ℕ → Prop} {h h' : Heap F} (h1 : Cleared keep P h h') (hi : Inv rad h) : Inv False h' := by
  refine ⟨h1.older hi.older, fun r c' hc' => ?_⟩
  cases c' with
  | iface => exact fun hf => hf.elim
  | comp d is a b =>
    have := hi.caches r _ (h1.comp.1 hc')
    simp only [CacheOk] at this ⊢
    rw [h1.freshDict]
    exact this

end inv
end heap
end Batoid.Props
