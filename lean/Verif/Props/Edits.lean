import Verif.Props.Names
import Verif.Props.Frames

/-!
# Properties C49, C50 and the first half of C58: copies with one named item changed

Specification vocabulary: `Moved m o o'` says that `o'` is `o` with every frame replaced by `m` of it; `EditedAt R p o o'`
says that `o'` is `o` with the item at path `p` replaced by an `R`-related one and nothing else touched.
-/

namespace Batoid.Props
open Batoid

/-! ## Specification -/

section spec
variable {F : Type}

/-- A stop surface moved by `m`. -/
def movedStop (m : CoordSys F → CoordSys F) (s : Stop F) : Stop F := ⟨m s.coordSys, s.surface⟩

/-- `d'` has the class, name, surface, obscuration and media of `d`, its frame (and that of its stop surface) moved by `m`.
(Coatings are the subject of C56, `skip` of C55.) -/
structure MovedIface (m : CoordSys F → CoordSys F) (d d' : Iface F) : Prop where
  kind : d'.kind = d.kind
  name : d'.name = d.name
  surface : d'.surface = d.surface
  obscuration : d'.obscuration = d.obscuration
  inMedium : d'.inMedium = d.inMedium
  outMedium : d'.outMedium = d.outMedium
  coordSys : d'.coordSys = m d.coordSys
  stop : d'.stop = d.stop.map (movedStop m)

/-- The same for the attributes of a compound. -/
structure MovedComp (m : CoordSys F → CoordSys F) (d d' : Comp F) : Prop where
  isLens : d'.isLens = d.isLens
  name : d'.name = d.name
  inMedium : d'.inMedium = d.inMedium
  outMedium : d'.outMedium = d.outMedium
  coordSys : d'.coordSys = m d.coordSys
  stop : d'.stop = d.stop.map (movedStop m)

mutual
/-- `o'` is the tree `o` with every frame moved by the one map `m`: same shape, order, names and content. -/
def Moved (m : CoordSys F → CoordSys F) : Optic F → Optic F → Prop
  | .iface d, .iface d' => MovedIface m d d'
  | .compound d items, .compound d' items' => MovedComp m d d' ∧ MovedItems m items items'
  | _, _ => False
def MovedItems (m : CoordSys F → CoordSys F) : List (Optic F) → List (Optic F) → Prop
  | [], [] => True
  | o :: os, o' :: os' => Moved m o o' ∧ MovedItems m os os'
  | _, _ => False
end

/-- `o'` is `o` with the item at path `p` replaced by an `R`-related one.  The compounds on the way keep all attributes
(except `skip`, see C55), all other items are the very same. -/
inductive EditedAt (R : Optic F → Optic F → Prop) : List Name → Optic F → Optic F → Prop where
  | here {o o' : Optic F} (h : R o o') : EditedAt R [o.name] o o'
  | inside {d : Comp F} {a b : List (Optic F)} {it it' : Optic F} {p : List Name} (h : EditedAt R p it it') :
      EditedAt R (d.name :: p) (.compound d (a ++ it :: b)) (.compound { d with skip := false } (a ++ it' :: b))

mutual
/-- What the constructors assert: a lens has two items with a common medium between them, the two sides of a screen have
the same medium. -/
def WellFormed : Optic F → Prop
  | .iface d => ∀ s, d.kind = .screen s → d.inMedium = d.outMedium
  | .compound d items => (d.isLens = true → ∃ a b, items = [a, b] ∧ a.outMedium = b.inMedium) ∧ WellFormedItems items
def WellFormedItems : List (Optic F) → Prop
  | [] => True
  | o :: os => WellFormed o ∧ WellFormedItems os
end

mutual
/-- In no compound of the tree is the name of an item a prefix of the name of a later item. -/
def PrefixFree : Optic F → Prop
  | .iface _ => True
  | .compound _ items => items.Pairwise (fun a b => ¬ a.name <+: b.name) ∧ PrefixFreeItems items
def PrefixFreeItems : List (Optic F) → Prop
  | [] => True
  | o :: os => PrefixFree o ∧ PrefixFreeItems os
end

mutual
/-- The path is not obstructed: at no level does the name of an item before the one on the path begin its name. -/
def Reached : Optic F → List Name → Prop
  | .iface d, p => p = [d.name]
  | .compound d items, p => p = [d.name] ∨ ∃ r, p = d.name :: r ∧ ReachedItems items r
def ReachedItems : List (Optic F) → List Name → Prop
  | [], _ => False
  | o :: os, p => (p.head? = some o.name ∧ Reached o p) ∨ ((∀ a ∈ p.head?, ¬ o.name <+: a) ∧ ReachedItems os p)
end

end spec

/-! ## Whole trees -/

section whole
variable {F : Type}

theorem moved_media {m : CoordSys F → CoordSys F} {o o' : Optic F} (h : Moved m o o') :
    o'.inMedium = o.inMedium ∧ o'.outMedium = o.outMedium ∧ o'.name = o.name := by
  cases o <;> cases o' <;> simp only [Moved] at h
  · exact ⟨h.inMedium, h.outMedium, h.name⟩
  · exact ⟨h.1.inMedium, h.1.outMedium, h.1.name⟩

theorem movedItems_two {m : CoordSys F → CoordSys F} {a b : Optic F} {l : List (Optic F)} (h : MovedItems m [a, b] l) :
    ∃ a' b', l = [a', b'] ∧ Moved m a a' ∧ Moved m b b' := by
  match l, h with
  | [a', b'], h => exact ⟨a', b', rfl, h.1, h.2.1⟩
  | [], h => exact absurd h (by simp [MovedItems])
  | [_], h => exact absurd h (by simp [MovedItems])
  | _ :: _ :: _ :: _, h => exact absurd h (by simp [MovedItems])

variable [OfNat F 0] [OfNat F 1]

theorem init_ok {d : Iface F} (h : ∀ s, d.kind = .screen s → d.inMedium = d.outMedium) :
    Iface.init d = .ok { d with skip := false }.resetCoatings := by
  unfold Iface.init
  cases hk : d.kind with
  | screen s => simp [h s hk]
  | _ => rfl

theorem resetCoatings_fields (d : Iface F) : d.resetCoatings.kind = d.kind ∧ d.resetCoatings.name = d.name ∧
    d.resetCoatings.surface = d.surface ∧ d.resetCoatings.obscuration = d.obscuration ∧
    d.resetCoatings.inMedium = d.inMedium ∧ d.resetCoatings.outMedium = d.outMedium ∧
    d.resetCoatings.coordSys = d.coordSys ∧ d.resetCoatings.stop = d.stop ∧ d.resetCoatings.skip = d.skip := by
  unfold Iface.resetCoatings
  cases hk : d.kind <;> simp [hk]

theorem init_moved {m : CoordSys F → CoordSys F} {d : Iface F} (h : ∀ s, d.kind = .screen s → d.inMedium = d.outMedium)
    {cs : CoordSys F} {st : Option (Stop F)} (hcs : cs = m d.coordSys) (hst : st = d.stop.map (movedStop m)) :
    ∃ d', Iface.init { d with coordSys := cs, stop := st } = .ok d' ∧ MovedIface m d d' := by
  have h0 : ∀ s, ({ d with coordSys := cs, stop := st } : Iface F).kind = .screen s →
      ({ d with coordSys := cs, stop := st } : Iface F).inMedium = ({ d with coordSys := cs, stop := st } : Iface F).outMedium := h
  refine ⟨_, init_ok h0, ?_⟩
  obtain ⟨h1, h2, h3, h4, h5, h6, h7, h8, -⟩ := resetCoatings_fields ({ d with coordSys := cs, stop := st, skip := false } : Iface F)
  exact ⟨h1, h2, h3, h4, h5, h6, h7.trans hcs, h8.trans hst⟩

theorem mkCompound_ok {d : Comp F} {items : List (Optic F)}
    (h : d.isLens = true → ∃ a b, items = [a, b] ∧ a.outMedium = b.inMedium) :
    Optic.mkCompound d items = .ok (.compound { d with skip := false } items) := by
  unfold Optic.mkCompound
  by_cases hl : d.isLens = true
  · obtain ⟨a, b, rfl, hm⟩ := h hl
    simp [hl, hm]
  · simp [hl]

theorem mkCompound_moved {m : CoordSys F → CoordSys F} {d : Comp F} {items items' : List (Optic F)}
    (h : d.isLens = true → ∃ a b, items = [a, b] ∧ a.outMedium = b.inMedium) (hi : MovedItems m items items')
    {cs : CoordSys F} {st : Option (Stop F)} (hcs : cs = m d.coordSys) (hst : st = d.stop.map (movedStop m)) :
    ∃ o', Optic.mkCompound { d with coordSys := cs, stop := st } items' = .ok o' ∧ Moved m (.compound d items) o' := by
  refine ⟨_, mkCompound_ok ?_, ?_⟩
  · intro hl
    obtain ⟨a, b, rfl, hm⟩ := h hl
    obtain ⟨a', b', rfl, ha, hb⟩ := movedItems_two hi
    exact ⟨a', b', rfl, by rw [(moved_media ha).2.1, (moved_media hb).1, hm]⟩
  · exact ⟨⟨rfl, rfl, rfl, rfl, hcs, hst⟩, hi⟩

variable [Add F] [Sub F] [Mul F]

mutual
theorem withGlobalShift_moved (s : V3 F) : ∀ (o : Optic F), WellFormed o →
    ∃ o', o.withGlobalShift s = .ok o' ∧ Moved (fun c => ⟨c.origin + s, c.rot⟩) o o'
  | .iface d, h => by
    obtain ⟨d', h1, h2⟩ := init_moved (m := fun c : CoordSys F => ⟨c.origin + s, c.rot⟩) (d := d) h
      (cs := d.coordSys.shiftGlobal s) (st := d.stop.map (·.globalShift s)) rfl rfl
    refine ⟨.iface d', ?_, h2⟩
    simp only [Optic.withGlobalShift, Iface.withGlobalShift, h1]; rfl
  | .compound d items, h => by
    obtain ⟨items', h1, h2⟩ := shiftItems_moved s items h.2
    obtain ⟨o', h3, h4⟩ := mkCompound_moved (m := fun c : CoordSys F => ⟨c.origin + s, c.rot⟩) (d := d) h.1 h2
      (cs := d.coordSys.shiftGlobal s) (st := d.stop.map (·.globalShift s)) rfl rfl
    refine ⟨o', ?_, h4⟩
    simp only [Optic.withGlobalShift, h1]; exact h3
theorem shiftItems_moved (s : V3 F) : ∀ (items : List (Optic F)), WellFormedItems items →
    ∃ items', Optic.shiftItems s items = .ok items' ∧ MovedItems (fun c => ⟨c.origin + s, c.rot⟩) items items'
  | [], _ => ⟨[], rfl, trivial⟩
  | o :: os, h => by
    obtain ⟨o', h1, h2⟩ := withGlobalShift_moved s o h.1
    obtain ⟨os', h3, h4⟩ := shiftItems_moved s os h.2
    refine ⟨o' :: os', ?_, h2, h4⟩
    simp only [Optic.shiftItems, h1, h3]; rfl
end

mutual
theorem withGlobalRotation_moved (R : M3 F) (ce : V3 F) (cs : Option (CoordSys F)) : ∀ (o : Optic F), WellFormed o →
    ∃ o', o.withGlobalRotation R ce cs = .ok o' ∧ Moved (fun c => c.rotateGlobal R ce cs) o o'
  | .iface d, h => by
    obtain ⟨d', h1, h2⟩ := init_moved (m := fun c : CoordSys F => c.rotateGlobal R ce cs) (d := d) h
      (cs := d.coordSys.rotateGlobal R ce cs) (st := d.stop.map (·.globalRotation R ce cs)) rfl rfl
    refine ⟨.iface d', ?_, h2⟩
    simp only [Optic.withGlobalRotation, Iface.withGlobalRotation, h1]; rfl
  | .compound d items, h => by
    obtain ⟨items', h1, h2⟩ := rotateItems_moved R ce cs items h.2
    obtain ⟨o', h3, h4⟩ := mkCompound_moved (m := fun c : CoordSys F => c.rotateGlobal R ce cs) (d := d) h.1 h2
      (cs := d.coordSys.rotateGlobal R ce cs) (st := d.stop.map (·.globalRotation R ce cs)) rfl rfl
    refine ⟨o', ?_, h4⟩
    simp only [Optic.withGlobalRotation, h1]; exact h3
theorem rotateItems_moved (R : M3 F) (ce : V3 F) (cs : Option (CoordSys F)) : ∀ (items : List (Optic F)), WellFormedItems items →
    ∃ items', Optic.rotateItems R ce cs items = .ok items' ∧ MovedItems (fun c => c.rotateGlobal R ce cs) items items'
  | [], _ => ⟨[], rfl, trivial⟩
  | o :: os, h => by
    obtain ⟨o', h1, h2⟩ := withGlobalRotation_moved R ce cs o h.1
    obtain ⟨os', h3, h4⟩ := rotateItems_moved R ce cs os h.2
    refine ⟨o' :: os', ?_, h2, h4⟩
    simp only [Optic.rotateItems, h1, h3]; rfl
end

end whole

/-! ## Resolution of names -/

section resolve
variable {F : Type}

/-- The fully qualified name the copies compute is that of the optic which the key denotes. -/
theorem resolve_denotes {d : Comp F} {items : List (Optic F)} (h : Good (.compound d items)) {key : Name} {p : List Name}
    {x : Optic F} (hx : Denotes (.compound d items) key p x) :
    ((Optic.compound d items).names.get? key).getD key = dotted p := by
  obtain ⟨hp, hk⟩ := hx
  cases hn : (Optic.compound d items).names.get? key with
  | none =>
    rcases hk with hk | ⟨q, hq, e, hs, hu⟩
    · simpa using hk
    · have := (names_get h key (dotted p)).2 ⟨q, p, x, hq, e, rfl, hp, hs, hu⟩
      rw [hn] at this; cases this
  | some k =>
    obtain ⟨q', p', x', hq', e', rfl, hp', hs', hu'⟩ := (names_get h key k).1 hn
    have := denotes_unique h (⟨hp, hk⟩ : Denotes _ key p x) ⟨hp', .inr ⟨q', hq', e', hs', hu'⟩⟩
    simp [this.1]

/-- A key that denotes nothing resolves to no key of `itemDict`. -/
theorem resolve_none {d : Comp F} {items : List (Optic F)} (h : Good (.compound d items)) {key : Name}
    (hx : ¬ ∃ p x, Denotes (.compound d items) key p x) :
    (Optic.compound d items).names.get? key = none ∧ (Optic.compound d items).itemDict.get? key = none := by
  constructor
  · cases hn : (Optic.compound d items).names.get? key with
    | none => rfl
    | some k =>
      obtain ⟨q', p', x', hq', e', rfl, hp', hs', hu'⟩ := (names_get h key k).1 hn
      exact absurd ⟨p', x', hp', .inr ⟨q', hq', e', hs', hu'⟩⟩ hx
  · cases hn : (Optic.compound d items).itemDict.get? key with
    | none => rfl
    | some x =>
      obtain ⟨p, hp, e⟩ := (itemDict_get h key x).1 hn
      exact absurd ⟨p, x, hp, .inl e⟩ hx

theorem has_of_node {d : Comp F} {items : List (Optic F)} (h : Good (.compound d items)) {p : List Name} {x : Optic F}
    (hp : (p, x) ∈ nodes (.compound d items)) : (Optic.compound d items).itemDict.has (dotted p) = true := by
  rw [Dict.has, (itemDict_get h _ x).2 ⟨p, hp, rfl⟩]; rfl

end resolve

/-! ## Editing the named item -/

section edit
variable {F : Type}

/-- A name without dots that is a prefix of a dotted path is a prefix of its first name. -/
theorem prefix_head {n : Name} (hn : '.' ∉ n) {a : Name} {p : List Name} (h : n <+: dotted (a :: p)) : n <+: a := by
  by_cases hp : p = []
  · subst hp; rwa [dotted_single] at h
  · rw [dotted_cons a hp] at h
    rcases List.prefix_or_prefix_of_prefix h (List.prefix_append a ('.' :: dotted p)) with h1 | ⟨t, ht⟩
    · exact h1
    · cases t with
      | nil => simp at ht; rw [ht]
      | cons c t =>
        rw [← ht, List.prefix_append_right_inj] at h
        obtain ⟨u, hu⟩ := h
        have : c = '.' := by simpa using (List.cons.inj hu).1
        exact absurd (by rw [← ht, this]; simp) hn

theorem editedAt_media {R : Optic F → Optic F → Prop}
    (hR : ∀ o o', R o o' → o'.inMedium = o.inMedium ∧ o'.outMedium = o.outMedium ∧ o'.name = o.name)
    {p : List Name} {o o' : Optic F} (h : EditedAt R p o o') :
    o'.inMedium = o.inMedium ∧ o'.outMedium = o.outMedium ∧ o'.name = o.name := by
  cases h with
  | here h => exact hR _ _ h
  | inside h => exact ⟨rfl, rfl, rfl⟩

theorem editedAt_lens {R : Optic F → Optic F → Prop}
    (hR : ∀ o o', R o o' → o'.inMedium = o.inMedium ∧ o'.outMedium = o.outMedium ∧ o'.name = o.name)
    {p : List Name} {a b : List (Optic F)} {it it' : Optic F} (h : EditedAt R p it it')
    (hl : ∃ u v, a ++ it :: b = [u, v] ∧ u.outMedium = v.inMedium) :
    ∃ u v, a ++ it' :: b = [u, v] ∧ u.outMedium = v.inMedium := by
  obtain ⟨u, v, e, hm⟩ := hl
  obtain ⟨m1, m2, -⟩ := editedAt_media hR h
  match a, e with
  | [], e =>
    simp only [List.nil_append, List.cons.injEq] at e
    obtain ⟨rfl, rfl⟩ := e
    exact ⟨it', v, rfl, by rw [m2, hm]⟩
  | [a1], e =>
    simp only [List.cons_append, List.nil_append, List.cons.injEq] at e
    obtain ⟨rfl, rfl, rfl⟩ := e
    exact ⟨a1, it', rfl, by rw [m1, hm]⟩
  | a1 :: a2 :: a3, e => simp at e

variable [Add F] [Sub F] [Mul F] [OfNat F 0] [OfNat F 1]

mutual
theorem reached_of_prefixFree : ∀ {o : Optic F}, PrefixFree o → ∀ q ∈ nodes o, Reached o q.1
  | .iface d, _, q, hq => by simp [nodes] at hq; subst hq; exact rfl
  | .compound d items, h, q, hq => by
    simp only [nodes, List.mem_cons, List.mem_map] at hq
    rcases hq with rfl | ⟨r, hr, rfl⟩
    · exact .inl rfl
    · exact .inr ⟨r.1, rfl, reachedItems_of_prefixFree h.1 h.2 r hr⟩
theorem reachedItems_of_prefixFree : ∀ {items : List (Optic F)}, items.Pairwise (fun a b => ¬ a.name <+: b.name) →
    PrefixFreeItems items → ∀ q ∈ nodesItems items, ReachedItems items q.1
  | [], _, _, q, hq => by simp [nodesItems] at hq
  | o :: os, hp, h, q, hq => by
    simp only [nodesItems, List.mem_append] at hq
    obtain ⟨hp1, hp2⟩ := List.pairwise_cons.1 hp
    rcases hq with hq | hq
    · exact .inl ⟨(nodes_ne_nil o q hq).2, reached_of_prefixFree h.1 q hq⟩
    · refine .inr ⟨?_, reachedItems_of_prefixFree hp2 h.2 q hq⟩
      obtain ⟨-, o2, ho2, hq2⟩ := nodesItems_head os q hq
      intro a ha
      rw [(nodes_ne_nil o2 q hq2).2, Option.mem_some_iff] at ha
      subst ha
      exact hp1 o2 ho2
end

mutual
theorem applyNamed_below (op : Optic.NamedOp F) (R : Optic F → Optic F → Prop)
    (hR : ∀ o o', R o o' → o'.inMedium = o.inMedium ∧ o'.outMedium = o.outMedium ∧ o'.name = o.name)
    {x x' : Optic F} (hx : op.onItem x = .ok x') (hxx : R x x') :
    ∀ (o : Optic F) (p : List Name), Good o → WellFormed o → Reached o p → (p, x) ∈ nodes o → p ≠ [o.name] →
      ∃ o', Optic.applyNamed op o (dotted p) = .ok o' ∧ EditedAt R p o o'
  | .iface d, p, _, _, _, hp, hne => by
    simp [nodes] at hp; exact absurd hp.1 hne
  | .compound d items, p, hg, hw, hf, hp, hne => by
    have hden : Denotes (.compound d items) (dotted p) p x := ⟨hp, .inl rfl⟩
    have hfull := resolve_denotes hg hden
    have hhas := has_of_node hg hp
    have hp0 := hp
    simp only [nodes, List.mem_cons, List.mem_map] at hp
    rcases hp with hp | ⟨⟨r, y⟩, hr, hp⟩
    · exact absurd (Prod.mk.inj hp).1 hne
    · simp only [Prod.mk.injEq] at hp
      obtain ⟨rfl, rfl⟩ := hp
      have hr0 := (nodesItems_head items _ hr).1
      have hf' : ReachedItems items r := by
        rcases hf with hf | ⟨r', hf, h⟩
        · exact absurd (List.cons.inj hf).2 hr0
        · rw [(List.cons.inj hf).2]; exact h
      obtain ⟨items', a, it, b, it', h1, h2, h3, h4⟩ := applyItems_below op R hR hx hxx items r hg.2.1 hg.2.2 hw.2 hf' hr
      have hdot : dotted (d.name :: r) = d.name ++ '.' :: dotted r := dotted_cons _ hr0
      have hnd : dotted (d.name :: r) ≠ d.name := by
        rw [hdot]; intro e
        have := congrArg List.length e
        simp at this
      have htake : (dotted (d.name :: r)).take (d.name.length + 1) = d.name ++ ['.'] := by
        rw [hdot]
        simp [List.take_append]
      have hdrop : (dotted (d.name :: r)).drop (d.name.length + 1) = dotted r := by
        rw [hdot]
        simp [List.drop_append]
      rw [Optic.applyNamed]
      simp only [hfull, hhas, Bool.not_true, Bool.false_eq_true, if_false, hnd, htake, if_true, hdrop, h1]
      subst h2
      refine ⟨_, ?_, .inside h4⟩
      show Optic.mkCompound d items' = _
      rw [h3]
      exact mkCompound_ok (fun hl => editedAt_lens hR h4 (hw.1 hl))
theorem applyItems_below (op : Optic.NamedOp F) (R : Optic F → Optic F → Prop)
    (hR : ∀ o o', R o o' → o'.inMedium = o.inMedium ∧ o'.outMedium = o.outMedium ∧ o'.name = o.name)
    {x x' : Optic F} (hx : op.onItem x = .ok x') (hxx : R x x') :
    ∀ (items : List (Optic F)) (p : List Name), (items.map Optic.name).Nodup → GoodItems items → WellFormedItems items →
      ReachedItems items p → (p, x) ∈ nodesItems items →
      ∃ items' a it b it', Optic.applyItems op items (dotted p) = .ok items' ∧ items = a ++ it :: b ∧
        items' = a ++ it' :: b ∧ EditedAt R p it it'
  | [], p, _, _, _, _, hp => by simp [nodesItems] at hp
  | o :: os, p, hn, hg, hw, hf, hp => by
    simp only [List.map_cons, List.nodup_cons] at hn
    simp only [nodesItems, List.mem_append] at hp
    rw [Optic.applyItems]
    rcases hp with hp | hp
    · -- the named optic is in `o`
      obtain ⟨hp0, hhead⟩ := nodes_ne_nil o _ hp
      obtain ⟨r, rfl⟩ : ∃ r, p = o.name :: r := by
        cases p with
        | nil => exact absurd rfl hp0
        | cons c r => simp only [List.head?_cons, Option.some.injEq] at hhead; exact ⟨r, by rw [hhead]⟩
      have hpre : o.name.isPrefixOf (dotted (o.name :: r)) = true := by
        rw [List.isPrefixOf_iff_prefix]
        by_cases hr : r = []
        · subst hr; rw [dotted_single]
        · rw [dotted_cons _ hr]; exact List.prefix_append _ _
      simp only [hpre, if_true]
      by_cases hr : r = []
      · subst hr
        have hxo : o = x := by
          have hself : ([o.name], o) ∈ nodes o := by cases o <;> simp [nodes, Optic.name]
          have := List.inj_on_of_nodup_map (nodes_nodup o hg.1) hself hp rfl
          exact (Prod.ext_iff.1 this).2
        subst hxo
        simp only [dotted_single, if_true, hx]
        exact ⟨x' :: os, [], o, os, x', rfl, rfl, rfl, .here hxx⟩
      · have hne : dotted (o.name :: r) ≠ o.name := by
          rw [dotted_cons _ hr]; intro e
          have := congrArg List.length e
          simp at this
        have hf' : Reached o (o.name :: r) := by
          rcases hf with hf | hf
          · exact hf.2
          · exact absurd List.prefix_rfl (hf.1 o.name rfl)
        obtain ⟨o', h1, h2⟩ := applyNamed_below op R hR hx hxx o _ hg.1 hw.1 hf' hp (by simpa using hr)
        simp only [hne, if_false, h1]
        exact ⟨o' :: os, [], o, os, o', rfl, rfl, rfl, h2⟩
    · -- it is in a later item
      obtain ⟨hp0, o2, ho2, hp2⟩ := nodesItems_head os _ hp
      obtain ⟨-, hhead⟩ := nodes_ne_nil o2 _ hp2
      obtain ⟨r, rfl⟩ : ∃ r, p = o2.name :: r := by
        cases p with
        | nil => exact absurd rfl hp0
        | cons c r => simp only [List.head?_cons, Option.some.injEq] at hhead; exact ⟨r, by rw [hhead]⟩
      have hf' : ¬ o.name <+: o2.name ∧ ReachedItems os (o2.name :: r) := by
        rcases hf with hf | hf
        · refine absurd ?_ hn.1
          have : o2.name = o.name := by simpa using hf.1
          rw [← this]; exact List.mem_map_of_mem ho2
        · exact ⟨hf.1 o2.name rfl, hf.2⟩
      have hpre : ¬ o.name.isPrefixOf (dotted (o2.name :: r)) = true := by
        rw [List.isPrefixOf_iff_prefix]
        intro hpre
        exact hf'.1 (prefix_head (good_name hg.1) hpre)
      simp only [hpre, if_false]
      obtain ⟨items', a, it, b, it', h1, h2, h3, h4⟩ :=
        applyItems_below op R hR hx hxx os _ hn.2 hg.2 hw.2 hf'.2 hp
      refine ⟨o :: items', o :: a, it, b, it', ?_, by rw [h2]; rfl, by rw [h3]; rfl, h4⟩
      simp only [h1]; rfl
end

/-- The edit at the optic denoted by any key. -/
theorem applyNamed_denotes (op : Optic.NamedOp F) (R : Optic F → Optic F → Prop)
    (hR : ∀ o o', R o o' → o'.inMedium = o.inMedium ∧ o'.outMedium = o.outMedium ∧ o'.name = o.name)
    {x x' : Optic F} (hx : op.onItem x = .ok x') (hxx : R x x') {d : Comp F} {items : List (Optic F)}
    (hself : op.onSelf x = op.onItem x)
    (hg : Good (.compound d items)) (hw : WellFormed (.compound d items))
    {key : Name} {p : List Name} (hf : Reached (.compound d items) p) (hd : Denotes (.compound d items) key p x) :
    ∃ o', Optic.applyNamed op (.compound d items) key = .ok o' ∧ EditedAt R p (.compound d items) o' := by
  have hfull := resolve_denotes hg hd
  have hfull2 := resolve_denotes hg (⟨hd.1, .inl rfl⟩ : Denotes (.compound d items) (dotted p) p x)
  have hsame : Optic.applyNamed op (.compound d items) key = Optic.applyNamed op (.compound d items) (dotted p) := by
    simp only [Optic.applyNamed, hfull, hfull2]
  rw [hsame]
  by_cases hp : p = [d.name]
  · subst hp
    have hxo : Optic.compound d items = x := by
      have hs : ([d.name], Optic.compound d items) ∈ nodes (.compound d items) := by simp [nodes]
      have := List.inj_on_of_nodup_map (nodes_nodup _ hg) hs hd.1 rfl
      exact (Prod.ext_iff.1 this).2
    have hhas := has_of_node hg hd.1
    simp only [Optic.applyNamed, hfull2, hhas, Bool.not_true, Bool.false_eq_true, if_false]
    simp only [dotted_single, if_true]
    rw [hxo, hself, hx]
    refine ⟨x', rfl, ?_⟩
    have := EditedAt.here hxx
    rwa [← hxo] at this ⊢
  · exact applyNamed_below op R hR hx hxx _ p hg hw hf hd.1 hp

/-- A key that denotes nothing raises `ValueError`. -/
theorem applyNamed_missing (op : Optic.NamedOp F) {d : Comp F} {items : List (Optic F)} (hg : Good (.compound d items)) {key : Name}
    (hd : ¬ ∃ p x, Denotes (.compound d items) key p x) :
    Optic.applyNamed op (.compound d items) key = .error .valueError := by
  obtain ⟨h1, h2⟩ := resolve_none hg hd
  simp [Optic.applyNamed, h1, Dict.has, h2]

end edit

/-! ## C49 -/

section c49
variable {F : Type}

mutual
theorem wellFormed_node : ∀ (o : Optic F), WellFormed o → ∀ q ∈ nodes o, WellFormed q.2
  | .iface d, h, q, hq => by simp [nodes] at hq; subst hq; exact h
  | .compound d items, h, q, hq => by
    simp only [nodes, List.mem_cons, List.mem_map] at hq
    rcases hq with rfl | ⟨r, hr, rfl⟩
    · exact h
    · exact wellFormedItems_node items h.2 r hr
theorem wellFormedItems_node : ∀ (items : List (Optic F)), WellFormedItems items → ∀ q ∈ nodesItems items, WellFormed q.2
  | [], _, q, hq => by simp [nodesItems] at hq
  | o :: os, h, q, hq => by
    simp only [nodesItems, List.mem_append] at hq
    rcases hq with hq | hq
    · exact wellFormed_node o h.1 q hq
    · exact wellFormedItems_node os h.2 q hq
end

/-- The hypotheses on the tree: names without dots, distinct among siblings, no sibling's name a prefix of that of a later
one; constructor assertions satisfied. -/
structure Tidy (o : Optic F) : Prop where
  good : Good o
  wellFormed : WellFormed o
  prefixFree : PrefixFree o

variable [Add F] [Sub F] [Mul F] [OfNat F 0] [OfNat F 1]

/-- C49 for global shifts, in any arithmetic, for every tidy tree and every key: the result is the tree in which exactly the
optic returned by `o[key]`, with all its descendants, has every frame displaced by the shift; a key without such an optic
raises `ValueError`.  (Untidy trees: C48 and C50.) -/
theorem C49_withGloballyShiftedOptic_partial (d : Comp F) (items : List (Optic F)) (ht : Tidy (.compound d items)) (key : Name)
    (s : V3 F) :
    (∀ x, (Optic.compound d items).getItem key = .ok x → ∃ p o', (p, x) ∈ nodes (.compound d items) ∧
      (Optic.compound d items).withGloballyShiftedOptic key s = .ok o' ∧
      EditedAt (fun a b => a = x ∧ Moved (fun c => ⟨c.origin + s, c.rot⟩) a b) p (.compound d items) o') ∧
    (∀ e, (Optic.compound d items).getItem key = .error e →
      (Optic.compound d items).withGloballyShiftedOptic key s = .error .valueError) := by
  constructor
  · intro x hx
    obtain ⟨p, hd⟩ := ((C48_lookup_partial d items ht.good key).1 x).1 hx
    obtain ⟨x', h1, h2⟩ := withGlobalShift_moved s x (wellFormed_node _ ht.wellFormed _ hd.1)
    obtain ⟨o', h3, h4⟩ := applyNamed_denotes ⟨Optic.withGlobalShift s, Optic.withGlobalShift s, .attributeError⟩
      (fun a b => a = x ∧ Moved (fun c : CoordSys F => ⟨c.origin + s, c.rot⟩) a b) (fun o o' h => moved_media h.2)
      h1 ⟨rfl, h2⟩ rfl ht.good ht.wellFormed (reached_of_prefixFree ht.prefixFree _ hd.1) hd
    exact ⟨p, o', hd.1, h3, h4⟩
  · intro e he
    refine applyNamed_missing _ ht.good ?_
    rintro ⟨p, x, hd⟩
    rw [((C48_lookup_partial d items ht.good key).1 x).2 ⟨p, hd⟩] at he
    cases he

end c49

/-- A rigid motion of frames: rotation `Q` about the point `g`. -/
def rigid (Q : M3 ℝ) (g : V3 ℝ) (c : CoordSys ℝ) : CoordSys ℝ := ⟨rotateAbout Q g c.origin, Q.mul c.rot⟩

/-- Every point fixed to the frame is carried along by the motion. -/
theorem rigid_points (Q : M3 ℝ) (g : V3 ℝ) (c : CoordSys ℝ) (p : V3 ℝ) :
    (rigid Q g c).toGlobal p = rotateAbout Q g (c.toGlobal p) := by
  simp only [rigid, CoordSys.toGlobal, rotateAbout, M3.mul_mulVec]
  ext <;> simp [M3.mulVec] <;> ring

/-- C49 for local shifts: the displacement is the given vector taken along the axes of the named optic. -/
theorem C49_withLocallyShiftedOptic_partial (d : Comp ℝ) (items : List (Optic ℝ)) (ht : Tidy (.compound d items)) (key : Name)
    (s : V3 ℝ) :
    (∀ x, (Optic.compound d items).getItem key = .ok x → ∃ p o' g, (p, x) ∈ nodes (.compound d items) ∧
      g = x.coordSys.xhat.smulR s.x + x.coordSys.yhat.smulR s.y + x.coordSys.zhat.smulR s.z ∧
      (Optic.compound d items).withLocallyShiftedOptic key s = .ok o' ∧
      EditedAt (fun a b => a = x ∧ Moved (fun c => ⟨c.origin + g, c.rot⟩) a b) p (.compound d items) o') ∧
    (∀ e, (Optic.compound d items).getItem key = .error e →
      (Optic.compound d items).withLocallyShiftedOptic key s = .error .valueError) := by
  constructor
  · intro x hx
    obtain ⟨p, hd⟩ := ((C48_lookup_partial d items ht.good key).1 x).1 hx
    have hfull := resolve_denotes ht.good hd
    have hget : (Optic.compound d items).itemDict.get? (dotted p) = some x :=
      (itemDict_get ht.good _ x).2 ⟨p, hd.1, rfl⟩
    have hx2 : (Optic.compound d items).getItem (dotted p) = .ok x :=
      ((C48_lookup_partial d items ht.good (dotted p)).1 x).2 ⟨p, hd.1, .inl rfl⟩
    obtain ⟨p', o', h1, h2, h3⟩ :=
      (C49_withGloballyShiftedOptic_partial d items ht (dotted p) (x.coordSys.rot.mulVec s)).1 x hx2
    refine ⟨p', o', x.coordSys.rot.mulVec s, h1, ?_, ?_, h3⟩
    · ext <;> simp [M3.mulVec, CoordSys.xhat, CoordSys.yhat, CoordSys.zhat] <;> ring
    · simp only [Optic.withLocallyShiftedOptic, hfull, hget, h2]
  · intro e he
    have hno : ¬ ∃ p x, Denotes (.compound d items) key p x := by
      rintro ⟨p, x, hd⟩
      rw [((C48_lookup_partial d items ht.good key).1 x).2 ⟨p, hd⟩] at he
      cases he
    obtain ⟨h1, h2⟩ := resolve_none ht.good hno
    simp [Optic.withLocallyShiftedOptic, h1, h2]

/-- The stop surface of an interface, if any, has the orientation of the interface. -/
def StopAligned : Optic ℝ → Prop
  | .iface d => ∀ s, d.stop = some s → s.coordSys.rot = d.coordSys.rot
  | .compound _ _ => True

theorem rotateLocal_rigid {R : M3 ℝ} {c c₀ : CoordSys ℝ} (hc : IsRotation c.rot) (h : c.rot = c₀.rot) (ce : V3 ℝ)
    (cs : CoordSys ℝ) :
    c.rotateLocal R ce (some cs) = rigid ((c₀.rot.mul R).mul c₀.rot.tr) (cs.toGlobal ce) c := by
  rw [← h]
  simp only [CoordSys.rotateLocal, rigid, rotateAbout, Option.getD_some]
  congr 1
  rw [M3.mul_assoc', hc.1, M3.mul_one']

theorem withLocalRotation_moved {R : M3 ℝ} (ce : V3 ℝ) (cs : CoordSys ℝ) (x : Optic ℝ) (hw : WellFormed x)
    (hx : IsRotation x.coordSys.rot) (hs : StopAligned x) :
    ∃ x', x.withLocalRotation R ce (some cs) = .ok x' ∧
      Moved (rigid ((x.coordSys.rot.mul R).mul x.coordSys.rot.tr) (cs.toGlobal ce)) x x' := by
  cases x with
  | iface d =>
    simp only [Optic.coordSys] at hx ⊢
    obtain ⟨d', h1, h2⟩ := init_moved (m := rigid ((d.coordSys.rot.mul R).mul d.coordSys.rot.tr) (cs.toGlobal ce)) (d := d) hw
      (cs := d.coordSys.rotateLocal R ce (some cs)) (st := d.stop.map (·.localRotation R ce (some cs)))
      (rotateLocal_rigid hx rfl ce cs) (by
        cases hst : d.stop with
        | none => rfl
        | some s =>
          have := hs s hst
          simp only [Option.map_some, Option.some.injEq, Stop.localRotation, movedStop]
          rw [rotateLocal_rigid (c := s.coordSys) (c₀ := d.coordSys) (by rw [this]; exact hx) this ce cs])
    refine ⟨.iface d', ?_, h2⟩
    simp only [Optic.withLocalRotation, Iface.withLocalRotation, Option.getD_some, h1]; rfl
  | compound d items =>
    exact withGlobalRotation_moved _ ce (some cs) (.compound d items) hw

/-- C49 for local rotations: exactly the optic returned by `o[key]` and its descendants turn, as one rigid body, about the
given centre (in the given frame, by default that of the named optic), by the rotation which has the given matrix in the
axes of the named optic.  Missing: interfaces with a stop surface of another orientation
(`C49_stop_of_rotated_interface_violated`) and untidy trees. -/
theorem C49_withLocallyRotatedOptic_partial (d : Comp ℝ) (items : List (Optic ℝ)) (ht : Tidy (.compound d items)) (key : Name)
    (R : M3 ℝ) (hR : IsRotation R) (ce : V3 ℝ) (cs : Option (CoordSys ℝ)) :
    (∀ x, (Optic.compound d items).getItem key = .ok x → IsRotation x.coordSys.rot → StopAligned x →
      ∃ p o' Q g, (p, x) ∈ nodes (.compound d items) ∧
        IsRotation Q ∧ (∀ v, Q.mulVec (x.coordSys.rot.mulVec v) = x.coordSys.rot.mulVec (R.mulVec v)) ∧
        g = centreAt cs ce (x.coordSys.toGlobal ce) ∧
        (Optic.compound d items).withLocallyRotatedOptic key R ce cs = .ok o' ∧
        EditedAt (fun a b => a = x ∧ Moved (rigid Q g) a b) p (.compound d items) o') ∧
    (∀ e, (Optic.compound d items).getItem key = .error e →
      (Optic.compound d items).withLocallyRotatedOptic key R ce cs = .error .valueError) := by
  constructor
  · intro x hx hrot hstop
    obtain ⟨p, hd⟩ := ((C48_lookup_partial d items ht.good key).1 x).1 hx
    have hfull := resolve_denotes ht.good hd
    have hget : (Optic.compound d items).itemDict.get? (dotted p) = some x :=
      (itemDict_get ht.good _ x).2 ⟨p, hd.1, rfl⟩
    obtain ⟨x', h1, h2⟩ := withLocalRotation_moved (R := R) ce (cs.getD x.coordSys) x
      (wellFormed_node _ ht.wellFormed _ hd.1) hrot hstop
    obtain ⟨o', h3, h4⟩ := applyNamed_denotes
      ⟨Optic.withLocalRotation R ce (some (cs.getD x.coordSys)), Optic.withLocalRotation R ce (some (cs.getD x.coordSys)),
        .attributeError⟩
      (fun a b => a = x ∧ Moved (rigid ((x.coordSys.rot.mul R).mul x.coordSys.rot.tr) ((cs.getD x.coordSys).toGlobal ce)) a b)
      (fun o o' h => moved_media h.2) h1 ⟨rfl, h2⟩ rfl ht.good ht.wellFormed (reached_of_prefixFree ht.prefixFree _ hd.1) hd
    refine ⟨p, o', _, _, hd.1, isRotation_mul (isRotation_mul hrot hR) (isRotation_tr hrot), ?_, ?_, ?_, h4⟩
    · intro v
      rw [M3.mul_mulVec, M3.mul_mulVec, hrot.orth.tr_mulVec]
    · cases cs <;> rfl
    · simp only [Optic.withLocallyRotatedOptic, hfull, hget, h3]
  · intro e he
    have hno : ¬ ∃ p x, Denotes (.compound d items) key p x := by
      rintro ⟨p, x, hd⟩
      rw [((C48_lookup_partial d items ht.good key).1 x).2 ⟨p, hd⟩] at he
      cases he
    obtain ⟨h1, h2⟩ := resolve_none ht.good hno
    simp [Optic.withLocallyRotatedOptic, h1, h2]

/-- The plane, over the reals, for examples. -/
noncomputable def planeR : Surface ℝ := ⟨fun _ _ => 0, fun _ _ => ⟨0, 0, 1⟩, fun r v _ _ => (true, -r.z / v.z)⟩

/-- A plain interface over the reals, for examples. -/
noncomputable def flatR (nm : String) (z : ℝ) : Iface ℝ where
  kind := .plain
  name := nm.toList
  surface := planeR
  obscuration := none
  coordSys := ⟨⟨0, 0, z⟩, M3.one⟩
  inMedium := ⟨fun _ => 1⟩
  outMedium := ⟨fun _ => 1⟩
  skip := false
  forwardCoating := none
  reverseCoating := none
  stop := none

/-- A compound over the reals, for examples. -/
noncomputable def compR (nm : String) : Comp ℝ := ⟨false, nm.toList, ⟨⟨0, 0, 0⟩, M3.one⟩, ⟨fun _ => 1⟩, ⟨fun _ => 1⟩, false, none⟩

noncomputable def treeR : List (Optic ℝ) :=
  [.iface (flatR "A" 0), .compound (compR "U") [.iface (flatR "A" 1), .iface (flatR "B" 2)]]

theorem treeR_tidy : Tidy (.compound (compR "T") treeR) := by
  refine ⟨?_, ?_, ?_⟩
  · simp [treeR, compR, Good, GoodItems, flatR, Optic.name]
  · simp [treeR, compR, WellFormed, WellFormedItems, flatR]
  · simp [treeR, compR, PrefixFree, PrefixFreeItems, flatR, Optic.name]

theorem treeR_U : (Optic.compound (compR "T") treeR).getItem "U".toList =
    .ok (.compound (compR "U") [.iface (flatR "A" 1), .iface (flatR "B" 2)]) := rfl

/-- The hypotheses are met by a nested tree; the rotation of `U` by any angle about its x axis is rigid. -/
example (t : ℝ) : ∃ o', (Optic.compound (compR "T") treeR).withLocallyRotatedOptic "U".toList (RotX t) ⟨0, 0, 1⟩ none = .ok o' := by
  obtain ⟨p, o', Q, g, -, -, -, -, h, -⟩ :=
    (C49_withLocallyRotatedOptic_partial (compR "T") treeR treeR_tidy "U".toList (RotX t) (rotX_isRotation t) ⟨0, 0, 1⟩ none).1 _
      treeR_U isRotation_one trivial
  exact ⟨o', h⟩

/-- The conclusion for the shifted `U`: `A` outside is untouched, both items of `U` move. -/
example : ∃ o', (Optic.compound (compR "T") treeR).withGloballyShiftedOptic "U".toList ⟨0, 0, 5⟩ = .ok o' ∧
    ∃ u, o' = .compound { compR "T" with skip := false } [.iface (flatR "A" 0), u] ∧
      Moved (fun c => ⟨c.origin + ⟨0, 0, 5⟩, c.rot⟩) (.compound (compR "U") [.iface (flatR "A" 1), .iface (flatR "B" 2)]) u := by
  obtain ⟨p, o', hp, h, he⟩ :=
    (C49_withGloballyShiftedOptic_partial (compR "T") treeR treeR_tidy "U".toList ⟨0, 0, 5⟩).1 _ treeR_U
  refine ⟨o', h, ?_⟩
  generalize hT : Optic.compound (compR "T") treeR = T at he
  cases he with
  | here hR =>
    obtain ⟨rfl, -⟩ := hR
    have := congrArg Optic.name hT
    simp [compR, Optic.name] at this
  | @inside dd a b it it' p hin =>
    simp only [Optic.compound.injEq] at hT
    obtain ⟨rfl, hT⟩ := hT
    match a, hT with
    | [], hT =>
      simp only [treeR, List.nil_append, List.cons.injEq] at hT
      obtain ⟨rfl, -⟩ := hT
      cases hin with
      | here hR => exact absurd hR.1 (by simp)
    | [a1], hT =>
      simp only [treeR, List.cons_append, List.nil_append, List.cons.injEq] at hT
      obtain ⟨rfl, rfl, rfl⟩ := hT
      generalize hU : Optic.compound (compR "U") [.iface (flatR "A" 1), .iface (flatR "B" 2)] = U at hin ⊢
      cases hin with
      | here hR => exact ⟨it', rfl, hR.2⟩
      | @inside d2 a2 b2 it2 it2' p2 hin2 =>
        simp only [Optic.compound.injEq] at hU
        obtain ⟨-, hU⟩ := hU
        have hmem : it2 ∈ [Optic.iface (flatR "A" 1), .iface (flatR "B" 2)] := by rw [hU]; simp
        simp only [List.mem_cons, List.not_mem_nil, or_false] at hmem
        rcases hmem with rfl | rfl <;> cases hin2 with
          | here hR => exact absurd hR.1 (by simp)
    | a1 :: a2 :: a3, hT => simp [treeR] at hT

/-- C49 fails for an interface with a stop surface of another orientation: after `withLocalRotation` by a quarter turn the
frame of the interface and that of its stop surface have not moved by a common rotation. -/
theorem C49_stop_of_rotated_interface_violated : ∃ (d d' : Iface ℝ) (s s' : Stop ℝ) (R : M3 ℝ), IsRotation d.coordSys.rot ∧
    IsRotation s.coordSys.rot ∧ IsRotation R ∧ d.stop = some s ∧ d.withLocalRotation R ⟨0, 0, 0⟩ none = .ok d' ∧
    d'.stop = some s' ∧
    ¬ ∃ Q : M3 ℝ, d'.coordSys.rot = Q.mul d.coordSys.rot ∧ s'.coordSys.rot = Q.mul s.coordSys.rot := by
  let P : M3 ℝ := ⟨0, 0, 1, 1, 0, 0, 0, 1, 0⟩
  let R : M3 ℝ := ⟨0, -1, 0, 1, 0, 0, 0, 0, 1⟩
  let s : Stop ℝ := ⟨⟨⟨0, 0, 0⟩, P⟩, planeR⟩
  let d : Iface ℝ := { flatR "A" 0 with stop := some s }
  let cs : CoordSys ℝ := d.coordSys.rotateLocal R ⟨0, 0, 0⟩ (some d.coordSys)
  let st : Option (Stop ℝ) := some (s.localRotation R ⟨0, 0, 0⟩ (some d.coordSys))
  refine ⟨d, { d with coordSys := cs, stop := st }, s, s.localRotation R ⟨0, 0, 0⟩ (some d.coordSys), R,
    isRotation_one, ?_, ?_, rfl, rfl, rfl, ?_⟩
  · constructor
    · ext <;> simp [s, P, M3.mul, M3.tr, M3.one]
    · simp [s, P, M3.det]
  · constructor
    · ext <;> simp [R, M3.mul, M3.tr, M3.one]
    · simp [R, M3.det]
  · rintro ⟨Q, h1, h2⟩
    have hQ : Q = R := by
      have : (M3.one.mul R) = Q.mul M3.one := h1
      rw [M3.mul_one', M3.one_mul'] at this
      exact this.symm
    subst hQ
    have := congrArg M3.m11 h2
    simp [Stop.localRotation, CoordSys.rotateLocal, s, P, R, M3.mul] at this

/-! ## C50 -/

section c50
variable {F : Type}

/-- `d'` is `d` with another surface. -/
structure Resurfaced (s : Surface F) (d d' : Iface F) : Prop where
  kind : d'.kind = d.kind
  name : d'.name = d.name
  surface : d'.surface = s
  obscuration : d'.obscuration = d.obscuration
  inMedium : d'.inMedium = d.inMedium
  outMedium : d'.outMedium = d.outMedium
  coordSys : d'.coordSys = d.coordSys
  stop : d'.stop = d.stop

variable [Add F] [Sub F] [Mul F] [OfNat F 0] [OfNat F 1]

/-- C50 and C58 for `withSurface`, on trees where no name is a prefix of that of a later sibling: the interface whose surface
is replaced is the one returned by `o[key]`, and nothing else changes; keys denoting nothing raise.  Missing: prefix related
siblings, for which the statement is false (`C50_prefix_sibling_violated`, `C50_prefix_sibling_wrong_optic_violated`). -/
theorem C50_withSurface_partial (d : Comp F) (items : List (Optic F)) (ht : Tidy (.compound d items)) (key : Name) (s : Surface F) :
    (∀ x, (Optic.compound d items).getItem key = .ok (.iface x) → ∃ p o', (p, .iface x) ∈ nodes (.compound d items) ∧
      (Optic.compound d items).withSurface key s = .ok o' ∧
      EditedAt (fun a b => a = .iface x ∧ ∃ x', b = .iface x' ∧ Resurfaced s x x') p (.compound d items) o') ∧
    (∀ e, (Optic.compound d items).getItem key = .error e → (Optic.compound d items).withSurface key s = .error .valueError) := by
  constructor
  · intro x hx
    obtain ⟨p, hd⟩ := ((C48_lookup_partial d items ht.good key).1 _).1 hx
    have hw : WellFormed (.iface x) := wellFormed_node _ ht.wellFormed _ hd.1
    have h1 : Iface.init { x with surface := s } = .ok { x with surface := s, skip := false }.resetCoatings := init_ok hw
    obtain ⟨r1, r2, r3, r4, r5, r6, r7, r8, -⟩ := resetCoatings_fields ({ x with surface := s, skip := false } : Iface F)
    have h2 : Resurfaced s x ({ x with surface := s, skip := false } : Iface F).resetCoatings := ⟨r1, r2, r3, r4, r5, r6, r7, r8⟩
    have h3 : Optic.setSurface s (.iface x) = .ok (.iface ({ x with surface := s, skip := false } : Iface F).resetCoatings) := by
      simp only [Optic.setSurface, Iface.withSurface, h1]; rfl
    have hne : p ≠ [(Optic.compound d items).name] := by
      intro e; subst e
      have hs : ([d.name], Optic.compound d items) ∈ nodes (.compound d items) := by simp [nodes]
      have := List.inj_on_of_nodup_map (nodes_nodup _ ht.good) hs hd.1 rfl
      simp at this
    obtain ⟨o', h4, h5⟩ := applyNamed_below ⟨fun _ => .error .assertionError, Optic.setSurface s, .typeError⟩
      (fun a b => a = .iface x ∧ ∃ x', b = .iface x' ∧ Resurfaced s x x')
      (by rintro o o' ⟨rfl, x', rfl, h⟩; exact ⟨h.inMedium, h.outMedium, h.name⟩) h3 ⟨rfl, _, rfl, h2⟩
      (.compound d items) p ht.good ht.wellFormed (reached_of_prefixFree ht.prefixFree _ hd.1) hd.1 hne
    refine ⟨p, o', hd.1, ?_, h5⟩
    rw [Optic.withSurface, ← h4]
    simp only [Optic.applyNamed, resolve_denotes ht.good hd,
      resolve_denotes ht.good (⟨hd.1, .inl rfl⟩ : Denotes (.compound d items) (dotted p) p _)]
  · intro e he
    refine applyNamed_missing _ ht.good ?_
    rintro ⟨p, x, hd⟩
    rw [((C48_lookup_partial d items ht.good key).1 x).2 ⟨p, hd⟩] at he
    cases he

end c50

example : ∃ o', (Optic.compound (compR "T") treeR).withSurface "B".toList ⟨fun x y => x ^ 2 + y ^ 2, planeR.normal, planeR.timeToIntersect⟩ = .ok o' := by
  obtain ⟨p, o', -, h, -⟩ := (C50_withSurface_partial (compR "T") treeR treeR_tidy "B".toList ⟨fun x y => x ^ 2 + y ^ 2, planeR.normal, planeR.timeToIntersect⟩).1 (flatR "B" 2) rfl
  exact ⟨o', h⟩

/-- C50 fails when the name of an item is a prefix of that of a later one: `o['L10']` is found, but shifting, rotating or
resurfacing it raises, because the item `L1` is selected. -/
theorem C50_prefix_sibling_violated : ∃ (d : Comp ℝ) (items : List (Optic ℝ)) (x : Optic ℝ),
    Good (.compound d items) ∧ WellFormed (.compound d items) ∧ (Optic.compound d items).getItem "L10".toList = .ok x ∧
    ∀ s, (Optic.compound d items).withGloballyShiftedOptic "L10".toList s = .error .attributeError ∧
      (Optic.compound d items).withLocallyShiftedOptic "L10".toList s = .error .attributeError ∧
      (∀ R cs, (Optic.compound d items).withLocallyRotatedOptic "L10".toList R s cs = .error .attributeError) ∧
      ∀ t, (Optic.compound d items).withSurface "L10".toList t = .error .typeError := by
  refine ⟨compR "T", [.iface (flatR "L1" 0), .iface (flatR "L10" 1)], .iface (flatR "L10" 1), ?_, ?_, rfl, fun s => ⟨rfl, rfl, fun R cs => rfl, fun t => rfl⟩⟩
  · simp [compR, Good, GoodItems, flatR, Optic.name]
  · simp [compR, WellFormed, WellFormedItems, flatR]

/-- C50 fails worse: with an item `L1` that itself contains an `L10`, shifting `T.L10` silently moves `T.L1.L10` instead of
the optic returned by `o['T.L10']`. -/
theorem C50_prefix_sibling_wrong_optic_violated (s : V3 ℝ) : ∃ (d d1 : Comp ℝ) (inner inner' outer : Iface ℝ),
    Good (.compound d [.compound d1 [.iface inner], .iface outer]) ∧
    (Optic.compound d [.compound d1 [.iface inner], .iface outer]).getItem "T.L10".toList = .ok (.iface outer) ∧
    (Optic.compound d [.compound d1 [.iface inner], .iface outer]).withGloballyShiftedOptic "T.L10".toList s =
      .ok (.compound d [.compound d1 [.iface inner'], .iface outer]) ∧
    inner'.coordSys = ⟨inner.coordSys.origin + s, inner.coordSys.rot⟩ := by
  refine ⟨compR "T", compR "L1", flatR "L10" 1, { flatR "L10" 1 with coordSys := ⟨(flatR "L10" 1).coordSys.origin + s, M3.one⟩ },
    flatR "L10" 2, ?_, rfl, rfl, rfl⟩
  simp [compR, Good, GoodItems, flatR, Optic.name]

/-! ### Which optics the named edits reach -/

section reach
variable {F : Type} [Add F] [Sub F] [Mul F] [OfNat F 0] [OfNat F 1]

theorem mkCompound_inv {d : Comp F} {items : List (Optic F)} {o : Optic F} (h : Optic.mkCompound d items = .ok o) :
    o = .compound { d with skip := false } items := by
  unfold Optic.mkCompound at h
  split at h
  · split at h
    · split at h
      · cases h; rfl
      · cases h
    · cases h
  · cases h; rfl

mutual
/-- An optic whose path is obstructed is not touched. -/
theorem applyNamed_unreached (op : Optic.NamedOp F) {x : Optic F} : ∀ (o : Optic F) (p : List Name), Good o → (p, x) ∈ nodes o →
    ¬ Reached o p → ∀ o', Optic.applyNamed op o (dotted p) = .ok o' → (p, x) ∈ nodes o'
  | .iface d, p, _, hp, hn, _, _ => by
    simp [nodes] at hp; exact absurd hp.1 hn
  | .compound d items, p, hg, hp, hn, o', h => by
    have hfull := resolve_denotes hg (⟨hp, .inl rfl⟩ : Denotes (.compound d items) (dotted p) p x)
    have hhas := has_of_node hg hp
    simp only [nodes, List.mem_cons, List.mem_map] at hp
    rcases hp with hp | ⟨⟨r, y⟩, hr, hp⟩
    · exact absurd (.inl (Prod.mk.inj hp).1) hn
    · simp only [Prod.mk.injEq] at hp
      obtain ⟨rfl, rfl⟩ := hp
      have hr0 := (nodesItems_head items _ hr).1
      have hdot : dotted (d.name :: r) = d.name ++ '.' :: dotted r := dotted_cons _ hr0
      have hnd : dotted (d.name :: r) ≠ d.name := by
        rw [hdot]; intro e
        have := congrArg List.length e
        simp at this
      have htake : (dotted (d.name :: r)).take (d.name.length + 1) = d.name ++ ['.'] := by
        rw [hdot]
        simp [List.take_append]
      have hdrop : (dotted (d.name :: r)).drop (d.name.length + 1) = dotted r := by
        rw [hdot]
        simp [List.drop_append]
      rw [Optic.applyNamed] at h
      simp only [hfull, hhas, Bool.not_true, Bool.false_eq_true, if_false, hnd, htake, if_true, hdrop] at h
      cases hi : Optic.applyItems op items (dotted r) with
      | error e => rw [hi] at h; cases h
      | ok items' =>
        rw [hi] at h
        have hm := mkCompound_inv h
        subst hm
        simp only [nodes, List.mem_cons, List.mem_map]
        exact .inr ⟨(r, y), applyItems_unreached op items r hg.2.2 hr (fun hc => hn (.inr ⟨r, rfl, hc⟩)) items' hi, rfl⟩
theorem applyItems_unreached (op : Optic.NamedOp F) {x : Optic F} : ∀ (items : List (Optic F)) (p : List Name), GoodItems items →
    (p, x) ∈ nodesItems items → ¬ ReachedItems items p →
    ∀ items', Optic.applyItems op items (dotted p) = .ok items' → (p, x) ∈ nodesItems items'
  | [], _, _, hp, _, _, _ => by simp [nodesItems] at hp
  | o :: os, p, hg, hp, hn, items', h => by
    simp only [nodesItems, List.mem_append] at hp
    rw [Optic.applyItems] at h
    have hpre0 : (p, x) ∈ nodes o → o.name <+: dotted p ∧ p.head? = some o.name := by
      intro hp
      obtain ⟨hp0, hhead⟩ := nodes_ne_nil o _ hp
      refine ⟨?_, hhead⟩
      cases p with
      | nil => exact absurd rfl hp0
      | cons c r =>
        simp only [List.head?_cons, Option.some.injEq] at hhead
        subst hhead
        by_cases hr : r = []
        · subst hr; rw [dotted_single]
        · rw [dotted_cons _ hr]; exact List.prefix_append _ _
    by_cases hpre : o.name.isPrefixOf (dotted p) = true
    · simp only [hpre, if_true] at h
      by_cases hnm : dotted p = o.name
      · simp only [hnm, if_true] at h
        cases hi : op.onItem o with
        | error e => rw [hi] at h; cases h
        | ok o' =>
          rw [hi] at h; cases h
          simp only [nodesItems, List.mem_append]
          rcases hp with hp | hp
          · refine absurd (.inl ⟨(hpre0 hp).2, ?_⟩) hn
            have hpn : p = [o.name] := by
              have hd := good_dotfree o hg.1 _ hp
              refine dotted_inj (nodes_ne_nil o _ hp).1 (by simp) hd ?_ (by rw [hnm, dotted_single])
              intro a ha
              rw [List.mem_singleton] at ha; subst ha
              exact good_name hg.1
            subst hpn
            cases o with
            | iface d => exact rfl
            | compound d its => exact .inl rfl
          · exact .inr hp
      · simp only [hnm, if_false] at h
        cases hi : Optic.applyNamed op o (dotted p) with
        | error e => rw [hi] at h; cases h
        | ok o' =>
          rw [hi] at h; cases h
          simp only [nodesItems, List.mem_append]
          rcases hp with hp | hp
          · exact .inl (applyNamed_unreached op o p hg.1 hp (fun hc => hn (.inl ⟨(hpre0 hp).2, hc⟩)) o' hi)
          · exact .inr hp
    · simp only [hpre, if_false] at h
      cases hi : Optic.applyItems op os (dotted p) with
      | error e => rw [hi] at h; cases h
      | ok os' =>
        rw [hi] at h; cases h
        simp only [nodesItems, List.mem_append]
        rw [List.isPrefixOf_iff_prefix] at hpre
        rcases hp with hp | hp
        · exact absurd (hpre0 hp).1 hpre
        · refine .inr (applyItems_unreached op os p hg.2 hp (fun hc => hn (.inr ⟨?_, hc⟩)) os' hi)
          intro a ha hpa
          refine hpre (hpa.trans ?_)
          cases p with
          | nil => cases ha
          | cons c r =>
            simp only [List.head?_cons, Option.mem_some_iff] at ha
            subst ha
            by_cases hr : r = []
            · subst hr; rw [dotted_single]
            · rw [dotted_cons _ hr]; exact List.prefix_append _ _
end

theorem applyNamed_key (op : Optic.NamedOp F) {d : Comp F} {items : List (Optic F)} (hg : Good (.compound d items)) {key : Name}
    {p : List Name} {x : Optic F} (hd : Denotes (.compound d items) key p x) :
    Optic.applyNamed op (.compound d items) key = Optic.applyNamed op (.compound d items) (dotted p) := by
  have hfull := resolve_denotes hg hd
  have hfull2 := resolve_denotes hg (⟨hd.1, .inl rfl⟩ : Denotes (.compound d items) (dotted p) p x)
  simp only [Optic.applyNamed, hfull, hfull2]

/-- C50 for every tree with dot-free names, distinct among siblings, that satisfies the constructors' assertions, and every
optic that no item before it, at any level, hides: the perturbed optic is the one returned by `o[key]`. -/
theorem C50_reached_partial (d : Comp F) (items : List (Optic F)) (hg : Good (.compound d items))
    (hw : WellFormed (.compound d items)) (key : Name) (p : List Name) (x : Optic F) (hd : Denotes (.compound d items) key p x)
    (hr : Reached (.compound d items) p) :
    (Optic.compound d items).getItem key = .ok x ∧
    (∀ s, ∃ o', (Optic.compound d items).withGloballyShiftedOptic key s = .ok o' ∧
      EditedAt (fun a b => a = x ∧ Moved (fun c => ⟨c.origin + s, c.rot⟩) a b) p (.compound d items) o') ∧
    (∀ s, ∃ o', (Optic.compound d items).withLocallyShiftedOptic key s = .ok o' ∧
      EditedAt (fun a b => a = x ∧ Moved (fun c => ⟨c.origin + x.coordSys.rot.mulVec s, c.rot⟩) a b) p (.compound d items) o') ∧
    (∀ t y, x = .iface y → ∃ o', (Optic.compound d items).withSurface key t = .ok o' ∧
      EditedAt (fun a b => a = .iface y ∧ ∃ y', b = .iface y' ∧ Resurfaced t y y') p (.compound d items) o') := by
  have hglob : ∀ {k : Name} (_ : Denotes (.compound d items) k p x) (s : V3 F), ∃ o',
      (Optic.compound d items).withGloballyShiftedOptic k s = .ok o' ∧
      EditedAt (fun a b => a = x ∧ Moved (fun c => ⟨c.origin + s, c.rot⟩) a b) p (.compound d items) o' := by
    intro k hk s
    obtain ⟨x', h1, h2⟩ := withGlobalShift_moved s x (wellFormed_node _ hw _ hd.1)
    exact applyNamed_denotes ⟨Optic.withGlobalShift s, Optic.withGlobalShift s, .attributeError⟩
      (fun a b => a = x ∧ Moved (fun c : CoordSys F => ⟨c.origin + s, c.rot⟩) a b) (fun o o' h => moved_media h.2)
      h1 ⟨rfl, h2⟩ rfl hg hw hr hk
  refine ⟨((C48_lookup_partial d items hg key).1 x).2 ⟨p, hd⟩, hglob hd, fun s => ?_, ?_⟩
  · obtain ⟨o', h1, h2⟩ := hglob (⟨hd.1, .inl rfl⟩ : Denotes (.compound d items) (dotted p) p x) (x.coordSys.rot.mulVec s)
    refine ⟨o', ?_, h2⟩
    simp only [Optic.withLocallyShiftedOptic, resolve_denotes hg hd, (itemDict_get hg _ x).2 ⟨p, hd.1, rfl⟩, h1]
  · rintro t y rfl
    have hwy : WellFormed (.iface y) := wellFormed_node _ hw _ hd.1
    have h1 : Iface.init { y with surface := t } = .ok { y with surface := t, skip := false }.resetCoatings := init_ok hwy
    obtain ⟨r1, r2, r3, r4, r5, r6, r7, r8, -⟩ := resetCoatings_fields ({ y with surface := t, skip := false } : Iface F)
    have h2 : Resurfaced t y ({ y with surface := t, skip := false } : Iface F).resetCoatings := ⟨r1, r2, r3, r4, r5, r6, r7, r8⟩
    have h3 : Optic.setSurface t (.iface y) = .ok (.iface ({ y with surface := t, skip := false } : Iface F).resetCoatings) := by
      simp only [Optic.setSurface, Iface.withSurface, h1]; rfl
    have hne : p ≠ [(Optic.compound d items).name] := by
      intro e; subst e
      have hs : ([d.name], Optic.compound d items) ∈ nodes (.compound d items) := by simp [nodes]
      have := List.inj_on_of_nodup_map (nodes_nodup _ hg) hs hd.1 rfl
      simp at this
    obtain ⟨o', h4, h5⟩ := applyNamed_below ⟨fun _ => .error .assertionError, Optic.setSurface t, .typeError⟩
      (fun a b => a = .iface y ∧ ∃ y', b = .iface y' ∧ Resurfaced t y y')
      (by rintro o o' ⟨rfl, y', rfl, h⟩; exact ⟨h.inMedium, h.outMedium, h.name⟩) h3 ⟨rfl, _, rfl, h2⟩
      (.compound d items) p hg hw hr hd.1 hne
    exact ⟨o', by rw [Optic.withSurface, applyNamed_key _ hg hd, h4], h5⟩

/-- C50 fails for every optic that an item before it hides: whatever `with*Optic(key)` or `withSurface(key)` return, if they
return at all, the optic returned by `o[key]` is in it as it was. -/
theorem C50_unreached_violated (d : Comp F) (items : List (Optic F)) (hg : Good (.compound d items)) (key : Name) (p : List Name)
    (x : Optic F) (hd : Denotes (.compound d items) key p x) (hr : ¬ Reached (.compound d items) p) :
    (Optic.compound d items).getItem key = .ok x ∧
    (∀ s o', (Optic.compound d items).withGloballyShiftedOptic key s = .ok o' → (p, x) ∈ nodes o') ∧
    (∀ s o', (Optic.compound d items).withLocallyShiftedOptic key s = .ok o' → (p, x) ∈ nodes o') ∧
    (∀ R ce cs o', (Optic.compound d items).withLocallyRotatedOptic key R ce cs = .ok o' → (p, x) ∈ nodes o') ∧
    (∀ t o', (Optic.compound d items).withSurface key t = .ok o' → (p, x) ∈ nodes o') := by
  have hany : ∀ {k : Name} (_ : Denotes (.compound d items) k p x) (op : Optic.NamedOp F) o',
      Optic.applyNamed op (.compound d items) k = .ok o' → (p, x) ∈ nodes o' := by
    intro k hk op o' h
    rw [applyNamed_key op hg hk] at h
    exact applyNamed_unreached op _ p hg hd.1 hr o' h
  have hget := (itemDict_get hg _ x).2 ⟨p, hd.1, rfl⟩
  refine ⟨((C48_lookup_partial d items hg key).1 x).2 ⟨p, hd⟩, fun s => hany hd _, fun s o' h => ?_, fun R ce cs o' h => ?_,
    fun t => hany hd _⟩
  · simp only [Optic.withLocallyShiftedOptic, resolve_denotes hg hd, hget] at h
    exact hany ⟨hd.1, .inl rfl⟩ _ o' h
  · simp only [Optic.withLocallyRotatedOptic, resolve_denotes hg hd, hget] at h
    exact hany hd _ o' h

end reach

example : Denotes (.compound (compR "T") [.iface (flatR "L1" 0), .iface (flatR "L10" 1)]) "T.L10".toList
      ["T".toList, "L10".toList] (.iface (flatR "L10" 1)) ∧
    ¬ Reached (.compound (compR "T") [.iface (flatR "L1" 0), .iface (flatR "L10" 1)]) ["T".toList, "L10".toList] ∧
    Reached (.compound (compR "T") [.iface (flatR "L10" 1), .iface (flatR "L1" 0)]) ["T".toList, "L10".toList] := by
  refine ⟨⟨by simp [nodes, nodesItems, compR, flatR], .inl rfl⟩, ?_, ?_⟩
  · simp [Reached, ReachedItems, compR, flatR, Optic.name]
  · simp [Reached, ReachedItems, compR, flatR, Optic.name]

/-! ## C58: inserting and removing -/

section c58
variable {F : Type}

/-- The short name of each item of the compound belongs to it alone in the whole tree. -/
def ShortUnique (d : Comp F) (items : List (Optic F)) : Prop :=
  ∀ it ∈ items, ∀ q ∈ nodes (.compound d items), [it.name] <:+ q.1 → q.1 = [d.name, it.name]

theorem item_node {d : Comp F} {items : List (Optic F)} {it : Optic F} (h : it ∈ items) :
    ([d.name, it.name], it) ∈ nodes (.compound d items) := by
  simp only [nodes, List.mem_cons, List.mem_map]
  refine .inr ⟨([it.name], it), (mem_nodesItems _ _).2 ⟨it, h, ?_⟩, rfl⟩
  cases it <;> simp [nodes, Optic.name]

theorem names_item {d : Comp F} {items : List (Optic F)} (hg : Good (.compound d items)) (hu : ShortUnique d items)
    {it : Optic F} (h : it ∈ items) : (Optic.compound d items).names.get? it.name = some (dotted [d.name, it.name]) := by
  refine (names_get hg _ _).2 ⟨[it.name], [d.name, it.name], it, by simp, (dotted_single _).symm, rfl, item_node h,
    ⟨[d.name], rfl⟩, fun p' x' hp' hs => hu it h _ hp' hs⟩

theorem names_full {d : Comp F} {items : List (Optic F)} (hg : Good (.compound d items)) {p : List Name} {x : Optic F}
    (hp : (p, x) ∈ nodes (.compound d items)) (hu : ∀ q ∈ nodes (.compound d items), p <:+ q.1 → q.1 = p) :
    (Optic.compound d items).names.get? (dotted p) = some (dotted p) :=
  (names_get hg _ _).2 ⟨p, p, x, (nodes_ne_nil _ _ hp).1, rfl, rfl, hp, List.suffix_rfl, fun p' x' hp' hs => hu _ hp' hs⟩

theorem dotted_two_inj {d : Comp F} {items : List (Optic F)} (hg : Good (.compound d items)) {it : Optic F} (h : it ∈ items)
    {p : List Name} {x : Optic F} (hp : (p, x) ∈ nodes (.compound d items)) (e : dotted [d.name, it.name] = dotted p) :
    [d.name, it.name] = p :=
  dotted_inj (by simp) (nodes_ne_nil _ _ hp).1 (good_dotfree _ hg _ (item_node h)) (good_dotfree _ hg _ hp) e

theorem insertLoop_eq {d : Comp F} {items : List (Optic F)} (hg : Good (.compound d items)) (hu : ShortUnique d items)
    {p : List Name} {x : Optic F} (hp : (p, x) ∈ nodes (.compound d items))
    (hpu : ∀ q ∈ nodes (.compound d items), p <:+ q.1 → q.1 = p) (new : Optic F) :
    ∀ l : List (Optic F), (∀ it ∈ l, it ∈ items) → Optic.insertLoop (Optic.compound d items).names (dotted p) new l =
      .ok (l.flatMap (fun it => if [d.name, it.name] = p then [new, it] else [it]))
  | [], _ => rfl
  | it :: l, h => by
    have h1 := names_item hg hu (h it (by simp))
    have h2 := names_full hg hp hpu
    have ih := insertLoop_eq hg hu hp hpu new l (fun i hi => h i (by simp [hi]))
    simp only [Optic.insertLoop, h1, h2, ih]
    by_cases e : [d.name, it.name] = p
    · subst e; simp
    · have : dotted [d.name, it.name] ≠ dotted p := fun e' => e (dotted_two_inj hg (h it (by simp)) hp e')
      simp [e, this]

theorem removeLoop_eq {d : Comp F} {items : List (Optic F)} (hg : Good (.compound d items)) (hu : ShortUnique d items)
    {p : List Name} {x : Optic F} (hp : (p, x) ∈ nodes (.compound d items))
    (hpu : ∀ q ∈ nodes (.compound d items), p <:+ q.1 → q.1 = p) :
    ∀ l : List (Optic F), (∀ it ∈ l, it ∈ items) → Optic.removeLoop (Optic.compound d items).names (dotted p) l =
      .ok (l.flatMap (fun it => if [d.name, it.name] = p then [] else [it]))
  | [], _ => rfl
  | it :: l, h => by
    have h1 := names_item hg hu (h it (by simp))
    have h2 := names_full hg hp hpu
    have ih := removeLoop_eq hg hu hp hpu l (fun i hi => h i (by simp [hi]))
    simp only [Optic.removeLoop, h1, h2, ih]
    by_cases e : [d.name, it.name] = p
    · subst e; simp
    · have : dotted [d.name, it.name] ≠ dotted p := fun e' => e (dotted_two_inj hg (h it (by simp)) hp e')
      simp [e, this]

theorem suffix_unique {d : Comp F} {items : List (Optic F)} (hu : ShortUnique d items) {it : Optic F} (h : it ∈ items) :
    ∀ q ∈ nodes (.compound d items), [d.name, it.name] <:+ q.1 → q.1 = [d.name, it.name] :=
  fun q hq hs => hu it h q hq (List.IsSuffix.trans ⟨[d.name], rfl⟩ hs)

theorem flatMap_const {α β : Type} {l : List α} {f : α → List β} {g : α → β} (h : ∀ x ∈ l, f x = [g x]) : l.flatMap f = l.map g := by
  induction l with
  | nil => rfl
  | cons a l ih =>
    rw [List.flatMap_cons, h a (by simp), ih (fun x hx => h x (by simp [hx]))]; rfl

theorem split_items {d : Comp F} {a b : List (Optic F)} {it : Optic F} (hg : Good (.compound d (a ++ it :: b))) (f : Optic F → List (Optic F)) :
    ((a ++ it :: b).flatMap (fun i => if [d.name, i.name] = [d.name, it.name] then f i else [i])) = a ++ f it ++ b := by
  have hn := hg.2.1
  rw [List.map_append, List.map_cons, List.nodup_append] at hn
  obtain ⟨-, hn2, hn3⟩ := hn
  rw [List.nodup_cons] at hn2
  rw [List.flatMap_append, List.flatMap_cons]
  have ha : a.flatMap (fun i => if [d.name, i.name] = [d.name, it.name] then f i else [i]) = a := by
    rw [flatMap_const (g := id), List.map_id]
    intro i hi
    have : i.name ≠ it.name := fun e => hn3 _ (List.mem_map.2 ⟨i, hi, e⟩) _ (by simp) rfl
    simp [this]
  have hb : b.flatMap (fun i => if [d.name, i.name] = [d.name, it.name] then f i else [i]) = b := by
    rw [flatMap_const (g := id), List.map_id]
    intro i hi
    have : i.name ≠ it.name := fun e => hn2.1 (List.mem_map.2 ⟨i, hi, e⟩)
    simp [this]
  rw [ha, hb]; simp

variable [Add F] [Sub F] [Mul F] [OfNat F 0] [OfNat F 1]

/-- C58: `withInsertedOptic(key, new)` with the key of an item of the compound puts `new` before that item; all other items
keep their order and content.  Proved for compounds whose items have unambiguous short names; otherwise see
`C58_ambiguous_short_name_violated`, and for deeper targets `C58_nested_target_violated`. -/
theorem C58_withInsertedOptic_partial (d : Comp F) (a b : List (Optic F)) (it new : Optic F)
    (hg : Good (.compound d (a ++ it :: b))) (hu : ShortUnique d (a ++ it :: b)) (hl : d.isLens = false) (key : Name)
    (hkey : Denotes (.compound d (a ++ it :: b)) key [d.name, it.name] it) :
    (Optic.compound d (a ++ it :: b)).withInsertedOptic key new = .ok (.compound { d with skip := false } (a ++ new :: it :: b)) := by
  have hmem : it ∈ a ++ it :: b := by simp
  have h1 := insertLoop_eq hg hu hkey.1 (suffix_unique hu hmem) new (a ++ it :: b) (fun i hi => hi)
  have h2 := split_items hg (fun i => [new, i])
  have hhas := has_of_node hg hkey.1
  simp only [Optic.withInsertedOptic, resolve_denotes hg hkey, hhas, Bool.not_true, Bool.false_eq_true, if_false, h1, h2]
  show Optic.mkCompound d _ = _
  rw [mkCompound_ok (by simp [hl])]
  simp

/-- C58: `withRemovedOptic` of an item removes it and nothing else, under the same conditions. -/
theorem C58_withRemovedOptic_partial (d : Comp F) (a b : List (Optic F)) (it : Optic F)
    (hg : Good (.compound d (a ++ it :: b))) (hu : ShortUnique d (a ++ it :: b)) (hl : d.isLens = false) (key : Name)
    (hkey : Denotes (.compound d (a ++ it :: b)) key [d.name, it.name] it) :
    (Optic.compound d (a ++ it :: b)).withRemovedOptic key = .ok (.compound { d with skip := false } (a ++ b)) := by
  have hmem : it ∈ a ++ it :: b := by simp
  have h1 := removeLoop_eq hg hu hkey.1 (suffix_unique hu hmem) (a ++ it :: b) (fun i hi => hi)
  have h2 := split_items hg (fun i => [])
  have hhas := has_of_node hg hkey.1
  simp only [Optic.withRemovedOptic, resolve_denotes hg hkey, hhas, Bool.not_true, Bool.false_eq_true, if_false, h1, h2]
  show Optic.mkCompound d _ = _
  rw [mkCompound_ok (by simp [hl])]
  simp

/-- C58: inserting an optic before an item and removing it again gives back the tree. -/
theorem C58_insert_then_remove_partial (d : Comp F) (a b : List (Optic F)) (it new : Optic F)
    (hg : Good (.compound d (a ++ new :: it :: b))) (hu : ShortUnique d (a ++ new :: it :: b))
    (hg0 : Good (.compound d (a ++ it :: b))) (hu0 : ShortUnique d (a ++ it :: b)) (hl : d.isLens = false) (hs : d.skip = false) :
    ∃ o', (Optic.compound d (a ++ it :: b)).withInsertedOptic (dotted [d.name, it.name]) new = .ok o' ∧
      o'.withRemovedOptic (dotted [d.name, new.name]) = .ok (.compound d (a ++ it :: b)) := by
  have hd : ({ d with skip := false } : Comp F) = d := by rw [← hs]
  refine ⟨_, C58_withInsertedOptic_partial d a b it new hg0 hu0 hl (dotted [d.name, it.name]) ⟨item_node (by simp), .inl rfl⟩, ?_⟩
  · rw [hd, C58_withRemovedOptic_partial d a (it :: b) new hg hu hl _ ⟨item_node (by simp), .inl rfl⟩, hd]

/-- C58 fails for targets deeper in the tree: whatever the tree, naming an optic that is not directly an item of the compound
removes (inserts) nothing, silently. -/
theorem C58_nested_target_violated (d : Comp F) (items : List (Optic F)) (hg : Good (.compound d items)) (hu : ShortUnique d items)
    (hl : d.isLens = false) (key : Name) (p : List Name) (x : Optic F) (hkey : Denotes (.compound d items) key p x)
    (hp : p.length ≠ 2) (hpu : ∀ q ∈ nodes (.compound d items), p <:+ q.1 → q.1 = p) (new : Optic F) :
    (Optic.compound d items).withRemovedOptic key = .ok (.compound { d with skip := false } items) ∧
    (Optic.compound d items).withInsertedOptic key new = .ok (.compound { d with skip := false } items) := by
  have hhas := has_of_node hg hkey.1
  have hne : ∀ it : Optic F, [d.name, it.name] ≠ p := by
    intro it e; rw [← e] at hp; simp at hp
  constructor
  · simp only [Optic.withRemovedOptic, resolve_denotes hg hkey, hhas, Bool.not_true, Bool.false_eq_true, if_false,
      removeLoop_eq hg hu hkey.1 hpu items (fun i hi => hi), hne]
    show Optic.mkCompound d _ = _
    rw [mkCompound_ok (by simp [hl])]
    simp
  · simp only [Optic.withInsertedOptic, resolve_denotes hg hkey, hhas, Bool.not_true, Bool.false_eq_true, if_false,
      insertLoop_eq hg hu hkey.1 hpu new items (fun i hi => hi), hne]
    show Optic.mkCompound d _ = _
    rw [mkCompound_ok (by simp [hl])]
    simp

end c58

/-- A concrete case of the above: `T['C']` is inside `U`, and removing it returns the tree unchanged. -/
theorem C58_nested_target_example_violated : ∃ (d : Comp ℝ) (items : List (Optic ℝ)) (x : Optic ℝ), Tidy (.compound d items) ∧
    (Optic.compound d items).getItem "C".toList = .ok x ∧
    (Optic.compound d items).withRemovedOptic "C".toList = .ok (.compound d items) := by
  refine ⟨compR "T", [.iface (flatR "A" 0), .compound (compR "U") [.iface (flatR "C" 1)]], .iface (flatR "C" 1), ⟨?_, ?_, ?_⟩, rfl, rfl⟩
  · simp [compR, Good, GoodItems, flatR, Optic.name]
  · simp [compR, WellFormed, WellFormedItems, flatR]
  · simp [compR, PrefixFree, PrefixFreeItems, flatR, Optic.name]

/-- The hypotheses of the positive theorems are met by a tree with a nested compound. -/
example : (Optic.compound (compR "T") [.iface (flatR "A" 0), .compound (compR "U") [.iface (flatR "C" 1)]]).withRemovedOptic
    "U".toList = .ok (.compound (compR "T") [.iface (flatR "A" 0)]) := by
  refine C58_withRemovedOptic_partial (compR "T") [.iface (flatR "A" 0)] [] (.compound (compR "U") [.iface (flatR "C" 1)]) ?_ ?_ rfl
    "U".toList ⟨by simp [nodes, nodesItems, compR, flatR, Optic.name], .inr ⟨["U".toList], by simp, rfl, ⟨["T".toList], rfl⟩, ?_⟩⟩
  · simp [compR, Good, GoodItems, flatR, Optic.name]
  · intro it hit q hq hs
    simp [nodes, nodesItems, compR, flatR] at hit hq
    rcases hit with rfl | rfl <;> rcases hq with rfl | rfl | rfl | rfl <;> first | rfl | (exfalso; revert hs; decide)
  · intro p' x' h hs
    simp [nodes, nodesItems, compR, flatR] at h
    rcases h with ⟨rfl, -⟩ | ⟨rfl, -⟩ | ⟨rfl, -⟩ | ⟨rfl, -⟩ <;> first | rfl | (exfalso; revert hs; decide)

/-- Inserting `B` before `A` and removing it again. -/
example : ∃ o', (Optic.compound (compR "T") [.iface (flatR "A" 0)]).withInsertedOptic "T.A".toList (.iface (flatR "B" 1)) = .ok o' ∧
    o'.withRemovedOptic "T.B".toList = .ok (.compound (compR "T") [.iface (flatR "A" 0)]) := by
  refine C58_insert_then_remove_partial (compR "T") [] [] (.iface (flatR "A" 0)) (.iface (flatR "B" 1)) ?_ ?_ ?_ ?_ rfl rfl
  · simp [compR, Good, GoodItems, flatR, Optic.name]
  · intro it hit q hq hs
    simp [nodes, nodesItems, compR, flatR] at hit hq
    rcases hit with rfl | rfl <;> rcases hq with rfl | rfl | rfl <;> first | rfl | (exfalso; revert hs; decide)
  · simp [compR, Good, GoodItems, flatR, Optic.name]
  · intro it hit q hq hs
    simp [nodes, nodesItems, compR, flatR] at hit hq
    subst hit
    rcases hq with rfl | rfl <;> first | rfl | (exfalso; revert hs; decide)

/-- C58 fails when the short name of any item of the compound is ambiguous in the tree: the unambiguous item `U` cannot be
removed, because the name `A` of another item occurs twice. -/
theorem C58_ambiguous_short_name_violated : ∃ x, (Optic.compound (compR "T") treeR).getItem "U".toList = .ok x ∧
    (Optic.compound (compR "T") treeR).withRemovedOptic "U".toList = .error .keyError ∧
    ∀ new, (Optic.compound (compR "T") treeR).withInsertedOptic "U".toList new = .error .keyError :=
  ⟨_, treeR_U, rfl, fun _ => rfl⟩

/-- A lens loses an item only with an assertion failure. -/
theorem C58_lens_removal_raises (d : Comp ℝ) (h : d.isLens = true) (hn : d.name = "L".toList) :
    (Optic.compound d [.iface (flatR "A" 0), .iface (flatR "B" 1)]).withRemovedOptic "A".toList = .error .assertionError := by
  obtain ⟨l, nm, cs, i, o, sk, st⟩ := d
  simp only at h hn
  subst h; subst hn
  rfl

end Batoid.Props
