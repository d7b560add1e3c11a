/-
C95: the telescopes that come with batoid can be looked up, traced and perturbed by name.

`Telescopes.lean` holds the types, names and media of the optics in the files; the numbers (surfaces, frames, obscurations)
do not matter and are left arbitrary: the theorems are about every configuration with these types, names and media.
-/
import Verif.Telescopes
import Verif.Props.Parse
import Verif.Props.Edits
import Verif.Props.Objects

namespace Batoid.Props
open Batoid Arith Parse

section spec
variable {F : Type}

/-- The value of the key `type`. -/
def typeName : ShapeType → Name
  | .mirror => "Mirror".toList
  | .refractive => "RefractiveInterface".toList
  | .baffle => "Baffle".toList
  | .detector => "Detector".toList
  | .plain => "Interface".toList
  | .screen => "OPDScreen".toList
  | .lens => "Lens".toList
  | .compound => "CompoundOptic".toList

mutual
/-- The configuration has the types, names and media of the shape; `μ` says which media its numbers stand for. -/
def Fits (μ : ℕ → MediumCfg F) : Shape → OpticCfg F → Prop
  | .part t n m, cfg => ∃ d items, cfg = .mk d items ∧ d.type = some (typeName t) ∧ d.name = some n ∧
      d.inMedium = m.inMedium.map μ ∧ d.outMedium = m.outMedium.map fun k => some (μ k)
  | .group t n m l, cfg => ∃ d items, cfg = .mk d (some items) ∧ d.type = some (typeName t) ∧ d.name = some n ∧
      d.inMedium = m.inMedium.map μ ∧ (d.outMedium = m.outMedium.map fun k => some (μ k)) ∧ d.medium = m.medium.map μ ∧
      FitsAll μ l items
def FitsAll (μ : ℕ → MediumCfg F) : List Shape → List (OpticCfg F) → Prop
  | [], cfgs => cfgs = []
  | s :: l, cfgs => ∃ c cs, cfgs = c :: cs ∧ Fits μ s c ∧ FitsAll μ l cs
end

/-- The class of the shape. -/
def KindIs : ShapeType → Kind F → Prop
  | .mirror, k => k = .mirror
  | .refractive, k => k = .refractive
  | .baffle, k => k = .baffle
  | .detector, k => k = .detector
  | .plain, k => k = .plain
  | .screen, k => ∃ s, k = .screen s
  | _, _ => False

mutual
/-- The optic has the classes and names of the shape. -/
def Built : Shape → Optic F → Prop
  | .part t n _, o => ∃ d, o = .iface d ∧ d.name = n ∧ d.skip = false ∧ KindIs t d.kind
  | .group t n _ l, o => ∃ d items, o = .compound d items ∧ d.name = n ∧ d.skip = false ∧ (d.isLens = true ↔ t = .lens) ∧
      BuiltAll l items
def BuiltAll : List Shape → List (Optic F) → Prop
  | [], os => os = []
  | s :: l, os => ∃ o os', os = o :: os' ∧ Built s o ∧ BuiltAll l os'
end
end spec

/-! ### Checks on shapes -/

def Shape.name : Shape → Name
  | .part _ n _ => n
  | .group _ n _ _ => n

mutual
/-- Only lenses and compounds have items, and lenses have two. -/
def Shape.typed : Shape → Bool
  | .part t _ _ => t != .lens && t != .compound
  | .group t _ _ l => (t == .compound || (t == .lens && l.length == 2)) && Shape.typedAll l
def Shape.typedAll : List Shape → Bool
  | [] => true
  | s :: l => Shape.typed s && Shape.typedAll l
end

mutual
def Shape.good : Shape → Bool
  | .part _ n _ => !n.contains '.'
  | .group _ n _ l => !n.contains '.' && decide ((l.map Shape.name).Nodup) && Shape.goodAll l
def Shape.goodAll : List Shape → Bool
  | [] => true
  | s :: l => Shape.good s && Shape.goodAll l
end

mutual
/-- All names. -/
def Shape.names : Shape → List Name
  | .part _ n _ => [n]
  | .group _ n _ l => n :: Shape.namesAll l
def Shape.namesAll : List Shape → List Name
  | [] => []
  | s :: l => Shape.names s ++ Shape.namesAll l
end

mutual
/-- The names of the interfaces. -/
def Shape.parts : Shape → List Name
  | .part _ n _ => [n]
  | .group _ _ _ l => Shape.partsAll l
def Shape.partsAll : List Shape → List Name
  | [] => []
  | s :: l => Shape.parts s ++ Shape.partsAll l
end

mutual
/-- All paths. -/
def Shape.paths : Shape → List (List Name)
  | .part _ n _ => [[n]]
  | .group _ n _ l => [n] :: (Shape.pathsAll l).map (n :: ·)
def Shape.pathsAll : List Shape → List (List Name)
  | [] => []
  | s :: l => Shape.paths s ++ Shape.pathsAll l
end

mutual
/-- No item before, at any level, has a name that begins the name on the path. -/
def Shape.reached : Shape → List Name → Bool
  | .part _ n _, p => p == [n]
  | .group _ n _ l, p => p == [n] || (p.head? == some n && Shape.reachedAll l p.tail)
def Shape.reachedAll : List Shape → List Name → Bool
  | [], _ => false
  | s :: l, p => (p.head? == some (Shape.name s) && Shape.reached s p) ||
      (p.head?.all (fun a => !(Shape.name s).isPrefixOf a) && Shape.reachedAll l p)
end

def Shape.isPart : Shape → Bool
  | .part _ _ _ => true
  | .group _ _ _ _ => false

mutual
/-- The first item that hides the path is an interface. -/
def Shape.hits : Shape → List Name → Bool
  | .part _ _ _, _ => false
  | .group _ n _ l, p => p.head? == some n && Shape.hitsAll l p.tail
def Shape.hitsAll : List Shape → List Name → Bool
  | [], _ => false
  | s :: l, p => p.head?.any fun a =>
      if (Shape.name s).isPrefixOf a then (if Shape.name s == a then Shape.hits s p else Shape.isPart s) else Shape.hitsAll l p
end

/-- The type and the media of every interface, given the media that the parent passes on; `none` is the default medium. -/
abbrev Tag := Option ℕ

mutual
def Shape.flow : Shape → Tag → Option Tag → List (ShapeType × Tag × Tag)
  | .part t _ m, i, o =>
    if t = .plain then [(t, none, none)]
    else [(t, (m.inMedium.map some).getD i, (m.outMedium.map some).getD (o.getD ((m.inMedium.map some).getD i)))]
  | .group t _ m l, i, o =>
    if t = .lens then
      Shape.flowAll l [((m.inMedium.map some).getD i, m.medium),
        (m.medium, (m.outMedium.map some).getD (o.getD ((m.inMedium.map some).getD i)))]
    else Shape.flowAll l (List.replicate l.length
      ((m.inMedium.map some).getD i, (m.outMedium.map some).getD (o.getD ((m.inMedium.map some).getD i))))
def Shape.flowAll : List Shape → List (Tag × Tag) → List (ShapeType × Tag × Tag)
  | s :: l, m :: ms => Shape.flow s m.1 (some m.2) ++ Shape.flowAll l ms
  | _, _ => []
end

section proofs
variable {F : Type}

theorem built_name : ∀ {s : Shape} {o : Optic F}, Built s o → o.name = Shape.name s
  | .part _ _ _, _, h => by rw [Built] at h; obtain ⟨d, rfl, h, -⟩ := h; exact h
  | .group _ _ _ _, _, h => by rw [Built] at h; obtain ⟨d, items, rfl, h, -⟩ := h; exact h

theorem built_skip : ∀ {s : Shape} {o : Optic F}, Built s o → o.skip = false
  | .part _ _ _, _, h => by rw [Built] at h; obtain ⟨d, rfl, -, h, -⟩ := h; exact h
  | .group _ _ _ _, _, h => by rw [Built] at h; obtain ⟨d, items, rfl, -, h, -⟩ := h; exact h

theorem builtAll_names : ∀ {l : List Shape} {os : List (Optic F)}, BuiltAll l os → os.map Optic.name = l.map Shape.name
  | [], _, h => by rw [BuiltAll] at h; subst h; rfl
  | s :: l, _, h => by
    rw [BuiltAll] at h; obtain ⟨o, os, rfl, h1, h2⟩ := h
    simp only [List.map_cons, built_name h1, builtAll_names h2]

mutual
theorem built_good : ∀ {s : Shape} {o : Optic F}, Built s o → Shape.good s = true → Good o
  | .part _ n _, _, h, hg => by
    rw [Built] at h; obtain ⟨d, rfl, rfl, -⟩ := h
    simpa [Shape.good, Good] using hg
  | .group _ n _ l, _, h, hg => by
    rw [Built] at h; obtain ⟨d, items, rfl, rfl, -, -, h⟩ := h
    simp only [Shape.good, Bool.and_eq_true, decide_eq_true_eq] at hg
    refine ⟨by simpa using hg.1.1, ?_, builtAll_good h hg.2⟩
    rw [builtAll_names h]; exact hg.1.2
theorem builtAll_good : ∀ {l : List Shape} {os : List (Optic F)}, BuiltAll l os → Shape.goodAll l = true → GoodItems os
  | [], _, h, _ => by rw [BuiltAll] at h; subst h; trivial
  | s :: l, _, h, hg => by
    rw [BuiltAll] at h; obtain ⟨o, os, rfl, h1, h2⟩ := h
    simp only [Shape.goodAll, Bool.and_eq_true] at hg
    exact ⟨built_good h1 hg.1, builtAll_good h2 hg.2⟩
end

mutual
theorem built_paths : ∀ {s : Shape} {o : Optic F}, Built s o → (nodes o).map Prod.fst = Shape.paths s
  | .part _ n _, _, h => by
    rw [Built] at h; obtain ⟨d, rfl, rfl, -⟩ := h; rfl
  | .group _ n _ l, _, h => by
    rw [Built] at h; obtain ⟨d, items, rfl, rfl, -, -, h⟩ := h
    rw [nodes, Shape.paths, List.map_cons, List.map_map, ← builtAll_paths h, List.map_map]
    rfl
theorem builtAll_paths : ∀ {l : List Shape} {os : List (Optic F)}, BuiltAll l os →
    (nodesItems os).map Prod.fst = Shape.pathsAll l
  | [], _, h => by rw [BuiltAll] at h; subst h; rfl
  | s :: l, _, h => by
    rw [BuiltAll] at h; obtain ⟨o, os, rfl, h1, h2⟩ := h
    rw [nodesItems, Shape.pathsAll, List.map_append, builtAll_paths h2, ← built_paths h1]
end

mutual
theorem built_reached : ∀ {s : Shape} {o : Optic F}, Built s o → ∀ p, Reached o p ↔ Shape.reached s p = true
  | .part _ n _, _, h, p => by
    rw [Built] at h; obtain ⟨d, rfl, rfl, -⟩ := h
    simp [Reached, Shape.reached]
  | .group _ n _ l, _, h, p => by
    rw [Built] at h; obtain ⟨d, items, rfl, rfl, -, -, h⟩ := h
    simp only [Reached, Shape.reached, Bool.or_eq_true, Bool.and_eq_true, beq_iff_eq, ← builtAll_reached h]
    constructor
    · rintro (h | ⟨r, rfl, h⟩)
      · exact .inl h
      · exact .inr ⟨rfl, h⟩
    · rintro (h | ⟨h, h'⟩)
      · exact .inl h
      · cases p with
        | nil => cases h
        | cons a r => exact .inr ⟨r, by simpa using h, h'⟩
theorem builtAll_reached : ∀ {l : List Shape} {os : List (Optic F)}, BuiltAll l os →
    ∀ p, ReachedItems os p ↔ Shape.reachedAll l p = true
  | [], _, h, p => by rw [BuiltAll] at h; subst h; simp [ReachedItems, Shape.reachedAll]
  | s :: l, _, h, p => by
    rw [BuiltAll] at h; obtain ⟨o, os, rfl, h1, h2⟩ := h
    simp only [ReachedItems, Shape.reachedAll, Bool.or_eq_true, Bool.and_eq_true, beq_iff_eq, built_reached h1, builtAll_reached h2,
      built_name h1, Option.all_eq_true, Bool.not_eq_true', ← Bool.not_eq_true, List.isPrefixOf_iff_prefix]
    rfl
end

theorem built_isPart {s : Shape} {o : Optic F} (h : Built s o) (hp : Shape.isPart s = true) : ∃ d, o = .iface d := by
  cases s with
  | part t n m => rw [Built] at h; obtain ⟨d, rfl, -⟩ := h; exact ⟨d, rfl⟩
  | group t n m l => cases hp

section
variable [Add F] [Sub F] [Mul F] [OfNat F 0] [OfNat F 1]
mutual
/-- A named edit of an optic hidden by an interface fails. -/
theorem built_hits (op : Optic.NamedOp F) {x : Optic F} : ∀ {s : Shape} {o : Optic F}, Built s o → Good o → ∀ p, (p, x) ∈ nodes o →
    Shape.hits s p = true → Optic.applyNamed op o (dotted p) = .error op.onIface
  | .part _ n _, _, _, _, p, _, h => by cases h
  | .group _ n _ l, _, h, hg, p, hp, hh => by
    rw [Built] at h; obtain ⟨d, items, rfl, rfl, -, -, h⟩ := h
    have hfull := resolve_denotes hg (⟨hp, .inl rfl⟩ : Denotes (.compound d items) (dotted p) p x)
    have hhas := has_of_node hg hp
    simp only [Shape.hits, Bool.and_eq_true, beq_iff_eq] at hh
    simp only [nodes, List.mem_cons, List.mem_map] at hp
    rcases hp with hp | ⟨⟨r, y⟩, hr, hp⟩
    · rw [(Prod.mk.inj hp).1] at hh
      have := hh.2
      rw [List.tail_cons] at this
      cases l <;> simp [Shape.hitsAll] at this
    · simp only [Prod.mk.injEq] at hp
      obtain ⟨rfl, rfl⟩ := hp
      have hr0 := (nodesItems_head items _ hr).1
      have hdot : dotted (d.name :: r) = d.name ++ '.' :: dotted r := dotted_cons _ hr0
      have hnd : dotted (d.name :: r) ≠ d.name := by
        rw [hdot]; intro e
        have := congrArg List.length e
        simp at this
      have htake : (dotted (d.name :: r)).take (d.name.length + 1) = d.name ++ ['.'] := by
        rw [hdot]
        simp [List.take_append]
      have hdrop : (dotted (d.name :: r)).drop (d.name.length + 1) = dotted r := by
        rw [hdot]
        simp [List.drop_append]
      rw [Optic.applyNamed]
      simp only [hfull, hhas, Bool.not_true, Bool.false_eq_true, if_false, hnd, htake, if_true, hdrop]
      rw [builtAll_hits op h hg.2.1 hg.2.2 r hr hh.2]
      rfl
theorem builtAll_hits (op : Optic.NamedOp F) {x : Optic F} : ∀ {l : List Shape} {os : List (Optic F)}, BuiltAll l os →
    (os.map Optic.name).Nodup → GoodItems os → ∀ p, (p, x) ∈ nodesItems os → Shape.hitsAll l p = true →
    Optic.applyItems op os (dotted p) = .error op.onIface
  | [], _, _, _, _, _, _, h => by cases h
  | s :: l, _, h, hn, hg, p, hp, hh => by
    rw [BuiltAll] at h; obtain ⟨o, os, rfl, h1, h2⟩ := h
    simp only [List.map_cons, List.nodup_cons] at hn
    simp only [Shape.hitsAll, Option.any_eq_true] at hh
    obtain ⟨a, ha, hh⟩ := hh
    obtain ⟨r, rfl⟩ : ∃ r, p = a :: r := by
      cases p with
      | nil => cases ha
      | cons c r => simp only [List.head?_cons, Option.some.injEq] at ha; exact ⟨r, by rw [ha]⟩
    have hpre : o.name <+: a ↔ o.name <+: dotted (a :: r) := by
      refine ⟨fun h => h.trans ?_, prefix_head (good_name hg.1)⟩
      by_cases hr : r = []
      · subst hr; rw [dotted_single]
      · rw [dotted_cons _ hr]; exact List.prefix_append _ _
    rw [← built_name h1] at hh
    simp only [nodesItems, List.mem_append] at hp
    rw [Optic.applyItems]
    by_cases hpa : o.name <+: a
    · rw [if_pos (List.isPrefixOf_iff_prefix.2 hpa)] at hh
      rw [if_pos (List.isPrefixOf_iff_prefix.2 (hpre.1 hpa))]
      by_cases hna : o.name = a
      · subst hna
        rw [if_pos (by simp)] at hh
        have hp : (o.name :: r, x) ∈ nodes o := by
          rcases hp with hp | hp
          · exact hp
          · obtain ⟨-, o2, ho2, hp2⟩ := nodesItems_head os _ hp
            obtain ⟨-, hhead⟩ := nodes_ne_nil o2 _ hp2
            refine absurd ?_ hn.1
            have : o.name = o2.name := by simpa using hhead
            rw [this]; exact List.mem_map_of_mem ho2
        have hr : r ≠ [] := by
          rintro rfl
          cases s with
          | part t n m => cases hh
          | group t n m l' =>
            simp only [Shape.hits, List.tail_cons, Bool.and_eq_true] at hh
            cases l' <;> simp [Shape.hitsAll] at hh
        have hne : dotted (o.name :: r) ≠ o.name := by
          rw [dotted_cons _ hr]; intro e
          have := congrArg List.length e
          simp at this
        rw [if_neg hne, built_hits op h1 hg.1 _ hp hh]
        rfl
      · rw [if_neg (by simpa using hna)] at hh
        have hne : dotted (a :: r) ≠ o.name := by
          intro e
          apply hna
          have hle := hpa.length_le
          by_cases hr : r = []
          · subst hr; rw [dotted_single] at e; exact e.symm
          · rw [dotted_cons _ hr] at e
            have := congrArg List.length e
            simp at this; omega
        obtain ⟨d, rfl⟩ := built_isPart h1 hh
        rw [if_neg hne, Optic.applyNamed]
        rfl
    · rw [if_neg (by rw [List.isPrefixOf_iff_prefix]; exact hpa)] at hh
      rw [if_neg (by rw [List.isPrefixOf_iff_prefix]; exact fun h => hpa (hpre.2 h))]
      have hp : (a :: r, x) ∈ nodesItems os := by
        rcases hp with hp | hp
        · obtain ⟨-, hhead⟩ := nodes_ne_nil o _ hp
          have : a = o.name := by simpa using hhead
          exact absurd (by rw [this]) hpa
        · exact hp
      rw [builtAll_hits op h2 hn.2 hg.2 _ hp hh]
      rfl
end
end

mutual
theorem built_parts : ∀ {s : Shape} {o : Optic F}, Built s o → (visits o).map (·.name) = Shape.parts s
  | .part _ n _, _, h => by
    rw [Built] at h; obtain ⟨d, rfl, rfl, -⟩ := h; rfl
  | .group _ n _ l, _, h => by
    rw [Built] at h; obtain ⟨d, items, rfl, rfl, -, -, h⟩ := h
    rw [visits, Shape.parts, builtAll_parts h]
theorem builtAll_parts : ∀ {l : List Shape} {os : List (Optic F)}, BuiltAll l os →
    (visitsItems os).map (·.name) = Shape.partsAll l
  | [], _, h => by rw [BuiltAll] at h; subst h; rfl
  | s :: l, _, h => by
    rw [BuiltAll] at h; obtain ⟨o, os, rfl, h1, h2⟩ := h
    rw [visitsItems, built_skip h1, Shape.partsAll, List.map_append, builtAll_parts h2, ← built_parts h1]
    rfl
end

/-- The last name of a path. -/
def lastName (p : List Name) : Name := p.getLast?.getD []

mutual
theorem built_names : ∀ {s : Shape} {o : Optic F}, Built s o → (nodes o).map (fun q => lastName q.1) = Shape.names s
  | .part _ n _, _, h => by
    rw [Built] at h; obtain ⟨d, rfl, rfl, -⟩ := h; rfl
  | .group _ n _ l, _, h => by
    rw [Built] at h; obtain ⟨d, items, rfl, rfl, -, -, h⟩ := h
    rw [nodes, Shape.names, List.map_cons, List.map_map, ← builtAll_shapeNames h]
    congr 1
    apply List.map_congr_left
    intro q hq
    have := (nodesItems_head items q hq).1
    simp only [Function.comp, lastName]
    cases q with
    | mk r y =>
      cases r with
      | nil => exact absurd rfl this
      | cons a r => simp [List.getLast?_cons_cons]
theorem builtAll_shapeNames : ∀ {l : List Shape} {os : List (Optic F)}, BuiltAll l os →
    (nodesItems os).map (fun q => lastName q.1) = Shape.namesAll l
  | [], _, h => by rw [BuiltAll] at h; subst h; rfl
  | s :: l, _, h => by
    rw [BuiltAll] at h; obtain ⟨o, os, rfl, h1, h2⟩ := h
    rw [nodesItems, Shape.namesAll, List.map_append, builtAll_shapeNames h2, built_names h1]
end

/-- If all names of a tree differ, every optic is denoted by its own name. -/
theorem denotes_bare {s : Shape} {o : Optic F} (h : Built s o) (hn : (Shape.names s).Nodup) {p : List Name} {x : Optic F}
    (hp : (p, x) ∈ nodes o) : Denotes o (lastName p) p x := by
  have hne := (nodes_ne_nil _ _ hp).1
  refine ⟨hp, .inr ⟨[lastName p], by simp, (dotted_single _).symm, ?_, ?_⟩⟩
  · refine ⟨p.dropLast, ?_⟩
    rw [lastName, List.getLast?_eq_some_getLast hne]
    simpa using List.dropLast_append_getLast hne
  · rintro p' x' hp' ⟨q, hq⟩
    have e : lastName p' = lastName p := by rw [lastName, ← hq]; simp
    have hinj := List.inj_on_of_nodup_map (f := fun q : List Name × Optic F => lastName q.1) (by rw [built_names h]; exact hn) hp' hp e
    exact congrArg Prod.fst hinj

end proofs

/-! ### Parsing a configuration of a given shape -/

section parse
variable {F : Type} [Arith F] {b : Builders F} {μ : ℕ → MediumCfg F} (env : Objects.Env F)

/-- The medium that a tag stands for. -/
def TagIs (b : Builders F) (μ : ℕ → MediumCfg F) : Tag → Objects.MediumObj F → Prop
  | none, m => m = .const 1
  | some k, m => parseMedium b (μ k) = .ok m

theorem tagIs_unique {t : Tag} {m m' : Objects.MediumObj F} (h : TagIs b μ t m) (h' : TagIs b μ t m') : m = m' := by
  cases t with
  | none => exact h.trans h'.symm
  | some k => exact Except.ok.inj (h.symm.trans h')

/-- The media of an interface are those of its tag, and it is of the class of the shape. -/
def FlowIs (b : Builders F) (μ : ℕ → MediumCfg F) (t : ShapeType × Tag × Tag) (d : Iface F) : Prop :=
  KindIs t.1 d.kind ∧ (∃ m, TagIs b μ t.2.1 m ∧ d.inMedium = m.denote env.junk) ∧
    ∃ m, TagIs b μ t.2.2 m ∧ d.outMedium = m.denote env.junk

/-- Items parsed with the media of the tags. -/
inductive ParsedAll (b : Builders F) (μ : ℕ → MediumCfg F) (c : CoordSys F) :
    List (Tag × Tag) → List (OpticCfg F) → List (Objects.OpticObj F) → Prop
  | nil : ParsedAll b μ c [] [] []
  | cons {t a o ts as os mi mo} : TagIs b μ t.1 mi → TagIs b μ t.2 mo → parseOptic b a c mi (some mo) = .ok o →
      ParsedAll b μ c ts as os → ParsedAll b μ c (t :: ts) (a :: as) (o :: os)

theorem parsedAll_replicate {c : CoordSys F} {t : Tag × Tag} {mi mo : Objects.MediumObj F} (hi : TagIs b μ t.1 mi)
    (ho : TagIs b μ t.2 mo) {as : List (OpticCfg F)} {os : List (Objects.OpticObj F)}
    (h : List.Forall₂ (fun a o => parseOptic b a c mi (some mo) = .ok o) as os) :
    ParsedAll b μ c (List.replicate as.length t) as os := by
  induction h with
  | nil => exact .nil
  | cons h1 h2 ih => exact .cons hi ho h1 ih

theorem fitsAll_length : ∀ {l : List Shape} {cfgs : List (OpticCfg F)}, FitsAll μ l cfgs → cfgs.length = l.length
  | [], _, h => by rw [FitsAll] at h; subst h; rfl
  | s :: l, _, h => by
    rw [FitsAll] at h; obtain ⟨c, cs, rfl, -, h⟩ := h
    simp [fitsAll_length h]

theorem typeName_inj {t t' : ShapeType} (h : typeName t = typeName t') : t = t' := by
  revert h; cases t <;> cases t' <;> decide +kernel

theorem simpleKind_shape (t : ShapeType) : simpleKind (F := F) (typeName t) =
    if t = .mirror then some .mirror else if t = .refractive then some .refractive else if t = .baffle then some .baffle
    else if t = .detector then some .detector else none := by
  have e : ∀ t', (typeName t = typeName t') = (t = t') := fun t' => propext ⟨typeName_inj, fun h => by rw [h]⟩
  have h1 : "Mirror".toList = typeName .mirror := rfl
  have h2 : "RefractiveInterface".toList = typeName .refractive := rfl
  have h3 : "Baffle".toList = typeName .baffle := rfl
  have h4 : "Detector".toList = typeName .detector := rfl
  simp only [simpleKind, h1, h2, h3, h4, e]

theorem simpleKind_typeName {t : ShapeType} {k : Objects.KindObj F} (h : simpleKind (typeName t) = some k) :
    KindIs t (k.denote env) := by
  rw [simpleKind_shape] at h
  cases t <;> simp at h <;> subst h <;> rfl

theorem common_tags {d : OpticData F} {c : CoordSys F} {mIn : Objects.MediumObj F} {mOut : Option (Objects.MediumObj F)} {k : Common F}
    (h : parseCommon b d c mIn mOut = .ok k) {m : ShapeMedia} (h1 : d.inMedium = m.inMedium.map μ)
    (h2 : d.outMedium = m.outMedium.map fun k => some (μ k)) {tIn : Tag} {tOut : Option Tag} (hi : TagIs b μ tIn mIn)
    (ho : Option.Rel (TagIs b μ) tOut mOut) :
    TagIs b μ ((m.inMedium.map some).getD tIn) k.inMedium ∧
    TagIs b μ ((m.outMedium.map some).getD (tOut.getD ((m.inMedium.map some).getD tIn))) k.outMedium := by
  obtain ⟨-, -, -, e1, e2, -⟩ := parseCommon_ok h
  have hin : TagIs b μ ((m.inMedium.map some).getD tIn) k.inMedium := by
    rw [h1] at e1
    cases hm : m.inMedium with
    | none => rw [hm] at e1; cases e1; exact hi
    | some j => rw [hm] at e1; exact e1
  refine ⟨hin, ?_⟩
  rw [h2] at e2
  cases hm : m.outMedium with
  | some j => rw [hm] at e2; exact e2
  | none =>
    rw [hm] at e2
    cases ho with
    | none => exact (Except.ok.inj e2) ▸ hin
    | some hr => exact (Except.ok.inj e2) ▸ hr

mutual
/-- What parsing builds from a configuration of the given shape. -/
theorem parse_built : ∀ {s : Shape} {cfg : OpticCfg F} {c : CoordSys F} {mIn : Objects.MediumObj F}
    {mOut : Option (Objects.MediumObj F)} {o : Objects.OpticObj F} {tIn : Tag} {tOut : Option Tag}, Fits μ s cfg →
    Shape.typed s = true → parseOptic b cfg c mIn mOut = .ok o → TagIs b μ tIn mIn → Option.Rel (TagIs b μ) tOut mOut →
    Built s (o.denote env) ∧ List.Forall₂ (FlowIs env b μ) (Shape.flow s tIn tOut) (visits (o.denote env))
  | .part t n m, cfg, c, mIn, mOut, o, tIn, tOut, hf, ht, h, hi, ho => by
    rw [Fits] at hf
    obtain ⟨d, items, rfl, e1, e2, e3, e4⟩ := hf
    obtain ⟨k, hk, br⟩ := parseOptic_ok h
    obtain ⟨g1, g2⟩ := common_tags hk e3 e4 hi ho
    obtain ⟨-, hn, -, -, -, hty⟩ := parseCommon_ok hk
    rw [e2, Option.getD_some] at hn
    rw [e1, Option.some.injEq] at hty
    simp only [Shape.typed, Bool.and_eq_true, bne_iff_ne] at ht
    rw [Built, Shape.flow]
    cases br with
    | @simple kind s hs =>
      rw [← hty] at hs
      have hkind := simpleKind_typeName env hs
      have hp : t ≠ .plain := by rintro rfl; simp [simpleKind_shape] at hs
      rw [if_neg hp]
      exact ⟨⟨_, rfl, hn.symm, rfl, hkind⟩, .cons ⟨hkind, ⟨_, g1, rfl⟩, ⟨_, g2, rfl⟩⟩ .nil⟩
    | @screen s scr hs =>
      have : t = .screen := typeName_inj (hty.trans hs)
      subst this
      rw [if_neg (by simp)]
      exact ⟨⟨_, rfl, hn.symm, rfl, ⟨_, rfl⟩⟩, .cons ⟨⟨_, rfl⟩, ⟨_, g1, rfl⟩, ⟨_, g2, rfl⟩⟩ .nil⟩
    | lens hs => exact absurd (typeName_inj (t' := .lens) (hty.trans hs)) ht.1
    | compound hs => exact absurd (typeName_inj (t' := .compound) (hty.trans hs)) ht.2
    | plain hs =>
      have : t = .plain := typeName_inj (hty.trans hs)
      subst this
      rw [if_pos rfl]
      exact ⟨⟨_, rfl, hn.symm, rfl, rfl⟩, .cons ⟨rfl, ⟨_, rfl, rfl⟩, ⟨_, rfl, rfl⟩⟩ .nil⟩
  | .group t n m l, cfg, c, mIn, mOut, o, tIn, tOut, hf, ht, h, hi, ho => by
    rw [Fits] at hf
    obtain ⟨d, items, rfl, e1, e2, e3, e4, e5, e6⟩ := hf
    obtain ⟨k, hk, br⟩ := parseOptic_ok h
    obtain ⟨g1, g2⟩ := common_tags hk e3 e4 hi ho
    obtain ⟨-, hn, -, -, -, hty⟩ := parseCommon_ok hk
    rw [e2, Option.getD_some] at hn
    rw [e1, Option.some.injEq] at hty
    simp only [Shape.typed, Bool.and_eq_true, Bool.or_eq_true, beq_iff_eq] at ht
    have htc : t = .compound ∨ t = .lens := ht.1.imp_right And.left
    rw [Built, Shape.flow]
    cases br with
    | simple hs =>
      rw [← hty] at hs
      rcases htc with rfl | rfl <;> simp [simpleKind_shape] at hs
    | screen hs =>
      have := typeName_inj (t' := .screen) (hty.trans hs)
      rw [this] at htc; simp at htc
    | plain hs =>
      have := typeName_inj (t' := .plain) (hty.trans hs)
      rw [this] at htc; simp at htc
    | @lens md mo a a' l' o₁ o₂ hs hmd hmo hitems h₁ h₂ heq =>
      have : t = .lens := typeName_inj (hty.trans hs)
      subst this
      rw [if_pos rfl]
      simp only [reduceCtorEq, false_or, true_and] at ht
      rw [Option.some.injEq] at hitems
      subst hitems
      have hl' : l' = [] := by
        have := fitsAll_length e6
        rw [ht.1] at this
        simpa using this
      subst hl'
      have hm : TagIs b μ m.medium mo := by
        rw [e5] at hmd
        cases hmm : m.medium with
        | none => rw [hmm] at hmd; cases hmd
        | some j => rw [hmm] at hmd; cases hmd; exact hmo
      have := parseAll_built e6 ht.2 (.cons (t := (_, m.medium)) g1 hm h₁ (.cons (t := (m.medium, _)) hm g2 h₂ .nil))
      exact ⟨⟨_, _, rfl, hn.symm, rfl, by simp [Objects.CompObj.denote], this.1⟩, this.2⟩
    | @compound l' os hs hitems hall =>
      have : t = .compound := typeName_inj (hty.trans hs)
      subst this
      rw [if_neg (by simp)]
      rw [Option.some.injEq] at hitems
      subst hitems
      rw [← fitsAll_length e6]
      have := parseAll_built e6 ht.2 (parsedAll_replicate (t := (_, _)) g1 g2 hall)
      exact ⟨⟨_, _, rfl, hn.symm, rfl, by simp [Objects.CompObj.denote], this.1⟩, this.2⟩
theorem parseAll_built : ∀ {l : List Shape} {ms : List (Tag × Tag)} {cfgs : List (OpticCfg F)} {c : CoordSys F}
    {os : List (Objects.OpticObj F)}, FitsAll μ l cfgs → Shape.typedAll l = true → ParsedAll b μ c ms cfgs os →
    BuiltAll l (Objects.OpticObj.denotes env os) ∧
    List.Forall₂ (FlowIs env b μ) (Shape.flowAll l ms) (visitsItems (Objects.OpticObj.denotes env os))
  | [], _, _, _, _, hf, _, h => by
    rw [FitsAll] at hf; subst hf
    cases h
    exact ⟨rfl, .nil⟩
  | s :: l, _, _, _, _, hf, ht, h => by
    rw [FitsAll] at hf; obtain ⟨a, as, rfl, h1, h2⟩ := hf
    simp only [Shape.typedAll, Bool.and_eq_true] at ht
    cases h with
    | cons hi ho hp hall =>
      have r1 := parse_built h1 ht.1 hp hi (.some ho)
      have r2 := parseAll_built h2 ht.2 hall
      rw [BuiltAll, Shape.flowAll, Objects.OpticObj.denotes, visitsItems, built_skip r1.1]
      exact ⟨⟨_, _, rfl, r1.1, r2.1⟩, List.rel_append r1.2 r2.2⟩
end

end parse

/-! ### The files -/

/-- The optics hidden by an interface before them whose name begins theirs. -/
def hidden (file : String) : List (List Name) :=
  if file = "DECam.yaml" then
    ["CHIMNEY_D_2", "MASK_2", "CHIMNEY_C_2", "CHIMNEY_B_2", "CHIMNEY_A_2"].map fun n => ["BlancoDECam".toList, n.toList]
  else if file = "DESI.yaml" then
    ["B10", "B11", "B12", "B13", "B14", "B15"].map fun n => ["DESI".toList, "Hexapod".toList, "Corrector".toList, n.toList]
  else if file = "LSST_r_baffles.yaml" then ["M1CaBaffle2", "M2BaffleBottom"].map fun n => ["LSST".toList, n.toList]
  else if file = "PFS.yaml" then [["PFS".toList, "Mirror".toList, "M1S2".toList]]
  else if file = "SDSS.yaml" then
    ["Windscreen 2", "Conical baffle 2", "M1 baffle"].map fun n => ["SDSS".toList, n.toList]
  else []

/-- Consecutive interfaces meet in the same medium. -/
def flowJoined : List (ShapeType × Tag × Tag) → Bool
  | a :: b :: l => a.2.2 == b.2.1 && flowJoined (b :: l)
  | _ => true

theorem checked_names : telescopes.all (fun f => Shape.typed f.2 && Shape.good f.2 && !Shape.isPart f.2 &&
    decide (Shape.names f.2).Nodup && decide (Shape.parts f.2).Nodup) = true := by decide +kernel

theorem checked_hidden : telescopes.all (fun f => (Shape.paths f.2).all (fun p =>
    if (hidden f.1).contains p then !Shape.reached f.2 p && Shape.hits f.2 p else Shape.reached f.2 p)) = true := by decide +kernel

theorem checked_found : telescopes.all (fun f => (hidden f.1).all (fun p => (Shape.paths f.2).contains p)) = true := by
  decide +kernel

theorem checked_flow : telescopes.all (fun f => (f.1 == "PFS.yaml" || flowJoined (Shape.flow f.2 none none)) &&
    (Shape.flow f.2 none none).all (fun t => t.1 == .refractive || t.2.1 == t.2.2) &&
    (Shape.flow f.2 none none).getLast?.map (·.1) == some .detector) = true := by decide +kernel

section files
variable {F : Type} [Arith F]

/-- `o` is the optic read from the file of that name, for some values of everything but the types, names and media. -/
structure Telescope (b : Builders F) (env : Objects.Env F) (file : String) (μ : ℕ → MediumCfg F) (o : Optic F) : Prop where
  parsed : ∃ s cfg obj, (file, s) ∈ telescopes ∧ Fits μ s cfg ∧ parseTop b cfg = .ok obj ∧ o = obj.denote env

variable {b : Builders F} {env : Objects.Env F} {file : String} {μ : ℕ → MediumCfg F} {o : Optic F}

theorem Telescope.shape (h : Telescope b env file μ o) : ∃ s, (file, s) ∈ telescopes ∧ Built s o ∧
    List.Forall₂ (FlowIs env b μ) (Shape.flow s none none) (visits o) ∧ Shape.good s = true ∧ Shape.isPart s = false ∧
    (Shape.names s).Nodup ∧ (Shape.parts s).Nodup := by
  obtain ⟨s, cfg, obj, hs, hf, hp, rfl⟩ := h.parsed
  have hc := List.all_eq_true.1 checked_names _ hs
  simp only [Bool.and_eq_true, decide_eq_true_eq, Bool.not_eq_true'] at hc
  obtain ⟨⟨⟨⟨c1, c2⟩, c3⟩, c4⟩, c5⟩ := hc
  obtain ⟨h1, h2⟩ := parse_built env hf c1 hp (tIn := none) rfl .none
  exact ⟨s, hs, h1, h2, c2, c3, c4, c5⟩

theorem Telescope.good (h : Telescope b env file μ o) : Good o ∧ ∃ d items, o = .compound d items := by
  obtain ⟨s, hs, h1, -, c2, c3, -⟩ := h.shape
  refine ⟨built_good h1 c2, ?_⟩
  cases s with
  | part t n m => cases c3
  | group t n m l => rw [Built] at h1; obtain ⟨d, items, rfl, -⟩ := h1; exact ⟨d, items, rfl⟩

/-- The two keys of an optic: its dotted path and its own name. -/
def KeyOf (p : List Name) (key : Name) : Prop := key = dotted p ∨ key = lastName p

theorem Telescope.denotes (h : Telescope b env file μ o) {p : List Name} {x : Optic F} (hp : (p, x) ∈ nodes o) {key : Name}
    (hk : KeyOf p key) : Denotes o key p x := by
  obtain ⟨s, hs, h1, -, -, -, c4, -⟩ := h.shape
  rcases hk with rfl | rfl
  · exact ⟨hp, .inl rfl⟩
  · exact denotes_bare h1 c4 hp

/-- C95: in every telescope read from one of the files, every optic is found under its dotted path and under its own name. -/
theorem C95_lookup (h : Telescope b env file μ o) (p : List Name) (x : Optic F) (hp : (p, x) ∈ nodes o) :
    o.getItem (dotted p) = .ok x ∧ o.getItem (lastName p) = .ok x := by
  obtain ⟨hg, d, items, rfl⟩ := h.good
  exact ⟨((C48_lookup_partial d items hg _).1 x).2 ⟨p, h.denotes hp (.inl rfl)⟩,
    ((C48_lookup_partial d items hg _).1 x).2 ⟨p, h.denotes hp (.inr rfl)⟩⟩

/-- C95: `traceFull` of such a telescope, in either direction, has one record for every interface, in order, each with the
rays before and after; the last one holds the result of `trace`. -/
theorem C95_traceFull (h : Telescope b env file μ o) (niter : ℕ) (reverse : Bool) (rv : RayVec F) :
    (o.traceFull niter reverse rv).map Prod.fst = (order reverse o).map (·.name) ∧
    (∀ (i : ℕ) (d : Iface F), (order reverse o)[i]? = some d → ∃ rec, (o.traceFull niter reverse rv)[i]? = some (d.name, rec) ∧
      rec.name = d.name ∧ rec.output = d.trace niter reverse rec.input ∧
      rec.input = (if i = 0 then rv else (((o.traceFull niter reverse rv)[i-1]?).map (·.2.output)).getD rv)) ∧
    (((o.traceFull niter reverse rv).getLast?).map (·.2.output)).getD rv = o.trace niter reverse rv := by
  obtain ⟨s, hs, h1, -, -, -, -, c5⟩ := h.shape
  exact C51_traceFull_partial niter reverse o rv (by rw [built_parts h1]; exact c5) (built_skip h1)

theorem forall₂_getLast {α β : Type} {R : α → β → Prop} : ∀ {l : List α} {l' : List β}, List.Forall₂ R l l' → ∀ {a : α},
    l.getLast? = some a → ∃ c, l'.getLast? = some c ∧ R a c
  | _, _, .nil, a, h => by cases h
  | _, _, .cons h1 .nil, a, h => by
    simp only [List.getLast?_singleton, Option.some.injEq] at h
    subst h
    exact ⟨_, rfl, h1⟩
  | _, _, .cons h1 (.cons h2 h3), a, h => by
    rw [List.getLast?_cons_cons] at h
    obtain ⟨c, hc, hr⟩ := forall₂_getLast (.cons h2 h3) h
    exact ⟨c, by rw [List.getLast?_cons_cons]; exact hc, hr⟩

/-- C95: the last interface of such a telescope is a detector, and traced rays are returned in its frame. -/
theorem C95_detector (h : Telescope b env file μ o) (niter : ℕ) (rv : RayVec F) : ∃ d, (visits o).getLast? = some d ∧
    d.kind = .detector ∧ (o.trace niter false rv).coordSys = d.coordSys := by
  obtain ⟨s, hs, h1, h2, -⟩ := h.shape
  have hc := List.all_eq_true.1 checked_flow _ hs
  simp only [Bool.and_eq_true, beq_iff_eq, Option.map_eq_some_iff] at hc
  obtain ⟨-, t, ht, hd⟩ := hc
  obtain ⟨d, hd', hk, -⟩ := forall₂_getLast h2 ht
  rw [hd] at hk
  exact ⟨d, hd', hk, by rw [(C52_final_frame niter o rv).1, hd']; rfl⟩

theorem flowJoined_media {env : Objects.Env F} {ts : List (ShapeType × Tag × Tag)} {ds : List (Iface F)}
    (h : List.Forall₂ (FlowIs env b μ) ts ds) (hj : flowJoined ts = true) (i : ℕ) (d d' : Iface F) (hd : ds[i]? = some d)
    (hd' : ds[i+1]? = some d') : d.outMedium = d'.inMedium := by
  induction h generalizing i with
  | nil => simp at hd
  | @cons t e ts es h1 h2 ih =>
    cases h2 with
    | nil => simp at hd'
    | @cons t' e' ts' es' h2 h3 =>
      simp only [flowJoined, Bool.and_eq_true, beq_iff_eq] at hj
      cases i with
      | zero =>
        simp only [List.getElem?_cons_zero, List.getElem?_cons_succ, Option.some.injEq] at hd hd'
        subst hd hd'
        obtain ⟨-, -, m, t1, e1⟩ := h1
        obtain ⟨-, ⟨m', t2, e2⟩, -⟩ := h2
        rw [hj.1] at t1
        rw [e1, e2, tagIs_unique t1 t2]
      | succ i => exact ih hj.2 i (by simpa using hd) (by simpa using hd')

/-- C95: in every such telescope but that of `PFS.yaml`, light leaves each interface in the medium in which the next one
receives it; only refractive interfaces separate different media.  Missing: `PFS.yaml` (`C95_media_violated`). -/
theorem C95_media_partial (h : Telescope b env file μ o) :
    (file ≠ "PFS.yaml" → ∀ (i : ℕ) (d d' : Iface F), (visits o)[i]? = some d → (visits o)[i+1]? = some d' →
      d.outMedium = d'.inMedium) ∧
    (∀ d ∈ visits o, d.kind ≠ .refractive → d.inMedium = d.outMedium) := by
  obtain ⟨s, hs, h1, h2, -⟩ := h.shape
  have hc := List.all_eq_true.1 checked_flow _ hs
  simp only [Bool.and_eq_true, Bool.or_eq_true, beq_iff_eq] at hc
  refine ⟨fun hne => flowJoined_media h2 (hc.1.1.resolve_left hne), fun d hd hk => ?_⟩
  obtain ⟨i, hi⟩ := List.mem_iff_getElem?.1 hd
  have hlen := h2.length_eq
  have hi' : i < (Shape.flow s none none).length := by
    rw [hlen]; exact (List.getElem?_eq_some_iff.1 hi).1
  obtain ⟨hi2, he⟩ := List.getElem?_eq_some_iff.1 hi
  have hr := List.forall₂_iff_get.1 h2 |>.2 i hi' hi2
  simp only [List.get_eq_getElem, he] at hr
  have ht := (List.all_eq_true.1 hc.1.2) _ (List.getElem_mem hi')
  simp only [Bool.or_eq_true, beq_iff_eq] at ht
  obtain ⟨k1, ⟨m, t1, e1⟩, ⟨m', t2, e2⟩⟩ := hr
  rcases ht with ht | ht
  · rw [ht] at k1; exact absurd k1 hk
  · rw [ht] at t1
    rw [e1, e2, tagIs_unique t1 t2]

/-- C95 fails for `PFS.yaml`: light leaves the interface before the primary mirror in glass, the mirror receives it in vacuum. -/
theorem C95_media_violated (h : Telescope b env "PFS.yaml" μ o)
    (hne : ∀ m m', parseMedium b (μ 0) = .ok m → parseMedium b (μ 1) = .ok m' → m'.denote env.junk ≠ m.denote env.junk) :
    ∃ d d', (visits o)[4]? = some d ∧ (visits o)[5]? = some d' ∧ d.name = "M1S1".toList ∧ d'.name = "M1".toList ∧
      d'.kind = .mirror ∧ d.outMedium ≠ d'.inMedium := by
  obtain ⟨s, hs, h1, h2, -⟩ := h.shape
  have hpfs : s = shape_PFS := by
    simp [telescopes] at hs; exact hs
  subst hpfs
  have hlen := h2.length_eq
  have hflow : (Shape.flow shape_PFS none none)[4]? = some (.refractive, some 0, some 1) ∧
      (Shape.flow shape_PFS none none)[5]? = some (.mirror, some 0, some 0) := by decide +kernel
  obtain ⟨l4, f4⟩ := List.getElem?_eq_some_iff.1 hflow.1
  obtain ⟨l5, f5⟩ := List.getElem?_eq_some_iff.1 hflow.2
  have r4 := (List.forall₂_iff_get.1 h2).2 4 l4 (hlen ▸ l4)
  have r5 := (List.forall₂_iff_get.1 h2).2 5 l5 (hlen ▸ l5)
  simp only [List.get_eq_getElem, f4, f5] at r4 r5
  have hn := built_parts h1
  have hn4 := congrArg (·[4]?) hn
  have hn5 := congrArg (·[5]?) hn
  have hp4 : (Shape.parts shape_PFS)[4]? = some "M1S1".toList := by decide +kernel
  have hp5 : (Shape.parts shape_PFS)[5]? = some "M1".toList := by decide +kernel
  simp only [List.getElem?_map, hp4, hp5, List.getElem?_eq_getElem (hlen ▸ l4), List.getElem?_eq_getElem (hlen ▸ l5),
    Option.map_some, Option.some.injEq] at hn4 hn5
  refine ⟨_, _, List.getElem?_eq_getElem (hlen ▸ l4), List.getElem?_eq_getElem (hlen ▸ l5), hn4, hn5, r5.1, ?_⟩
  obtain ⟨-, -, m', t1, e1⟩ := r4
  obtain ⟨-, ⟨m, t2, e2⟩, -⟩ := r5
  rw [e1, e2]
  exact hne m m' t2 t1

end files

/-! ### Named edits -/

mutual
/-- What the parser builds satisfies the constructors' assertions. -/
theorem parsed_wellFormed (b : Builders Dbl) (env : Objects.Env Dbl) : ∀ (o : Objects.OpticObj Dbl),
    (∃ cfg c mIn mOut, parseOptic b cfg c mIn mOut = .ok o) → WellFormed (o.denote env)
  | .iface d, h => by
    obtain ⟨⟨cd, items⟩, c, mIn, mOut, h⟩ := h
    obtain ⟨k, hk, br⟩ := parseOptic_ok h
    rw [Objects.OpticObj.denote]
    intro s hs
    cases br with
    | @simple kind _ hk' =>
      have : ∃ s', kind = .screen s' := by
        cases kind <;> simp [Objects.IfaceObj.denote, Objects.KindObj.denote] at hs
        exact ⟨_, rfl⟩
      obtain ⟨s', rfl⟩ := this
      unfold simpleKind at hk'
      split at hk'; · cases hk'
      split at hk'; · cases hk'
      split at hk'; · cases hk'
      split at hk' <;> cases hk'
    | screen h1 h2 h3 h4 =>
      simp only [Objects.IfaceObj.denote]
      rw [mediumEq_eq h4]
    | plain => rfl
  | .compound d os, h => by
    obtain ⟨⟨cd, items⟩, c, mIn, mOut, h⟩ := h
    obtain ⟨k, hk, br⟩ := parseOptic_ok h
    rw [Objects.OpticObj.denote]
    cases br with
    | @lens m mo a a' l o₁ o₂ h1 h2 h3 h4 h5 h6 h7 =>
      refine ⟨fun _ => ⟨_, _, rfl, ?_⟩, ?_⟩
      · have := mediumEq_eq h7
        have e1 : ∀ o : Objects.OpticObj Dbl, (o.denote env).outMedium = (Parse.outMedium o).denote env.junk := by
          intro o; cases o <;> rfl
        have e2 : ∀ o : Objects.OpticObj Dbl, (o.denote env).inMedium = (Parse.inMedium o).denote env.junk := by
          intro o; cases o <;> rfl
        rw [e1, e2, this]
      · exact ⟨parsed_wellFormed b env o₁ ⟨_, _, _, _, h5⟩, parsed_wellFormed b env o₂ ⟨_, _, _, _, h6⟩, trivial⟩
    | @compound l _ h1 h2 h3 =>
      refine ⟨fun hl => by simp [Objects.CompObj.denote] at hl, ?_⟩
      apply parsedItems_wellFormed b env os
      intro o ho
      obtain ⟨i, hi⟩ := List.mem_iff_getElem?.1 ho
      obtain ⟨hi2, he⟩ := List.getElem?_eq_some_iff.1 hi
      have := (List.forall₂_iff_get.1 h3).2 i (by rw [h3.length_eq]; exact hi2) hi2
      simp only [List.get_eq_getElem, he] at this
      exact ⟨_, _, _, _, this⟩
theorem parsedItems_wellFormed (b : Builders Dbl) (env : Objects.Env Dbl) : ∀ (os : List (Objects.OpticObj Dbl)),
    (∀ o ∈ os, ∃ cfg c mIn mOut, parseOptic b cfg c mIn mOut = .ok o) →
    WellFormedItems (Objects.OpticObj.denotes env os)
  | [], _ => trivial
  | o :: os, h => ⟨parsed_wellFormed b env o (h o (by simp)), parsedItems_wellFormed b env os fun o' ho => h o' (by simp [ho])⟩
end

section edits
variable {b : Builders Dbl} {env : Objects.Env Dbl} {file : String} {μ : ℕ → MediumCfg Dbl} {o : Optic Dbl}

theorem Telescope.wellFormed (h : Telescope b env file μ o) : WellFormed o := by
  obtain ⟨s, cfg, obj, -, -, hp, rfl⟩ := h.parsed
  exact parsed_wellFormed b env obj ⟨_, _, _, _, hp⟩

/-- C95: every optic of such a telescope, but the hidden ones, can be shifted and, if it is an interface, given a new surface,
by its dotted path and by its own name, and exactly this optic changes.  Missing: the hidden optics
(`C95_hidden_violated`). -/
theorem C95_edit_partial (h : Telescope b env file μ o) (p : List Name) (x : Optic Dbl) (hp : (p, x) ∈ nodes o)
    (hh : p ∉ hidden file) (key : Name) (hk : KeyOf p key) :
    (∀ s, ∃ o', o.withGloballyShiftedOptic key s = .ok o' ∧
      EditedAt (fun a b => a = x ∧ Moved (fun c => ⟨c.origin + s, c.rot⟩) a b) p o o') ∧
    (∀ s, ∃ o', o.withLocallyShiftedOptic key s = .ok o' ∧
      EditedAt (fun a b => a = x ∧ Moved (fun c => ⟨c.origin + x.coordSys.rot.mulVec s, c.rot⟩) a b) p o o') ∧
    (∀ t y, x = .iface y → ∃ o', o.withSurface key t = .ok o' ∧
      EditedAt (fun a b => a = .iface y ∧ ∃ y', b = .iface y' ∧ Resurfaced t y y') p o o') := by
  have hw := h.wellFormed
  obtain ⟨s, hs, h1, -⟩ := h.shape
  obtain ⟨hg, d, items, rfl⟩ := h.good
  have hc := List.all_eq_true.1 (List.all_eq_true.1 checked_hidden _ hs) p (by
    rw [← built_paths h1]; exact List.mem_map_of_mem (f := Prod.fst) hp)
  rw [if_neg (by simpa using hh)] at hc
  exact (C50_reached_partial d items hg hw key p x (h.denotes hp hk) ((built_reached h1 p).2 hc)).2

/-- C95 fails for the hidden optics: each of them is an optic of the telescope and is found by its keys, but can be neither
shifted nor rotated nor given a new surface. -/
theorem C95_hidden_violated (h : Telescope b env file μ o) (p : List Name) (hh : p ∈ hidden file) : ∃ x, (p, x) ∈ nodes o ∧
    ∀ key, KeyOf p key → o.getItem key = .ok x ∧
      (∀ s, o.withGloballyShiftedOptic key s = .error .attributeError) ∧
      (∀ s, o.withLocallyShiftedOptic key s = .error .attributeError) ∧
      (∀ R ce cs, o.withLocallyRotatedOptic key R ce cs = .error .attributeError) ∧
      (∀ t, o.withSurface key t = .error .typeError) := by
  obtain ⟨s, hs, h1, -⟩ := h.shape
  obtain ⟨hg, d, items, rfl⟩ := h.good
  have hpath := List.all_eq_true.1 (List.all_eq_true.1 checked_found _ hs) p hh
  rw [List.contains_iff_mem] at hpath
  have hc := List.all_eq_true.1 (List.all_eq_true.1 checked_hidden _ hs) p hpath
  rw [if_pos (by simpa using hh), Bool.and_eq_true] at hc
  rw [← built_paths h1, List.mem_map] at hpath
  obtain ⟨⟨p', x⟩, hp, rfl⟩ := hpath
  refine ⟨x, hp, fun key hk => ?_⟩
  have hd := h.denotes hp hk
  have hget := (itemDict_get hg _ x).2 ⟨p', hp, rfl⟩
  have hany : ∀ {k : Name} (_ : KeyOf p' k) (op : Optic.NamedOp Dbl), Optic.applyNamed op (.compound d items) k = .error op.onIface := by
    intro k hk op
    rw [applyNamed_key op hg (h.denotes hp hk), built_hits op h1 hg p' hp hc.2]
  refine ⟨((C48_lookup_partial d items hg key).1 x).2 ⟨p', hd⟩, fun s => hany hk _, fun s => ?_, fun R ce cs => ?_, fun t => hany hk _⟩
  · simp only [Optic.withLocallyShiftedOptic, resolve_denotes hg hd, hget]
    exact hany (.inl rfl) _
  · simp only [Optic.withLocallyRotatedOptic, resolve_denotes hg hd, hget]
    exact hany hk _

end edits

/-! ### Every file has configurations that parse -/

/-- Different media for the examples. -/
noncomputable def demoMu (k : ℕ) : MediumCfg Dbl := .num (.fin (k + 1))

/-- The remaining keys, with arbitrary values. -/
noncomputable def demoKeys (t : ShapeType) (n : Name) (m : ShapeMedia) : OpticData Dbl :=
  ⟨some (typeName t), some n, none, none, m.inMedium.map demoMu, m.outMedium.map fun k => some (demoMu k), m.medium.map demoMu,
    some (.mk (some "Plane".toList) [] none), some (.mk (some "Plane".toList) [] none)⟩

mutual
noncomputable def demoCfg : Shape → OpticCfg Dbl
  | .part t n m => .mk (demoKeys t n m) none
  | .group t n m l => .mk (demoKeys t n m) (some (demoCfgs l))
noncomputable def demoCfgs : List Shape → List (OpticCfg Dbl)
  | [] => []
  | s :: l => demoCfg s :: demoCfgs l
end

mutual
theorem demoCfg_fits : ∀ s : Shape, Fits demoMu s (demoCfg s)
  | .part t n m => by rw [Fits, demoCfg]; exact ⟨_, _, rfl, rfl, rfl, rfl, rfl⟩
  | .group t n m l => by rw [Fits, demoCfg]; exact ⟨_, _, rfl, rfl, rfl, rfl, rfl, rfl, demoCfgs_fit l⟩
theorem demoCfgs_fit : ∀ l : List Shape, FitsAll demoMu l (demoCfgs l)
  | [] => by rw [FitsAll, demoCfgs]
  | s :: l => by rw [FitsAll, demoCfgs]; exact ⟨_, _, rfl, demoCfg_fits s, demoCfgs_fit l⟩
end

def Shape.media : Shape → ShapeMedia
  | .part _ _ m => m
  | .group _ _ m _ => m

mutual
/-- Enough for parsing: lenses have a medium and their two items take it. -/
def Shape.plainLens : Shape → Bool
  | .part t _ _ => t == .mirror || t == .refractive || t == .baffle || t == .detector
  | .group t _ m l => (t == .compound || (t == .lens && m.medium.isSome && l.length == 2 &&
      (l[0]?.all fun a => (Shape.media a).outMedium.isNone) && (l[1]?.all fun a => (Shape.media a).inMedium.isNone))) &&
      Shape.plainLenses l
def Shape.plainLenses : List Shape → Bool
  | [] => true
  | s :: l => Shape.plainLens s && Shape.plainLenses l
end

theorem demo_common (t : ShapeType) (n : Name) (m : ShapeMedia) (c : CoordSys Dbl) (mIn : Objects.MediumObj Dbl)
    (mOut : Option (Objects.MediumObj Dbl)) : ∃ k, parseCommon demoBuild (demoKeys t n m) c mIn mOut = .ok k ∧
      k.type = typeName t ∧ (m.inMedium = none → k.inMedium = mIn) ∧
      (m.outMedium = none → ∀ mo, mOut = some mo → k.outMedium = mo) := by
  cases h1 : m.inMedium <;> cases h2 : m.outMedium <;> cases mOut <;>
    simp [parseCommon, demoKeys, h1, h2, parseObscKey, parseFrame, parseIn, parseOut, popKey, parseMedium, demoMu, bind, Except.bind,
      pure, Except.pure]

theorem demo_surface (t : ShapeType) (n : Name) (m : ShapeMedia) :
    parseSurfKey demoBuild (demoKeys t n m).surface = .ok .plane := by
  simp [parseSurfKey, demoKeys, popKey, parseSurface, demoBuild, bind, Except.bind, pure, Except.pure]

mutual
theorem demo_parses : ∀ (s : Shape) (c : CoordSys Dbl) (mIn : Objects.MediumObj Dbl) (mOut : Option (Objects.MediumObj Dbl)),
    Shape.plainLens s = true → ∃ o, parseOptic demoBuild (demoCfg s) c mIn mOut = .ok o ∧
      ((Shape.media s).inMedium = none → Parse.inMedium o = mIn) ∧
      ((Shape.media s).outMedium = none → ∀ mo, mOut = some mo → Parse.outMedium o = mo)
  | .part t n m, c, mIn, mOut, h => by
    obtain ⟨k, hk, ht, hi, ho⟩ := demo_common t n m c mIn mOut
    simp only [Shape.plainLens, Bool.or_eq_true, beq_iff_eq] at h
    have : ∃ kind, simpleKind (F := Dbl) k.type = some kind := by
      rw [ht, simpleKind_shape]
      rcases h with ((rfl | rfl) | rfl) | rfl <;> simp
    obtain ⟨kind, hkind⟩ := this
    rw [demoCfg, parseOptic, hk]
    simp only [bind, Except.bind, hkind, demo_surface]
    exact ⟨_, rfl, hi, ho⟩
  | .group t n m l, c, mIn, mOut, h => by
    obtain ⟨k, hk, ht, hi, ho⟩ := demo_common t n m c mIn mOut
    simp only [Shape.plainLens, Bool.and_eq_true, Bool.or_eq_true, beq_iff_eq] at h
    have e : ∀ t', (typeName t = typeName t') = (t = t') := fun t' => propext ⟨typeName_inj, fun h => by rw [h]⟩
    have h1 : "OPDScreen".toList = typeName .screen := rfl
    have h2 : "Lens".toList = typeName .lens := rfl
    have h3 : "CompoundOptic".toList = typeName .compound := rfl
    rw [demoCfg, parseOptic, hk]
    simp only [bind, Except.bind, ht, simpleKind_shape, h1, h2, h3, e]
    rcases h with ⟨rfl | ⟨⟨⟨⟨rfl, hm⟩, hl⟩, ha⟩, hb⟩, hall⟩
    · obtain ⟨os, hos⟩ := demoAll_parses l k.coordSys k.inMedium k.outMedium hall
      simp only [reduceCtorEq, if_false, if_true, parseOptics, hos]
      exact ⟨_, rfl, hi, ho⟩
    · simp only [reduceCtorEq, if_false, if_true]
      match l, hl with
      | [a, b], _ =>
        simp only [List.getElem?_cons_zero, List.getElem?_cons_succ, Option.all_some, Option.isNone_iff_eq_none] at ha hb
        obtain ⟨j, hj⟩ := Option.isSome_iff_exists.1 hm
        simp only [Shape.plainLenses, Bool.and_eq_true] at hall
        obtain ⟨o₁, p1, -, q1⟩ := demo_parses a k.coordSys k.inMedium (some (.const (.fin (j + 1)))) hall.1
        obtain ⟨o₂, p2, q2, -⟩ := demo_parses b k.coordSys (.const (.fin (j + 1))) (some k.outMedium) hall.2.1
        have hmed : (demoKeys .lens n m).medium = some (demoMu j) := by simp [demoKeys, hj]
        simp only [hmed, popKey, demoMu, parseMedium, demoCfgs, parseTwo, bind, Except.bind, p1, p2, pure, Except.pure, newLens,
          q1 ha _ rfl, q2 hb, assertEq, Objects.MediumObj.eq, Objects.numEq, dbl_refl, if_true]
        exact ⟨_, rfl, hi, ho⟩
theorem demoAll_parses : ∀ (l : List Shape) (c : CoordSys Dbl) (mIn mOut : Objects.MediumObj Dbl),
    Shape.plainLenses l = true → ∃ os, parseOpticList demoBuild (demoCfgs l) c mIn mOut = .ok os
  | [], c, mIn, mOut, _ => by rw [demoCfgs, parseOpticList]; exact ⟨_, rfl⟩
  | s :: l, c, mIn, mOut, h => by
    simp only [Shape.plainLenses, Bool.and_eq_true] at h
    obtain ⟨o, ho, -⟩ := demo_parses s c mIn (some mOut) h.1
    obtain ⟨os, hos⟩ := demoAll_parses l c mIn mOut h.2
    rw [demoCfgs, parseOpticList, ho, hos]
    exact ⟨_, rfl⟩
end

theorem checked_plain : telescopes.all (fun f => Shape.plainLens f.2) = true := by decide +kernel

/-- Every file has a telescope. -/
theorem telescope_exists (env : Objects.Env Dbl) (f : String × Shape) (hf : f ∈ telescopes) :
    ∃ o, Telescope demoBuild env f.1 demoMu o := by
  obtain ⟨o, ho, -⟩ := demo_parses f.2 (CoordSys.std Dbl) (.const 1) none (List.all_eq_true.1 checked_plain _ hf)
  exact ⟨_, ⟨f.2, demoCfg f.2, o, hf, demoCfg_fits _, ho, rfl⟩⟩

/-- The hidden optics exist: `B10` of `DESI.yaml`. -/
example (env : Objects.Env Dbl) : ∃ o x, Telescope demoBuild env "DESI.yaml" demoMu o ∧ o.getItem "B10".toList = .ok x ∧
    ∀ s, o.withGloballyShiftedOptic "B10".toList s = .error .attributeError := by
  obtain ⟨o, ho⟩ := telescope_exists env ("DESI.yaml", shape_DESI) (by simp [telescopes])
  obtain ⟨x, -, h⟩ := C95_hidden_violated ho ["DESI".toList, "Hexapod".toList, "Corrector".toList, "B10".toList]
    (by decide +kernel)
  obtain ⟨h1, h2, -⟩ := h "B10".toList (.inr (by decide +kernel))
  exact ⟨o, x, ho, h1, h2⟩

/-- The media of `PFS.yaml` differ for the media of the example. -/
example (env : Objects.Env Dbl) : ∃ o, Telescope demoBuild env "PFS.yaml" demoMu o ∧
    ∃ d d', (visits o)[4]? = some d ∧ (visits o)[5]? = some d' ∧ d.outMedium ≠ d'.inMedium := by
  obtain ⟨o, ho⟩ := telescope_exists env ("PFS.yaml", shape_PFS) (by simp [telescopes])
  obtain ⟨d, d', h1, h2, -, -, -, h3⟩ := C95_media_violated ho (by
    intro m m' h1 h2
    simp only [demoMu, parseMedium, Except.ok.injEq] at h1 h2
    subst h1 h2
    simp only [Objects.MediumObj.denote]
    intro e
    have := congrArg (fun m : Medium Dbl => m.getN (.fin 1)) e
    simp [Medium.const] at this)
  exact ⟨o, ho, d, d', h1, h2, h3⟩

end Batoid.Props
