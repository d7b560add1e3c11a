import Verif.Optic
import Verif.Props.Trace

/-!
# Property C48: name lookup

Specification vocabulary: the nodes of a tree with their paths of names (`nodes`), and the dotted form of a path (`dotted`).
-/

namespace Batoid.Props
open Batoid

/-- A path of names written with dots. -/
def dotted (p : List Name) : Name := ['.'].intercalate p

mutual
/-- All optics of a tree, each with its path of names from the root. -/
def nodes {F : Type} : Optic F → List (List Name × Optic F)
  | .iface d => [([d.name], .iface d)]
  | .compound d items => ([d.name], .compound d items) :: (nodesItems items).map (fun q => (d.name :: q.1, q.2))
def nodesItems {F : Type} : List (Optic F) → List (List Name × Optic F)
  | [] => []
  | o :: os => nodes o ++ nodesItems os
end

mutual
/-- No name contains a dot and no two items of one compound have the same name. -/
def Good {F : Type} : Optic F → Prop
  | .iface d => '.' ∉ d.name
  | .compound d items => '.' ∉ d.name ∧ (items.map Optic.name).Nodup ∧ GoodItems items
def GoodItems {F : Type} : List (Optic F) → Prop
  | [] => True
  | o :: os => Good o ∧ GoodItems os
end

/-! ### Dotted names -/

theorem dotted_single (a : Name) : dotted [a] = a := by simp [dotted]

theorem dotted_cons (a : Name) {p : List Name} (hp : p ≠ []) : dotted (a :: p) = a ++ '.' :: dotted p := by
  cases p with
  | nil => exact absurd rfl hp
  | cons b p => simp [dotted, List.intercalate, List.intersperse]

theorem splitOn_dotted {p : List Name} (hp : p ≠ []) (hd : ∀ a ∈ p, '.' ∉ a) : (dotted p).splitOn '.' = p :=
  List.splitOn_intercalate '.' hd hp

theorem dotted_inj {p q : List Name} (hp : p ≠ []) (hq : q ≠ []) (hdp : ∀ a ∈ p, '.' ∉ a) (hdq : ∀ a ∈ q, '.' ∉ a)
    (h : dotted p = dotted q) : p = q := by
  rw [← splitOn_dotted hp hdp, ← splitOn_dotted hq hdq, h]

/-! ### Nodes of well named trees -/

variable {F : Type}

mutual
theorem nodes_ne_nil : ∀ (o : Optic F) (q : List Name × Optic F), q ∈ nodes o → q.1 ≠ [] ∧ q.1.head? = some o.name
  | .iface d, q, h => by simp [nodes] at h; subst h; simp [Optic.name]
  | .compound d items, q, h => by
    simp only [nodes, List.mem_cons, List.mem_map] at h
    rcases h with h | ⟨r, hr, h⟩
    · subst h; simp [Optic.name]
    · subst h; simp [Optic.name]
theorem nodesItems_head : ∀ (items : List (Optic F)) (q : List Name × Optic F), q ∈ nodesItems items →
    q.1 ≠ [] ∧ ∃ o ∈ items, q ∈ nodes o
  | [], q, h => by simp [nodesItems] at h
  | o :: os, q, h => by
    simp only [nodesItems, List.mem_append] at h
    rcases h with h | h
    · exact ⟨(nodes_ne_nil o q h).1, o, by simp, h⟩
    · obtain ⟨h1, o', ho', h2⟩ := nodesItems_head os q h
      exact ⟨h1, o', by simp [ho'], h2⟩
end

theorem mem_nodesItems (items : List (Optic F)) (q : List Name × Optic F) :
    q ∈ nodesItems items ↔ ∃ o ∈ items, q ∈ nodes o := by
  refine ⟨fun h => (nodesItems_head items q h).2, ?_⟩
  rintro ⟨o, ho, h⟩
  induction items with
  | nil => cases ho
  | cons o' os ih =>
    simp only [nodesItems, List.mem_append]
    rcases List.mem_cons.1 ho with rfl | ho
    · exact .inl h
    · exact .inr (ih ho)

theorem GoodItems_iff (items : List (Optic F)) : GoodItems items ↔ ∀ o ∈ items, Good o := by
  induction items with
  | nil => simp [GoodItems]
  | cons o os ih => simp [GoodItems, ih]

mutual
theorem good_dotfree : ∀ (o : Optic F), Good o → ∀ q ∈ nodes o, ∀ a ∈ q.1, '.' ∉ a
  | .iface d, h, q, hq, a, ha => by
    simp [nodes] at hq; subst hq; simp at ha; subst ha; exact h
  | .compound d items, h, q, hq, a, ha => by
    simp only [nodes, List.mem_cons, List.mem_map] at hq
    rcases hq with hq | ⟨r, hr, hq⟩
    · subst hq; simp at ha; subst ha; exact h.1
    · subst hq
      rcases List.mem_cons.1 ha with rfl | ha
      · exact h.1
      · exact goodItems_dotfree items h.2.2 r hr a ha
theorem goodItems_dotfree : ∀ (items : List (Optic F)), GoodItems items → ∀ q ∈ nodesItems items, ∀ a ∈ q.1, '.' ∉ a
  | [], _, q, hq, _, _ => by simp [nodesItems] at hq
  | o :: os, h, q, hq, a, ha => by
    simp only [nodesItems, List.mem_append] at hq
    rcases hq with hq | hq
    · exact good_dotfree o h.1 q hq a ha
    · exact goodItems_dotfree os h.2 q hq a ha
end

theorem good_name {o : Optic F} (h : Good o) : '.' ∉ o.name := by
  cases o with
  | iface d => exact h
  | compound d items => exact h.1

mutual
theorem nodes_nodup : ∀ (o : Optic F), Good o → ((nodes o).map Prod.fst).Nodup
  | .iface d, _ => by simp [nodes]
  | .compound d items, h => by
    have ih := nodesItems_nodup items h.2.1 h.2.2
    simp only [nodes, List.map_cons, List.map_map, List.nodup_cons]
    constructor
    · intro hm
      simp only [List.mem_map, Function.comp] at hm
      obtain ⟨q, hq, e⟩ := hm
      exact (nodesItems_head items q hq).1 (by simpa using e)
    · rw [show (Prod.fst ∘ fun q : List Name × Optic F => (d.name :: q.1, q.2)) = (fun p => d.name :: p) ∘ Prod.fst from rfl,
        ← List.map_map]
      exact ih.map (fun a b e => by simpa using e)
theorem nodesItems_nodup : ∀ (items : List (Optic F)), (items.map Optic.name).Nodup → GoodItems items →
    ((nodesItems items).map Prod.fst).Nodup
  | [], _, _ => by simp [nodesItems]
  | o :: os, hn, h => by
    simp only [List.map_cons, List.nodup_cons] at hn
    simp only [nodesItems, List.map_append, List.nodup_append]
    refine ⟨nodes_nodup o h.1, nodesItems_nodup os hn.2 h.2, ?_⟩
    intro p hp q hq e
    subst e
    simp only [List.mem_map] at hp hq
    obtain ⟨a, ha, e1⟩ := hp
    obtain ⟨b, hb, e2⟩ := hq
    obtain ⟨-, o', ho', hb'⟩ := nodesItems_head os b hb
    have h1 := (nodes_ne_nil o a ha).2
    have h2 := (nodes_ne_nil o' b hb').2
    rw [e1] at h1; rw [e2, h1] at h2
    simp only [Option.some.injEq] at h2
    exact hn.1 (List.mem_map.2 ⟨o', ho', h2.symm⟩)
end

/-! ### Dictionaries -/

section dict
variable {α β : Type} [DecidableEq α]

theorem get?_set (d : Dict α β) (k k' : α) (v : β) : (d.set k v).get? k' = if k = k' then some v else d.get? k' := by
  induction d with
  | nil => simp [Dict.set, Dict.get?]
  | cons e d ih =>
    obtain ⟨a, b⟩ := e
    simp only [Dict.set]
    by_cases h : a = k
    · subst h
      simp only [if_true, Dict.get?]
      split <;> rfl
    · simp only [h, if_false, Dict.get?, ih]
      by_cases h1 : a = k'
      · subst h1; simp [Ne.symm h]
      · simp [h1]

theorem get?_append (d e : Dict α β) (k : α) : Dict.get? (d ++ e) k = (d.get? k).or (e.get? k) := by
  induction d with
  | nil => simp [Dict.get?]
  | cons x d ih =>
    obtain ⟨a, b⟩ := x
    simp only [List.cons_append, Dict.get?]
    split <;> simp [ih]

theorem get?_of_mem {d : Dict α β} (hn : (d.map Prod.fst).Nodup) {k : α} {v : β} (h : (k, v) ∈ d) : d.get? k = some v := by
  induction d with
  | nil => cases h
  | cons x d ih =>
    obtain ⟨a, b⟩ := x
    simp only [List.map_cons, List.nodup_cons] at hn
    simp only [Dict.get?]
    rcases List.mem_cons.1 h with h | h
    · cases h; simp
    · have : a ≠ k := by
        intro e; subst e; exact hn.1 (List.mem_map.2 ⟨_, h, rfl⟩)
      simp [this, ih hn.2 h]

theorem mem_of_get? {d : Dict α β} {k : α} {v : β} (h : d.get? k = some v) : (k, v) ∈ d := by
  induction d with
  | nil => cases h
  | cons x d ih =>
    obtain ⟨a, b⟩ := x
    simp only [Dict.get?] at h
    split at h
    · rename_i e; subst e; cases h; simp
    · exact List.mem_cons_of_mem _ (ih h)

theorem get?_none {d : Dict α β} {k : α} (h : k ∉ d.map Prod.fst) : d.get? k = none := by
  cases e : d.get? k with
  | none => rfl
  | some v => exact absurd (List.mem_map.2 ⟨_, mem_of_get? e, rfl⟩) h

theorem has_iff {d : Dict α β} {k : α} : d.has k = true ↔ k ∈ d.map Prod.fst := by
  unfold Dict.has
  constructor
  · intro h
    obtain ⟨v, hv⟩ := Option.isSome_iff_exists.1 h
    exact List.mem_map.2 ⟨_, mem_of_get? hv, rfl⟩
  · intro h
    cases e : d.get? k with
    | some v => rfl
    | none =>
      exfalso
      induction d with
      | nil => simp at h
      | cons x d ih =>
        obtain ⟨a, b⟩ := x
        simp only [Dict.get?] at e
        split at e
        · cases e
        · rename_i hne
          rcases List.mem_cons.1 h with h | h
          · exact hne h.symm
          · exact ih h e

theorem set_same {d : Dict α β} (hn : (d.map Prod.fst).Nodup) {k : α} {v : β} (h : (k, v) ∈ d) : d.set k v = d := by
  induction d with
  | nil => cases h
  | cons x d ih =>
    obtain ⟨a, b⟩ := x
    simp only [List.map_cons, List.nodup_cons] at hn
    rcases List.mem_cons.1 h with h | h
    · cases h; simp [Dict.set]
    · have : a ≠ k := by
        intro e; subst e; exact hn.1 (List.mem_map.2 ⟨_, h, rfl⟩)
      simp [Dict.set, this, ih hn.2 h]

theorem foldl_set_fresh {γ : Type} (f : γ → α) (g : γ → β) : ∀ (l : List γ) (out : Dict α β),
    (out.map Prod.fst ++ l.map f).Nodup →
    l.foldl (fun out x => Dict.set out (f x) (g x)) out = out ++ l.map (fun x => (f x, g x))
  | [], out, _ => by simp
  | x :: l, out, h => by
    have hf : f x ∉ out.map Prod.fst := by
      intro hm
      exact (List.nodup_append.1 h).2.2 _ hm (f x) (by simp) rfl
    rw [List.foldl_cons, set_fresh out (f x) (g x) hf, foldl_set_fresh f g l _ (by simpa using h)]
    simp

end dict

/-! ### `itemDict` -/

mutual
/-- `itemDict` of a well named compound lists exactly the nodes under their dotted paths. -/
theorem itemDict_nodes : ∀ (d : Comp F) (items : List (Optic F)), Good (.compound d items) →
    (Optic.compound d items).itemDict = (nodes (.compound d items)).map (fun q => (dotted q.1, q.2))
  | d, items, h => by
    have hk : (((nodes (.compound d items)).map Prod.fst).map dotted).Nodup := by
      have hn := nodes_nodup _ h
      rw [List.nodup_map_iff_inj_on hn]
      intro p hp q hq e
      simp only [List.mem_map] at hp hq
      obtain ⟨a, ha, rfl⟩ := hp
      obtain ⟨b, hb, rfl⟩ := hq
      exact dotted_inj (nodes_ne_nil _ a ha).1 (nodes_ne_nil _ b hb).1 (good_dotfree _ h a ha) (good_dotfree _ h b hb) e
    rw [Optic.itemDict, addItems_nodes d.name items [(d.name, .compound d items)] h.2.1 h.2.2 (by
      simp only [nodes, List.map_cons, List.map_map, dotted_single] at hk
      simpa [Function.comp_def] using hk)]
    simp [nodes, dotted_single]
theorem addItems_nodes (pre : Name) : ∀ (items : List (Optic F)) (out : Dict Name (Optic F)),
    (items.map Optic.name).Nodup → GoodItems items →
    (out.map Prod.fst ++ (nodesItems items).map (fun q => dotted (pre :: q.1))).Nodup →
    Optic.addItems pre items out = out ++ (nodesItems items).map (fun q => (dotted (pre :: q.1), q.2))
  | [], out, _, _, _ => by simp [Optic.addItems, nodesItems]
  | o :: os, out, hn, hg, h => by
    simp only [List.map_cons, List.nodup_cons] at hn
    rw [Optic.addItems]
    simp only [nodesItems, List.map_append] at h ⊢
    have h1 : (out.map Prod.fst ++ (nodes o).map (fun q => dotted (pre :: q.1))).Nodup := by
      rw [← List.append_assoc] at h; exact (List.nodup_append.1 h).1
    have hstep : (o.itemDict.foldl (fun out kv => Dict.set out (pre ++ '.' :: kv.1) kv.2)
        (Dict.set out (pre ++ '.' :: o.name) o)) = out ++ (nodes o).map (fun q => (dotted (pre :: q.1), q.2)) := by
      have hkey : dotted [pre, o.name] = pre ++ '.' :: o.name := by rw [dotted_cons _ (by simp), dotted_single]
      cases o with
      | iface d =>
        simp only [nodes, List.map_cons, List.map_nil] at h1
        simp only [Optic.name] at hkey
        rw [hkey] at h1
        rw [set_fresh _ _ _ (by
          intro hm
          exact (List.nodup_append.1 h1).2.2 _ hm _ (by simp [Optic.name]) rfl)]
        simp [Optic.itemDict, nodes, Optic.name, hkey]
      | compound d items =>
        rw [itemDict_nodes d items hg.1]
        simp only [nodes, List.map_cons, List.foldl_cons, dotted_single]
        simp only [nodes, List.map_cons, List.map_map, Function.comp_def] at h1
        simp only [Optic.name] at hkey ⊢
        rw [hkey] at h1 ⊢
        have hfresh : pre ++ '.' :: d.name ∉ out.map Prod.fst := by
          intro hm
          exact (List.nodup_append.1 h1).2.2 _ hm (pre ++ '.' :: d.name) (by simp) rfl
        have hset : Dict.set out (pre ++ '.' :: d.name) (.compound d items) = out ++ [(pre ++ '.' :: d.name, .compound d items)] :=
          set_fresh out _ _ hfresh
        rw [hset]
        have hsame : Dict.set (out ++ [(pre ++ '.' :: d.name, .compound d items)]) (pre ++ '.' :: d.name) (.compound d items)
            = out ++ [(pre ++ '.' :: d.name, .compound d items)] := by
          refine set_same ?_ (by simp)
          rw [List.map_append]
          refine h1.sublist ?_
          simp
        rw [hsame]
        simp only [List.map_map, List.foldl_map, Function.comp_def]
        have e : ∀ q ∈ nodesItems items, pre ++ '.' :: dotted (d.name :: q.1) = dotted (pre :: d.name :: q.1) := by
          intro q _; rw [dotted_cons pre (by simp)]
        have e2 : (nodesItems items).foldl (fun out (q : List Name × Optic F) =>
              Dict.set out (pre ++ '.' :: dotted (d.name :: q.1)) q.2) (out ++ [(pre ++ '.' :: d.name, .compound d items)])
            = (nodesItems items).foldl (fun out (q : List Name × Optic F) =>
              Dict.set out (dotted (pre :: d.name :: q.1)) q.2) (out ++ [(pre ++ '.' :: d.name, .compound d items)]) := by
          apply List.foldl_ext
          intro acc q hq; rw [e q hq]
        rw [e2, foldl_set_fresh (fun q : List Name × Optic F => dotted (pre :: d.name :: q.1)) (fun q => q.2) _ _ (by
          simpa using h1)]
        simp
    rw [hstep, addItems_nodes pre os _ hn.2 hg.2 (by
      rw [List.map_append, List.map_map]
      simpa [Function.comp_def] using h)]
    simp
end

/-! ### `_names` -/

theorem mem_shortFrom : ∀ (ts q : List Name) (s : Name), q ≠ [] →
    (s ∈ Optic.shortFrom ts (dotted q) ↔ ∃ k ≤ ts.length, s = dotted ((ts.take k).reverse ++ q))
  | [], q, s, hq => by simp [Optic.shortFrom]
  | t :: ts, q, s, hq => by
    rw [Optic.shortFrom, ← dotted_cons t hq, List.mem_cons, mem_shortFrom ts (t :: q) s (by simp)]
    constructor
    · rintro (h | ⟨k, hk, h⟩)
      · exact ⟨0, by simp, by simpa using h⟩
      · exact ⟨k + 1, by simpa using hk, by simpa using h⟩
    · rintro ⟨k, hk, h⟩
      cases k with
      | zero => exact .inl (by simpa using h)
      | succ k => exact .inr ⟨k, by simpa using hk, by simpa using h⟩

theorem shortFrom_pairwise : ∀ (ts : List Name) (s : Name),
    (Optic.shortFrom ts s).Pairwise (fun a b => a.length < b.length) ∧ ∀ x ∈ Optic.shortFrom ts s, s.length ≤ x.length
  | [], s => by simp [Optic.shortFrom]
  | t :: ts, s => by
    obtain ⟨h1, h2⟩ := shortFrom_pairwise ts (t ++ '.' :: s)
    simp only [Optic.shortFrom, List.pairwise_cons, List.mem_cons]
    refine ⟨⟨fun x hx => ?_, h1⟩, ?_⟩
    · have := h2 x hx; simp at this; omega
    · rintro x (rfl | hx)
      · exact le_refl _
      · have := h2 x hx; simp at this; omega

theorem shortNames_nodup (k : Name) : (Optic.shortNames k).Nodup := by
  unfold Optic.shortNames
  split
  · simp
  · refine (shortFrom_pairwise _ _).1.imp ?_
    intro a b h e; subst e; omega

/-- The short names of a dotted path are the dotted forms of its non-empty suffixes. -/
theorem mem_shortNames {p : List Name} (hp : p ≠ []) (hd : ∀ a ∈ p, '.' ∉ a) (s : Name) :
    s ∈ Optic.shortNames (dotted p) ↔ ∃ q, q ≠ [] ∧ q <:+ p ∧ s = dotted q := by
  unfold Optic.shortNames
  rw [splitOn_dotted hp hd]
  have hr : p.reverse ≠ [] := by simpa using hp
  obtain ⟨t, ts, e⟩ := List.exists_cons_of_ne_nil hr
  have hp' : p = ts.reverse ++ [t] := by
    have := congrArg List.reverse e; simpa using this
  simp only [e]
  have := mem_shortFrom ts [t] s (by simp)
  rw [dotted_single] at this
  rw [this]
  constructor
  · rintro ⟨k, hk, h⟩
    refine ⟨_, by simp, ?_, h⟩
    rw [hp']
    have : (ts.take k).reverse <:+ ts.reverse := by
      rw [List.reverse_suffix]; exact List.take_prefix k ts
    obtain ⟨a, ha⟩ := this
    exact ⟨a, by rw [← List.append_assoc, ha]⟩
  · rintro ⟨q, hq, hs, h⟩
    have h1 : q.reverse <+: t :: ts := by rw [← e, List.reverse_prefix]; exact hs
    have h2 := List.prefix_iff_eq_take.1 h1
    have hl : 0 < q.reverse.length := by
      rw [List.length_reverse]; exact List.length_pos_of_ne_nil hq
    obtain ⟨k, hk⟩ : ∃ k, q.reverse.length = k + 1 := ⟨q.reverse.length - 1, by omega⟩
    rw [hk, List.take_succ_cons] at h2
    have hle : k ≤ ts.length := by
      have := h1.length_le
      rw [hk] at this; simpa using this
    refine ⟨k, hle, ?_⟩
    rw [h]
    congr 1
    have := congrArg List.reverse h2
    simpa using this

/-- Invariant of the loops of `_names`: after seeing the pairs `L` of short and full names, the dictionary holds the first
full name of every short name and the set holds the short names seen twice. -/
def NamesInv (L : List (Name × Name)) (s : Dict Name Name × List Name) : Prop :=
  (∀ x, s.1.get? x = (L.find? (fun e => decide (e.1 = x))).map Prod.snd) ∧
  (∀ x, x ∈ s.2 ↔ 2 ≤ L.countP (fun e => decide (e.1 = x)))

theorem namesInv_step {L : List (Name × Name)} {s : Dict Name Name × List Name} (h : NamesInv L s) (k short : Name) :
    NamesInv (L ++ [(short, k)]) (Optic.nameStep k s short) := by
  obtain ⟨h1, h2⟩ := h
  unfold Optic.nameStep
  have hhas : Dict.has s.1 short = (L.find? (fun e => decide (e.1 = short))).isSome := by
    rw [Dict.has, h1, Option.isSome_map]
  have hcount : (L.find? (fun e => decide (e.1 = short))).isSome = true ↔ 1 ≤ L.countP (fun e => decide (e.1 = short)) := by
    rw [List.find?_isSome, Nat.succ_le_iff, List.countP_pos_iff]
  split
  · rename_i hh
    rw [hhas] at hh
    constructor
    · intro x
      rw [h1, List.find?_append]
      by_cases hx : short = x
      · subst hx
        obtain ⟨v, hv⟩ := Option.isSome_iff_exists.1 hh
        simp [hv]
      · simp [hx]
    · intro x
      rw [List.countP_append, List.mem_cons, h2]
      by_cases hx : short = x
      · subst hx
        have := hcount.1 hh
        have h1 : [(short, k)].countP (fun e => decide (e.1 = short)) = 1 := by simp
        rw [h1]
        exact ⟨fun _ => by omega, fun _ => .inl rfl⟩
      · simp [hx, Ne.symm hx]
  · rename_i hh
    rw [hhas] at hh
    have hnone : L.find? (fun e => decide (e.1 = short)) = none := by
      rw [← Option.not_isSome_iff_eq_none]; exact hh
    constructor
    · intro x
      show Dict.get? (Dict.set s.1 short k) x = _
      rw [get?_set, h1, List.find?_append]
      by_cases hx : short = x
      · subst hx; rw [hnone]; simp
      · simp [hx]
    · intro x
      rw [List.countP_append]
      show x ∈ s.2 ↔ _
      rw [h2]
      by_cases hx : short = x
      · subst hx
        have : ¬ 1 ≤ L.countP (fun e => decide (e.1 = short)) := fun hc => hh (hcount.2 hc)
        have h1 : [(short, k)].countP (fun e => decide (e.1 = short)) = 1 := by simp
        rw [h1]
        omega
      · simp [hx]

theorem namesInv_inner (k : Name) : ∀ (l : List Name) (L : List (Name × Name)) (s : Dict Name Name × List Name), NamesInv L s →
    NamesInv (L ++ l.map (fun x => (x, k))) (l.foldl (Optic.nameStep k) s)
  | [], L, s, h => by simpa using h
  | x :: l, L, s, h => by
    have := namesInv_inner k l _ _ (namesInv_step h k x)
    simpa using this

/-- All pairs of a short name and the full name it comes from. -/
def shortPairs (keys : List Name) : List (Name × Name) := keys.flatMap (fun k => (Optic.shortNames k).map (fun x => (x, k)))

theorem namesInv_outer : ∀ (keys : List Name) (L : List (Name × Name)) (s : Dict Name Name × List Name), NamesInv L s →
    NamesInv (L ++ shortPairs keys) (keys.foldl (fun s k => (Optic.shortNames k).foldl (Optic.nameStep k) s) s)
  | [], L, s, h => by simpa [shortPairs] using h
  | k :: keys, L, s, h => by
    have := namesInv_outer keys _ _ (namesInv_inner k (Optic.shortNames k) L s h)
    simpa [shortPairs] using this

theorem get?_del (d : Dict Name Name) (k x : Name) : (d.del k).get? x = if x = k then none else d.get? x := by
  induction d with
  | nil => simp [Dict.del, Dict.get?]
  | cons e d ih =>
    obtain ⟨a, b⟩ := e
    unfold Dict.del at ih ⊢
    rw [List.filter_cons]
    by_cases h : a = k
    · subst h
      simp only [decide_true, Bool.not_true, Bool.false_eq_true, if_false, ih, Dict.get?]
      by_cases hx : x = a
      · simp [hx]
      · simp [hx, Ne.symm hx]
    · simp only [h, decide_false, Bool.not_false, if_true, Dict.get?, ih]
      by_cases hx : a = x
      · subst hx; simp [h]
      · simp [hx]

theorem get?_foldl_del : ∀ (l : List Name) (d : Dict Name Name) (x : Name),
    (l.foldl Dict.del d).get? x = if x ∈ l then none else d.get? x
  | [], d, x => by simp
  | k :: l, d, x => by
    rw [List.foldl_cons, get?_foldl_del l, get?_del]
    by_cases h : x ∈ l
    · simp [h]
    · by_cases h2 : x = k <;> simp [h, h2]

theorem namesOf_get? (keys : List Name) (x : Name) :
    (Optic.namesOf keys).get? x =
      if 2 ≤ (shortPairs keys).countP (fun e => decide (e.1 = x)) then none
      else ((shortPairs keys).find? (fun e => decide (e.1 = x))).map Prod.snd := by
  have h0 : NamesInv [] (([], []) : Dict Name Name × List Name) := ⟨fun x => by simp [Dict.get?], fun x => by simp⟩
  obtain ⟨h1, h2⟩ := namesInv_outer keys [] _ h0
  simp only [List.nil_append] at h1 h2
  unfold Optic.namesOf
  simp only [get?_foldl_del, h1, h2]

theorem two_le_countP {α : Type} {P : α → Bool} {l : List α} {a b : α} (ha : a ∈ l) (hb : b ∈ l) (hne : a ≠ b)
    (hpa : P a = true) (hpb : P b = true) : 2 ≤ l.countP P := by
  induction l with
  | nil => cases ha
  | cons c l ih =>
    rw [List.countP_cons]
    rcases List.mem_cons.1 ha with hac | ha' <;> rcases List.mem_cons.1 hb with hbc | hb'
    · exact absurd (hac.trans hbc.symm) hne
    · have : 0 < l.countP P := List.countP_pos_iff.2 ⟨b, hb', hpb⟩
      rw [if_pos (by rw [← hac]; exact hpa)]; omega
    · have : 0 < l.countP P := List.countP_pos_iff.2 ⟨a, ha', hpa⟩
      rw [if_pos (by rw [← hbc]; exact hpb)]; omega
    · have := ih ha' hb'
      omega

theorem mem_shortPairs {keys : List Name} {x k : Name} : (x, k) ∈ shortPairs keys ↔ k ∈ keys ∧ x ∈ Optic.shortNames k := by
  simp [shortPairs]

theorem shortPairs_nodup {keys : List Name} (h : keys.Nodup) : (shortPairs keys).Nodup := by
  unfold shortPairs
  rw [List.nodup_flatMap]
  refine ⟨fun k _ => (shortNames_nodup k).map (fun a b e => by simpa using e), ?_⟩
  refine h.imp ?_
  intro a b hab
  simp only [Function.onFun, List.disjoint_left, List.mem_map]
  rintro e ⟨x, -, rfl⟩ ⟨y, -, h2⟩
  exact hab (by simpa using (congrArg Prod.snd h2).symm)

/-- What `_names` holds for any list of distinct keys: the short names that belong to exactly one key. -/
theorem namesOf_iff {keys : List Name} (hk : keys.Nodup) (x k : Name) :
    (Optic.namesOf keys).get? x = some k ↔
      k ∈ keys ∧ x ∈ Optic.shortNames k ∧ ∀ k' ∈ keys, x ∈ Optic.shortNames k' → k' = k := by
  rw [namesOf_get?]
  constructor
  · intro h
    split at h
    · cases h
    · rename_i hc
      cases hf : (shortPairs keys).find? (fun e => decide (e.1 = x)) with
      | none => rw [hf] at h; cases h
      | some e =>
        rw [hf] at h
        simp only [Option.map_some, Option.some.injEq] at h
        have hm := List.mem_of_find?_eq_some hf
        have hx := List.find?_some hf
        simp only [decide_eq_true_eq] at hx
        obtain ⟨a, b⟩ := e
        simp only at h hx; subst h; subst hx
        obtain ⟨h1, h2⟩ := mem_shortPairs.1 hm
        refine ⟨h1, h2, fun k' hk' hs => ?_⟩
        by_contra hne
        refine hc (two_le_countP hm (mem_shortPairs.2 ⟨hk', hs⟩) ?_ (by simp) (by simp))
        intro e; exact hne (congrArg Prod.snd e).symm
  · rintro ⟨h1, h2, h3⟩
    have hm : (x, k) ∈ shortPairs keys := mem_shortPairs.2 ⟨h1, h2⟩
    have hall : ∀ e ∈ shortPairs keys, e.1 = x → e = (x, k) := by
      rintro ⟨a, b⟩ he rfl
      obtain ⟨hb, hs⟩ := mem_shortPairs.1 he
      rw [h3 b hb hs]
    have hc : (shortPairs keys).countP (fun e => decide (e.1 = x)) = (shortPairs keys).count (x, k) := by
      rw [List.count]
      apply List.countP_congr
      intro e he
      simp only [decide_eq_true_eq, beq_iff_eq]
      exact ⟨hall e he, fun h => by rw [h]⟩
    have hle := List.nodup_iff_count_le_one.1 (shortPairs_nodup hk) (x, k)
    rw [if_neg (by rw [hc]; omega)]
    cases hf : (shortPairs keys).find? (fun e => decide (e.1 = x)) with
    | none =>
      rw [List.find?_eq_none] at hf
      exact absurd (hf _ hm) (by simp)
    | some e =>
      have hm' := List.mem_of_find?_eq_some hf
      have hx := List.find?_some hf
      simp only [decide_eq_true_eq] at hx
      rw [hall e hm' hx]; rfl

/-! ## C48 -/

theorem keys_nodes {d : Comp F} {items : List (Optic F)} (h : Good (.compound d items)) :
    (Optic.compound d items).itemDict.map Prod.fst = (nodes (.compound d items)).map (fun q => dotted q.1) ∧
    ((Optic.compound d items).itemDict.map Prod.fst).Nodup := by
  have e : (Optic.compound d items).itemDict.map Prod.fst = (nodes (.compound d items)).map (fun q => dotted q.1) := by
    rw [itemDict_nodes d items h, List.map_map]; rfl
  refine ⟨e, ?_⟩
  rw [e, show (fun q : List Name × Optic F => dotted q.1) = dotted ∘ Prod.fst from rfl, ← List.map_map,
    List.nodup_map_iff_inj_on (nodes_nodup _ h)]
  intro p hp q hq e
  simp only [List.mem_map] at hp hq
  obtain ⟨a, ha, rfl⟩ := hp
  obtain ⟨b, hb, rfl⟩ := hq
  exact dotted_inj (nodes_ne_nil _ a ha).1 (nodes_ne_nil _ b hb).1 (good_dotfree _ h a ha) (good_dotfree _ h b hb) e

theorem itemDict_get {d : Comp F} {items : List (Optic F)} (h : Good (.compound d items)) (s : Name) (x : Optic F) :
    (Optic.compound d items).itemDict.get? s = some x ↔ ∃ p, (p, x) ∈ nodes (.compound d items) ∧ s = dotted p := by
  constructor
  · intro hg
    have := mem_of_get? hg
    rw [itemDict_nodes d items h, List.mem_map] at this
    obtain ⟨q, hq, e⟩ := this
    simp only [Prod.mk.injEq] at e
    exact ⟨q.1, by rw [← e.2]; exact hq, e.1.symm⟩
  · rintro ⟨p, hp, rfl⟩
    refine get?_of_mem (keys_nodes h).2 ?_
    rw [itemDict_nodes d items h, List.mem_map]
    exact ⟨(p, x), hp, rfl⟩

theorem names_get {d : Comp F} {items : List (Optic F)} (h : Good (.compound d items)) (s k : Name) :
    (Optic.compound d items).names.get? s = some k ↔
      ∃ q p x, q ≠ [] ∧ s = dotted q ∧ k = dotted p ∧ (p, x) ∈ nodes (.compound d items) ∧ q <:+ p ∧
        ∀ p' x', (p', x') ∈ nodes (.compound d items) → q <:+ p' → p' = p := by
  unfold Optic.names
  obtain ⟨hk, hnd⟩ := keys_nodes h
  rw [namesOf_iff hnd, hk]
  simp only [List.mem_map]
  have hsuf : ∀ {q p : List Name} {x : Optic F}, (p, x) ∈ nodes (.compound d items) → q <:+ p → ∀ a ∈ q, '.' ∉ a :=
    fun hm hs a ha => good_dotfree _ h _ hm a (hs.subset ha)
  constructor
  · rintro ⟨⟨⟨p, x⟩, hp, rfl⟩, h2, h3⟩
    obtain ⟨q, hq, hs, e⟩ := (mem_shortNames (nodes_ne_nil _ _ hp).1 (good_dotfree _ h _ hp) s).1 h2
    refine ⟨q, p, x, hq, e, rfl, hp, hs, fun p' x' hp' hs' => ?_⟩
    have := h3 (dotted p') ⟨(p', x'), hp', rfl⟩
      ((mem_shortNames (nodes_ne_nil _ _ hp').1 (good_dotfree _ h _ hp') s).2 ⟨q, hq, hs', e⟩)
    exact dotted_inj (nodes_ne_nil _ _ hp').1 (nodes_ne_nil _ _ hp).1 (good_dotfree _ h _ hp') (good_dotfree _ h _ hp) this
  · rintro ⟨q, p, x, hq, rfl, rfl, hp, hs, huniq⟩
    refine ⟨⟨(p, x), hp, rfl⟩,
      (mem_shortNames (nodes_ne_nil _ _ hp).1 (good_dotfree _ h _ hp) _).2 ⟨q, hq, hs, rfl⟩, ?_⟩
    rintro k' ⟨⟨p', x'⟩, hp', rfl⟩ hshort
    obtain ⟨q', hq', hs', e⟩ := (mem_shortNames (nodes_ne_nil _ _ hp').1 (good_dotfree _ h _ hp') _).1 hshort
    have := dotted_inj hq hq' (hsuf hp hs) (hsuf hp' hs') e
    subst this
    rw [huniq p' x' hp' hs']

/-- What a key means: it is the full dotted path of the node, or the dotted form of a suffix of its path that is a suffix
of no other path. -/
def Denotes (o : Optic F) (key : Name) (p : List Name) (x : Optic F) : Prop :=
  (p, x) ∈ nodes o ∧ (key = dotted p ∨
    ∃ q, q ≠ [] ∧ key = dotted q ∧ q <:+ p ∧ ∀ p' x', (p', x') ∈ nodes o → q <:+ p' → p' = p)

theorem denotes_unique {o : Optic F} (h : Good o) {key : Name} {p p' : List Name} {x x' : Optic F}
    (h1 : Denotes o key p x) (h2 : Denotes o key p' x') : p = p' ∧ x = x' := by
  have hpath : p = p' := by
    obtain ⟨hm, h1⟩ := h1
    obtain ⟨hm', h2⟩ := h2
    have hd := good_dotfree o h _ hm
    have hd' := good_dotfree o h _ hm'
    have hn := (nodes_ne_nil o _ hm).1
    have hn' := (nodes_ne_nil o _ hm').1
    rcases h1 with h1 | ⟨q, hq, e1, hs, hu⟩ <;> rcases h2 with h2 | ⟨q', hq', e2, hs', hu'⟩
    · exact dotted_inj hn hn' hd hd' (h1.symm.trans h2)
    · have e := dotted_inj hn hq' hd (fun a ha => hd' a (hs'.subset ha)) (h1.symm.trans e2)
      exact hu' p x hm (by rw [← e])
    · have e := dotted_inj hq hn' (fun a ha => hd a (hs.subset ha)) hd' (e1.symm.trans h2)
      exact (hu p' x' hm' (by rw [e])).symm
    · have e := dotted_inj hq hq' (fun a ha => hd a (hs.subset ha)) (fun a ha => hd' a (hs'.subset ha)) (e1.symm.trans e2)
      exact hu' p x hm (by rw [← e]; exact hs)
  subst hpath
  refine ⟨rfl, ?_⟩
  have hnd := nodes_nodup o h
  have := List.inj_on_of_nodup_map hnd h1.1 h2.1 rfl
  exact (Prod.ext_iff.1 this).2

/-- C48 for well named trees (no dots in names, no two items of one compound with the same name), of any shape and depth:
`optic[key]` returns `x` exactly when `key` is the full dotted path of `x` or an unambiguous suffix of it, and raises
`ValueError` for every other key, in particular for ambiguous short names.  Missing from the full statement: items of the
same compound sharing a name (`C48_same_name_siblings_violated`). -/
theorem C48_lookup_partial (d : Comp F) (items : List (Optic F)) (h : Good (.compound d items)) (key : Name) :
    (∀ x, (Optic.compound d items).getItem key = .ok x ↔ ∃ p, Denotes (.compound d items) key p x) ∧
    ((¬ ∃ p x, Denotes (.compound d items) key p x) → (Optic.compound d items).getItem key = .error .valueError) := by
  have hmain : ∀ x, (∃ p, Denotes (.compound d items) key p x) → (Optic.compound d items).getItem key = .ok x := by
    rintro x ⟨p, hp, hk⟩
    cases hi : (Optic.compound d items).itemDict.get? key with
    | some y =>
      simp only [Optic.getItem, hi]
      obtain ⟨p', hp', e⟩ := (itemDict_get h key y).1 hi
      rw [(denotes_unique h (⟨hp, hk⟩ : Denotes _ key p x) ⟨hp', .inl e⟩).2]
    | none =>
      rcases hk with hk | ⟨q, hq, e, hs, hu⟩
      · rw [(itemDict_get h key x).2 ⟨p, hp, hk⟩] at hi; cases hi
      · have h1 := (names_get h key (dotted p)).2 ⟨q, p, x, hq, e, rfl, hp, hs, hu⟩
        have h2 := (itemDict_get h (dotted p) x).2 ⟨p, hp, rfl⟩
        simp only [Optic.getItem, hi, h1, h2]
  have hback : ∀ x, (Optic.compound d items).getItem key = .ok x → ∃ p, Denotes (.compound d items) key p x := by
    intro x hx
    cases hi : (Optic.compound d items).itemDict.get? key with
    | some y =>
      simp only [Optic.getItem, hi, Except.ok.injEq] at hx
      subst hx
      obtain ⟨p', hp', e⟩ := (itemDict_get h key y).1 hi
      exact ⟨p', hp', .inl e⟩
    | none =>
      cases hn : (Optic.compound d items).names.get? key with
      | none => simp [Optic.getItem, hi, hn] at hx
      | some full =>
        obtain ⟨q, p, y, hq, e, rfl, hp, hs, hu⟩ := (names_get h key full).1 hn
        have h2 := (itemDict_get h (dotted p) y).2 ⟨p, hp, rfl⟩
        simp only [Optic.getItem, hi, hn, h2, Except.ok.injEq] at hx
        subst hx
        exact ⟨p, hp, .inr ⟨q, hq, e, hs, hu⟩⟩
  refine ⟨fun x => ⟨hback x, hmain x⟩, fun hno => ?_⟩
  cases hg : (Optic.compound d items).getItem key with
  | ok x =>
    obtain ⟨p, hp⟩ := hback x hg
    exact absurd ⟨p, x, hp⟩ hno
  | error e =>
    congr 1
    simp only [Optic.getItem] at hg
    split at hg
    · cases hg
    · split at hg
      · cases hg; rfl
      · split at hg
        · cases hg
        · cases hg; rfl

/-- C48: an ambiguous short name raises. -/
theorem C48_ambiguous_raises (d : Comp F) (items : List (Optic F)) (h : Good (.compound d items)) (q : List Name) (hq : q ≠ [])
    (p₁ p₂ : List Name) (x₁ x₂ : Optic F) (h₁ : (p₁, x₁) ∈ nodes (.compound d items)) (h₂ : (p₂, x₂) ∈ nodes (.compound d items))
    (s₁ : q <:+ p₁) (s₂ : q <:+ p₂) (hne : p₁ ≠ p₂) (hfull : ∀ x, (q, x) ∉ nodes (.compound d items)) :
    (Optic.compound d items).getItem (dotted q) = .error .valueError := by
  refine (C48_lookup_partial d items h (dotted q)).2 ?_
  rintro ⟨p, x, hp, hk⟩
  have hdq : ∀ a ∈ q, '.' ∉ a := fun a ha => good_dotfree _ h _ h₁ a (s₁.subset ha)
  rcases hk with hk | ⟨q', hq', e, hs, hu⟩
  · have := dotted_inj hq (nodes_ne_nil _ _ hp).1 hdq (good_dotfree _ h _ hp) hk
    subst this; exact hfull x hp
  · have := dotted_inj hq hq' hdq (fun a ha => good_dotfree _ h _ hp a (hs.subset ha)) e
    subst this
    exact hne ((hu _ _ h₁ s₁).trans (hu _ _ h₂ s₂).symm)

/-- A tree with a nested compound; `A` occurs twice. -/
noncomputable def demoTree : Optic Dbl :=
  demoComp "T" [.iface (demoFlat "A" 0), demoComp "U" [.iface (demoFlat "A" 1), .iface (demoFlat "B" 2)]]

theorem demoTree_good : Good demoTree := by
  simp [demoTree, demoComp, Good, GoodItems, demoFlat, Optic.name]

/-- Lookup by full path, by unambiguous short name, and of an ambiguous name. -/
example : demoTree.getItem "T.U.A".toList = .ok (.iface (demoFlat "A" 1)) ∧
    demoTree.getItem "B".toList = .ok (.iface (demoFlat "B" 2)) ∧
    demoTree.getItem "A".toList = .error .valueError := by
  refine ⟨?_, ?_, ?_⟩
  · refine ((C48_lookup_partial _ _ demoTree_good "T.U.A".toList).1 _).2 ⟨["T".toList, "U".toList, "A".toList], ?_, .inl rfl⟩
    simp [nodes, nodesItems, demoComp, demoFlat]
  · refine ((C48_lookup_partial _ _ demoTree_good "B".toList).1 _).2
      ⟨["T".toList, "U".toList, "B".toList], ?_, .inr ⟨["B".toList], by simp, by rfl, ⟨["T".toList, "U".toList], rfl⟩, ?_⟩⟩
    · simp [nodes, nodesItems, demoComp, demoFlat]
    · intro p' x' h hs
      simp [nodes, nodesItems, demoComp, demoFlat] at h
      rcases h with ⟨rfl, -⟩ | ⟨rfl, -⟩ | ⟨rfl, -⟩ | ⟨rfl, -⟩ | ⟨rfl, -⟩ <;> first | rfl | (exfalso; revert hs; decide)
  · refine C48_ambiguous_raises _ _ demoTree_good ["A".toList] (by simp) ["T".toList, "A".toList]
      ["T".toList, "U".toList, "A".toList] (.iface (demoFlat "A" 0)) (.iface (demoFlat "A" 1)) ?_ ?_
      ⟨["T".toList], rfl⟩ ⟨["T".toList, "U".toList], rfl⟩ (by decide) ?_
    · simp [nodes, nodesItems, demoComp, demoFlat]
    · simp [nodes, nodesItems, demoComp, demoFlat]
    · intro x
      simp [nodes, nodesItems, demoComp, demoFlat]

/-- C48 fails for two items of one compound with the same name: both the full and the short name silently give the last
one, although the name is ambiguous. -/
theorem C48_same_name_siblings_violated :
    ∃ (a b : Iface Dbl), a.name = b.name ∧ a.coordSys ≠ b.coordSys ∧
      (demoComp "T" [.iface a, .iface b]).getItem "T.A".toList = .ok (.iface b) ∧
      (demoComp "T" [.iface a, .iface b]).getItem "A".toList = .ok (.iface b) := by
  refine ⟨demoFlat "A" 0, demoFlat "A" 1, rfl, demo_frame_ne (by norm_num), rfl, rfl⟩

end Batoid.Props
