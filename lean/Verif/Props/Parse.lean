import Verif.Parse
import Verif.Props.Frames
import Verif.Props.Objects

/-!
# Configuration files (C62, C63, C83, C84)

An item of a dictionary, and the optic parsed from it, are addressed by the same list of indices.  The theorems relate each
optic of the parsed tree to its parent in the same tree and to the dictionary at the same place.
-/

namespace Batoid.Props
open Arith Objects Parse

/-! ## Addresses -/

/-- The own part of a dictionary and its items. -/
def cfgData {F : Type} : OpticCfg F → OpticData F
  | .mk d _ => d
def cfgItems {F : Type} : OpticCfg F → List (OpticCfg F)
  | .mk _ items => items.getD []

/-- The dictionary at an address. -/
def cfgAt {F : Type} : OpticCfg F → List ℕ → Option (OpticCfg F)
  | cfg, [] => some cfg
  | cfg, i :: path => (cfgItems cfg)[i]?.bind (cfgAt · path)

/-- The optic at an address. -/
def opticAt {F : Type} : OpticObj F → List ℕ → Option (OpticObj F)
  | o, [] => some o
  | o, i :: path => (itemsOf o)[i]?.bind (opticAt · path)

/-- All entries of the frame dictionaries met on the way to an address, in order. -/
def framesTo {F : Type} : OpticCfg F → List ℕ → List (Name × CsVal F)
  | cfg, [] => (cfgData cfg).coordSys.getD []
  | cfg, i :: path => (cfgData cfg).coordSys.getD [] ++
      (match (cfgItems cfg)[i]? with | some a => framesTo a path | none => [])

section generic
variable {F : Type} [Arith F] {b : Builders F}

/-! ## What a successful parse has done -/

theorem bind_ok {α β : Type} {x : Except PyErr α} {f : α → Except PyErr β} {y : β} (h : (x >>= f) = .ok y) :
    ∃ a, x = .ok a ∧ f a = .ok y := by
  cases x with
  | error e => cases h
  | ok a => exact ⟨a, rfl, h⟩

theorem popKey_ok {α : Type} {x : Option α} {a : α} (h : popKey x = .ok a) : x = some a := by
  cases x with
  | none => cases h
  | some y => cases h; rfl

/-- What each branch of the parser builds. -/
inductive Branch (b : Builders F) (d : OpticData F) (items : Option (List (OpticCfg F))) (k : Common F) : OpticObj F → Prop
  | simple {kind s} : simpleKind (F := F) k.type = some kind → parseSurfKey b d.surface = .ok s →
      Branch b d items k (newIface kind k.name s k.obscuration k.coordSys k.inMedium k.outMedium)
  | screen {s scr} : k.type = "OPDScreen".toList → parseSurfKey b d.surface = .ok s → parseSurfKey b d.screen = .ok scr →
      k.inMedium.eq k.outMedium = .ok true →
      Branch b d items k (newIface (.screen scr) k.name s k.obscuration k.coordSys k.inMedium k.outMedium)
  | lens {m mo a a' l o o'} : k.type = "Lens".toList → d.medium = some m → parseMedium b m = .ok mo → items = some (a :: a' :: l) →
      parseOptic b a k.coordSys k.inMedium (some mo) = .ok o → parseOptic b a' k.coordSys mo (some k.outMedium) = .ok o' →
      (outMedium o).eq (inMedium o') = .ok true →
      Branch b d items k (.compound ⟨true, k.name, k.coordSys, k.inMedium, k.outMedium, false, none⟩ [o, o'])
  | compound {l os} : k.type = "CompoundOptic".toList → items = some l →
      List.Forall₂ (fun a o => parseOptic b a k.coordSys k.inMedium (some k.outMedium) = .ok o) l os →
      Branch b d items k (.compound ⟨false, k.name, k.coordSys, k.inMedium, k.outMedium, false, none⟩ os)
  | plain {s} : k.type = "Interface".toList → parseSurfKey b d.surface = .ok s →
      Branch b d items k (newIface .plain k.name s none k.coordSys (.const 1) (.const 1))

theorem assertEq_ok {r : Except PyErr Bool} {u : Unit} (h : assertEq r = .ok u) : r = .ok true := by
  obtain ⟨t, rfl, h⟩ := bind_ok h
  cases t
  · cases h
  · rfl

theorem parseOpticList_ok {c : CoordSys F} {mIn mOut : MediumObj F} : ∀ {l : List (OpticCfg F)} {os : List (OpticObj F)},
    parseOpticList b l c mIn mOut = .ok os → List.Forall₂ (fun a o => parseOptic b a c mIn (some mOut) = .ok o) l os
  | [], os, h => by rw [parseOpticList] at h; cases h; exact .nil
  | a :: l, os, h => by
    rw [parseOpticList] at h
    obtain ⟨o, ho, h⟩ := bind_ok h
    obtain ⟨os', hos, h⟩ := bind_ok h
    cases h
    exact .cons ho (parseOpticList_ok hos)

theorem parseTwo_ok {c : CoordSys F} {mIn mo mOut : MediumObj F} {items : Option (List (OpticCfg F))} {l : List (OpticObj F)}
    (h : parseTwo b items c mIn mo mOut = .ok l) : ∃ a a' rest o o', items = some (a :: a' :: rest) ∧ l = [o, o'] ∧
      parseOptic b a c mIn (some mo) = .ok o ∧ parseOptic b a' c mo (some mOut) = .ok o' := by
  match items, h with
  | none, h => rw [parseTwo] at h; cases h
  | some [], h => rw [parseTwo] at h; cases h
  | some [a], h =>
    rw [parseTwo] at h
    obtain ⟨_, _, h⟩ := bind_ok h
    cases h
  | some (a :: a' :: rest), h =>
    rw [parseTwo] at h
    obtain ⟨o, ho, h⟩ := bind_ok h
    obtain ⟨o', ho', h⟩ := bind_ok h
    cases h
    exact ⟨a, a', rest, o, o', rfl, rfl, ho, ho'⟩

theorem parseOptic_ok {d : OpticData F} {items : Option (List (OpticCfg F))} {c : CoordSys F} {mIn : MediumObj F}
    {mOut : Option (MediumObj F)} {o : OpticObj F} (h : parseOptic b (.mk d items) c mIn mOut = .ok o) :
    ∃ k, parseCommon b d c mIn mOut = .ok k ∧ Branch b d items k o := by
  rw [parseOptic] at h
  obtain ⟨k, hk, h⟩ := bind_ok h
  refine ⟨k, hk, ?_⟩
  cases hs : simpleKind (F := F) k.type with
  | some kind =>
    rw [hs] at h
    obtain ⟨s, hs', h⟩ := bind_ok h
    cases h
    exact .simple hs hs'
  | none =>
    rw [hs] at h
    simp only at h
    split at h
    · rename_i ht
      obtain ⟨s, hs', h⟩ := bind_ok h
      obtain ⟨scr, hscr, h⟩ := bind_ok h
      obtain ⟨u, hu, h⟩ := bind_ok h
      cases h
      exact .screen ht hs' hscr (assertEq_ok hu)
    · split at h
      · rename_i ht
        obtain ⟨m, hm, h⟩ := bind_ok h
        obtain ⟨mo, hmo, h⟩ := bind_ok h
        obtain ⟨l, hl, h⟩ := bind_ok h
        obtain ⟨a, a', rest, o₁, o₂, rfl, rfl, h₁, h₂⟩ := parseTwo_ok hl
        rw [newLens] at h
        obtain ⟨u, hu, h⟩ := bind_ok h
        cases h
        exact .lens ht (popKey_ok hm) hmo rfl h₁ h₂ (assertEq_ok hu)
      · split at h
        · rename_i ht
          obtain ⟨l, hl, h⟩ := bind_ok h
          cases h
          match items, hl with
          | none, hl => rw [parseOptics] at hl; cases hl
          | some l', hl => rw [parseOptics] at hl; exact .compound ht rfl (parseOpticList_ok hl)
        · split at h
          · rename_i ht
            obtain ⟨s, hs', h⟩ := bind_ok h
            cases h
            exact .plain ht hs'
          · cases h

theorem parseCommon_ok {d : OpticData F} {c : CoordSys F} {mIn : MediumObj F} {mOut : Option (MediumObj F)} {k : Common F}
    (h : parseCommon b d c mIn mOut = .ok k) :
    parseObscKey b d.obscuration = .ok k.obscuration ∧ d.name.getD [] = k.name ∧ parseFrame d.coordSys c = .ok k.coordSys ∧
    parseIn b d.inMedium mIn = .ok k.inMedium ∧ parseOut b d.outMedium mOut k.inMedium = .ok k.outMedium ∧
    d.type = some k.type := by
  rw [parseCommon] at h
  obtain ⟨ob, hob, h⟩ := bind_ok h
  obtain ⟨c', hc', h⟩ := bind_ok h
  obtain ⟨mi, hmi, h⟩ := bind_ok h
  obtain ⟨mo, hmo, h⟩ := bind_ok h
  obtain ⟨t, ht, h⟩ := bind_ok h
  cases h
  exact ⟨hob, rfl, hc', hmi, hmo, popKey_ok ht⟩

/-- What an item is given by its parent: the medium before it and the medium after it. -/
inductive Given (b : Builders F) (cfg : OpticCfg F) (o : OpticObj F) : ℕ → MediumObj F → MediumObj F → Prop
  | compound {i} : (cfgData cfg).type = some "CompoundOptic".toList → Given b cfg o i (inMedium o) (outMedium o)
  | first {m mo} : (cfgData cfg).type = some "Lens".toList → (cfgData cfg).medium = some m → parseMedium b m = .ok mo →
      Given b cfg o 0 (inMedium o) mo
  | second {m mo} : (cfgData cfg).type = some "Lens".toList → (cfgData cfg).medium = some m → parseMedium b m = .ok mo →
      Given b cfg o 1 mo (outMedium o)

/-- Each item of a parsed optic was parsed from the item with the same index, in the frame of its parent. -/
theorem item_parsed {cfg : OpticCfg F} {c : CoordSys F} {mIn : MediumObj F} {mOut : Option (MediumObj F)} {o o' : OpticObj F}
    {i : ℕ} (h : parseOptic b cfg c mIn mOut = .ok o) (hi : (itemsOf o)[i]? = some o') :
    ∃ a m m', (cfgItems cfg)[i]? = some a ∧ Given b cfg o i m m' ∧ parseOptic b a (frame o) m (some m') = .ok o' := by
  match cfg with
  | .mk d items =>
    obtain ⟨k, hk, br⟩ := parseOptic_ok h
    have ht := (parseCommon_ok hk).2.2.2.2.2
    cases br with
    | simple => simp [itemsOf, newIface] at hi
    | screen => simp [itemsOf, newIface] at hi
    | plain => simp [itemsOf, newIface] at hi
    | @lens m mo a a' l o₁ o₂ hty hm hmo hitems h₁ h₂ heq =>
      rw [hty] at ht
      match i, hi with
      | 0, hi =>
        simp only [itemsOf, List.getElem?_cons_zero, Option.some.injEq] at hi
        subst hi
        exact ⟨a, _, mo, by simp [cfgItems, hitems], .first ht hm hmo, h₁⟩
      | 1, hi =>
        simp only [itemsOf, List.getElem?_cons_succ, List.getElem?_cons_zero, Option.some.injEq] at hi
        subst hi
        exact ⟨a', mo, _, by simp [cfgItems, hitems], .second ht hm hmo, h₂⟩
      | n + 2, hi => simp [itemsOf] at hi
    | @compound l os hty hitems hall =>
      rw [hty] at ht
      simp only [itemsOf] at hi
      obtain ⟨hlen, hget⟩ := List.forall₂_iff_get.1 hall
      obtain ⟨hlt, rfl⟩ := List.getElem?_eq_some_iff.1 hi
      refine ⟨l[i]'(by omega), _, _, ?_, .compound ht, hget i (by omega) hlt⟩
      simp [cfgItems, hitems, hlen, hlt]

/-- Every optic of the tree was parsed from the dictionary at its address. -/
theorem at_parsed {path : List ℕ} : ∀ {cfg : OpticCfg F} {c : CoordSys F} {mIn : MediumObj F} {mOut : Option (MediumObj F)}
    {o o' : OpticObj F}, parseOptic b cfg c mIn mOut = .ok o → opticAt o path = some o' →
    ∃ a c' m m', cfgAt cfg path = some a ∧ parseOptic b a c' m m' = .ok o' := by
  induction path with
  | nil =>
    intro cfg c mIn mOut o o' h hp
    cases hp
    exact ⟨cfg, c, mIn, mOut, rfl, h⟩
  | cons i path ih =>
    intro cfg c mIn mOut o o' h hp
    simp only [opticAt, Option.bind_eq_some_iff] at hp
    obtain ⟨x, hx, hp⟩ := hp
    obtain ⟨a, m, m', ha, -, hpa⟩ := item_parsed h hx
    obtain ⟨a', c', n, n', h1, h2⟩ := ih hpa hp
    exact ⟨a', c', n, n', by simp [cfgAt, ha, h1], h2⟩

theorem opticAt_append {path path' : List ℕ} : ∀ (o : OpticObj F), opticAt o (path ++ path') = (opticAt o path).bind (opticAt · path') := by
  induction path with
  | nil => intro o; rfl
  | cons i path ih =>
    intro o
    simp only [List.cons_append, opticAt]
    cases (itemsOf o)[i]? with
    | none => rfl
    | some x => simpa using ih x
theorem cfgAt_append {path path' : List ℕ} : ∀ (o : OpticCfg F), cfgAt o (path ++ path') = (cfgAt o path).bind (cfgAt · path') := by
  induction path with
  | nil => intro o; rfl
  | cons i path ih =>
    intro o
    simp only [List.cons_append, cfgAt]
    cases (cfgItems o)[i]? with
    | none => rfl
    | some x => simpa using ih x

/-- An optic of the tree, its parent, and the dictionaries of both. -/
theorem child_parsed {cfg : OpticCfg F} {c : CoordSys F} {mIn : MediumObj F} {mOut : Option (MediumObj F)} {o p o' : OpticObj F}
    {path : List ℕ} {i : ℕ} (h : parseOptic b cfg c mIn mOut = .ok o) (hp : opticAt o path = some p)
    (ho : opticAt o (path ++ [i]) = some o') :
    ∃ a a' m m', cfgAt cfg path = some a ∧ cfgAt cfg (path ++ [i]) = some a' ∧ Given b a p i m m' ∧
      parseOptic b a' (frame p) m (some m') = .ok o' := by
  obtain ⟨a, c', n, n', ha, hpa⟩ := at_parsed h hp
  have hi : (itemsOf p)[i]? = some o' := by
    rw [opticAt_append, hp] at ho
    simp only [Option.bind_some, opticAt] at ho
    cases hh : (itemsOf p)[i]? with
    | none => rw [hh] at ho; cases ho
    | some x => rw [hh] at ho; simpa using ho
  obtain ⟨a', m, m', ha', hg, hpo⟩ := item_parsed hpa hi
  exact ⟨a, a', m, m', ha, by simp [cfgAt_append, ha, cfgAt, ha'], hg, hpo⟩

/-! ## Frames -/

theorem branch_frame {d : OpticData F} {items : Option (List (OpticCfg F))} {k : Common F} {o : OpticObj F}
    (h : Branch b d items k o) : frame o = k.coordSys ∧ nameOf o = k.name := by
  cases h <;> exact ⟨rfl, rfl⟩

theorem parsed_frame {cfg : OpticCfg F} {c : CoordSys F} {mIn : MediumObj F} {mOut : Option (MediumObj F)} {o : OpticObj F}
    (h : parseOptic b cfg c mIn mOut = .ok o) : parseCoordSys ((cfgData cfg).coordSys.getD []) c = .ok (frame o) := by
  match cfg with
  | .mk d items =>
    obtain ⟨k, hk, br⟩ := parseOptic_ok h
    rw [(branch_frame br).1]
    have := (parseCommon_ok hk).2.2.1
    simp only [cfgData]
    cases hd : d.coordSys with
    | none => rw [hd] at this; simpa [parseCoordSys, parseFrame] using this
    | some kvs => rw [hd] at this; exact this

theorem parseCoordSys_append {kvs kvs' : List (Name × CsVal F)} : ∀ (c : CoordSys F),
    parseCoordSys (kvs ++ kvs') c = (parseCoordSys kvs c >>= parseCoordSys kvs') := by
  induction kvs with
  | nil => intro c; rfl
  | cons kv kvs ih =>
    intro c
    simp only [List.cons_append, parseCoordSys]
    cases csStep c kv with
    | error e => rfl
    | ok c' => exact ih c'

/-- C62: the frame of any optic of the tree is obtained by applying, to the frame given at the top, all the frame entries of
the dictionaries from the top down to its own, in the order in which they appear. -/
theorem C62_tree {path : List ℕ} : ∀ {cfg : OpticCfg F} {c : CoordSys F} {mIn : MediumObj F} {mOut : Option (MediumObj F)}
    {o o' : OpticObj F}, parseOptic b cfg c mIn mOut = .ok o → opticAt o path = some o' →
    parseCoordSys (framesTo cfg path) c = .ok (frame o') := by
  induction path with
  | nil =>
    intro cfg c mIn mOut o o' h hp
    cases hp
    exact parsed_frame h
  | cons i path ih =>
    intro cfg c mIn mOut o o' h hp
    simp only [opticAt, Option.bind_eq_some_iff] at hp
    obtain ⟨x, hx, hp⟩ := hp
    obtain ⟨a, m, m', ha, -, hpa⟩ := item_parsed h hx
    simp only [framesTo, ha]
    rw [parseCoordSys_append, parsed_frame h]
    exact ih hpa hp

end generic

/-- An entry with real values. -/
noncomputable def finEntry (kv : Name × CsVal ℝ) : Name × CsVal Dbl :=
  (kv.1, match kv.2 with | .num t => .num (.fin t) | .vec v => .vec v.fin)

/-- Where an entry takes the point with local coordinates `p`, in the frame the entry is applied to. -/
noncomputable def entryMap (kv : Name × CsVal ℝ) (p : V3 ℝ) : V3 ℝ :=
  match kv.2 with
  | .num t =>
    if kv.1 = "x".toList then ⟨p.x + t, p.y, p.z⟩
    else if kv.1 = "y".toList then ⟨p.x, p.y + t, p.z⟩
    else if kv.1 = "z".toList then ⟨p.x, p.y, p.z + t⟩
    else if kv.1 = "rotX".toList then
      ⟨p.x, Real.cos t * p.y - Real.sin t * p.z, Real.sin t * p.y + Real.cos t * p.z⟩
    else if kv.1 = "rotY".toList then
      ⟨Real.cos t * p.x + Real.sin t * p.z, p.y, Real.cos t * p.z - Real.sin t * p.x⟩
    else if kv.1 = "rotZ".toList then
      ⟨Real.cos t * p.x - Real.sin t * p.y, Real.sin t * p.x + Real.cos t * p.y, p.z⟩
    else p
  | .vec v => if kv.1 = "shift".toList then ⟨p.x + v.x, p.y + v.y, p.z + v.z⟩ else p

/-- A list of entries: the last one acts on the coordinates first. -/
noncomputable def motion (kvs : List (Name × CsVal ℝ)) (p : V3 ℝ) : V3 ℝ := kvs.foldr entryMap p

/-- Numbers where numbers are expected and vectors where vectors are expected. -/
def WellTyped (kv : Name × CsVal ℝ) : Prop :=
  match kv.2 with
  | .num _ => kv.1 ≠ "shift".toList
  | .vec _ => kv.1 ∉ ["x".toList, "y".toList, "z".toList, "rotX".toList, "rotY".toList, "rotZ".toList]

theorem rotX_fin (t : ℝ) : rotX (Dbl.fin t) = (RotX t).fin := by
  simp [rotX, RotX, M3.fin, M3.map]
theorem rotY_fin (t : ℝ) : rotY (Dbl.fin t) = (RotY t).fin := by
  simp [rotY, RotY, M3.fin, M3.map]
theorem rotZ_fin (t : ℝ) : rotZ (Dbl.fin t) = (RotZ t).fin := by
  simp [rotZ, RotZ, M3.fin, M3.map]

theorem rotateLocal_fin (c : CoordSys ℝ) (R : M3 ℝ) :
    c.fin.rotateLocal R.fin ⟨0, 0, 0⟩ none = (c.rotateLocal R ⟨0, 0, 0⟩ none).fin := by
  have h0 : (⟨0, 0, 0⟩ : V3 Dbl) = (⟨0, 0, 0⟩ : V3 ℝ).fin := by ext <;> simp
  rw [h0]
  simp [CoordSys.rotateLocal, CoordSys.toGlobal, CoordSys.fin]

theorem rotateLocal_point {c : CoordSys ℝ} (hc : IsRotation c.rot) (R : M3 ℝ) (p : V3 ℝ) :
    (c.rotateLocal R ⟨0, 0, 0⟩ none).toGlobal p = c.toGlobal (R.mulVec p) := by
  simp only [CoordSys.rotateLocal, CoordSys.toGlobal, Option.getD_none]
  have : (c.origin - (c.rot.mulVec ⟨0, 0, 0⟩ + c.origin)) = (⟨0, 0, 0⟩ : V3 ℝ) := by ext <;> simp [M3.mulVec]
  rw [this]
  ext <;> simp [M3.mulVec, M3.mul] <;> ring

theorem shiftLocal_fin' (c : CoordSys ℝ) (q : V3 ℝ) : c.fin.shiftLocal q.fin = (c.shiftLocal q).fin := by
  simp [CoordSys.shiftLocal, CoordSys.shiftGlobal, CoordSys.fin]

theorem csStep_fin {c : CoordSys ℝ} (hc : IsRotation c.rot) (kv : Name × CsVal ℝ) (hw : WellTyped kv) :
    ∃ r : CoordSys ℝ, csStep c.fin (finEntry kv) = .ok r.fin ∧ IsRotation r.rot ∧
      ∀ p, r.toGlobal p = c.toGlobal (entryMap kv p) := by
  have hx : ∀ t : ℝ, (⟨.fin t, 0, 0⟩ : V3 Dbl) = (⟨t, 0, 0⟩ : V3 ℝ).fin := by intro t; ext <;> simp
  have hy : ∀ t : ℝ, (⟨0, .fin t, 0⟩ : V3 Dbl) = (⟨0, t, 0⟩ : V3 ℝ).fin := by intro t; ext <;> simp
  have hz : ∀ t : ℝ, (⟨0, 0, .fin t⟩ : V3 Dbl) = (⟨0, 0, t⟩ : V3 ℝ).fin := by intro t; ext <;> simp
  have shift : ∀ q : V3 ℝ, IsRotation (c.shiftLocal q).rot ∧ ∀ p, (c.shiftLocal q).toGlobal p = c.toGlobal (p + q) := fun q =>
    ⟨hc, fun p => (C03_shiftLocal c q q p).2.2.1⟩
  obtain ⟨k, v⟩ := kv
  cases v with
  | num t =>
    rw [show finEntry (k, .num t) = (k, .num (.fin t)) from rfl]
    simp only [csStep]
    by_cases k1 : k = "x".toList
    · rw [if_pos k1, hx, shiftLocal_fin']
      refine ⟨_, rfl, (shift _).1, fun p => ?_⟩
      rw [(shift _).2]; congr 1; ext <;> simp [entryMap, *]
    rw [if_neg k1]
    by_cases k2 : k = "y".toList
    · rw [if_pos k2, hy, shiftLocal_fin']
      refine ⟨_, rfl, (shift _).1, fun p => ?_⟩
      rw [(shift _).2]; congr 1; ext <;> simp [entryMap, *]
    rw [if_neg k2]
    by_cases k3 : k = "z".toList
    · rw [if_pos k3, hz, shiftLocal_fin']
      refine ⟨_, rfl, (shift _).1, fun p => ?_⟩
      rw [(shift _).2]; congr 1; ext <;> simp [entryMap, *]
    rw [if_neg k3]
    rw [if_neg (show ¬ k = "shift".toList from hw)]
    by_cases k4 : k = "rotX".toList
    · rw [if_pos k4, rotX_fin, rotateLocal_fin]
      refine ⟨_, rfl, rotateLocal_isRotation hc (rotX_isRotation t) _ _, fun p => ?_⟩
      rw [rotateLocal_point hc]; congr 1; ext <;> simp [RotX, M3.mulVec, entryMap, *] <;> ring
    rw [if_neg k4]
    by_cases k5 : k = "rotY".toList
    · rw [if_pos k5, rotY_fin, rotateLocal_fin]
      refine ⟨_, rfl, rotateLocal_isRotation hc (rotY_isRotation t) _ _, fun p => ?_⟩
      rw [rotateLocal_point hc]; congr 1; ext <;> simp [RotY, M3.mulVec, entryMap, *] <;> ring
    rw [if_neg k5]
    by_cases k6 : k = "rotZ".toList
    · rw [if_pos k6, rotZ_fin, rotateLocal_fin]
      refine ⟨_, rfl, rotateLocal_isRotation hc (rotZ_isRotation t) _ _, fun p => ?_⟩
      rw [rotateLocal_point hc]; congr 1; ext <;> simp [RotZ, M3.mulVec, entryMap, *] <;> ring
    rw [if_neg k6]
    exact ⟨c, rfl, hc, fun p => by simp only [entryMap, if_neg k1, if_neg k2, if_neg k3, if_neg k4, if_neg k5, if_neg k6]⟩
  | vec v =>
    simp only [WellTyped, List.mem_cons, not_or, List.not_mem_nil, not_false_eq_true, and_true] at hw
    obtain ⟨k1, k2, k3, k4, k5, k6⟩ := hw
    rw [show finEntry (k, .vec v) = (k, .vec v.fin) from rfl]
    simp only [csStep]
    rw [if_neg k1, if_neg k2, if_neg k3]
    by_cases k7 : k = "shift".toList
    · rw [if_pos k7, shiftLocal_fin']
      refine ⟨_, rfl, (shift _).1, fun p => ?_⟩
      rw [(shift _).2]; congr 1; simp only [entryMap, k7, if_true]; rfl
    · rw [if_neg k7, if_neg k4, if_neg k5, if_neg k6]
      exact ⟨c, rfl, hc, fun p => by simp only [entryMap, if_neg k7]⟩

/-- C62: a frame dictionary with values of the right types is always accepted, and the point with local coordinates `p` in the
new frame is the point of the given frame to which the entries take `p`, the last entry acting first; entries with unknown
keys change nothing. -/
theorem C62_motion (kvs : List (Name × CsVal ℝ)) (hw : ∀ kv ∈ kvs, WellTyped kv) : ∀ {c : CoordSys ℝ}, IsRotation c.rot →
    ∃ r : CoordSys ℝ, parseCoordSys (kvs.map finEntry) c.fin = .ok r.fin ∧ IsRotation r.rot ∧
      ∀ p, r.toGlobal p = c.toGlobal (motion kvs p) := by
  induction kvs with
  | nil => intro c hc; exact ⟨c, rfl, hc, fun p => rfl⟩
  | cons kv kvs ih =>
    intro c hc
    obtain ⟨r, hr, hrot, hp⟩ := csStep_fin hc kv (hw kv (by simp))
    obtain ⟨r', hr', hrot', hp'⟩ := ih (fun x hx => hw x (by simp [hx])) hrot
    refine ⟨r', ?_, hrot', fun p => ?_⟩
    · simp only [List.map_cons, parseCoordSys]
      rw [hr]
      exact hr'
    · rw [hp', hp]
      rfl

/-- C62: so the frame of an optic anywhere in a tree parsed at the top level is the composition of the motions of the
dictionaries above it and its own. -/
theorem C62_nested {b : Builders Dbl} {cfg : OpticCfg Dbl} {o o' : OpticObj Dbl} {path : List ℕ} (h : parseTop b cfg = .ok o)
    (hp : opticAt o path = some o') {kvs : List (Name × CsVal ℝ)} (hk : framesTo cfg path = kvs.map finEntry)
    (hw : ∀ kv ∈ kvs, WellTyped kv) :
    ∃ r : CoordSys ℝ, frame o' = r.fin ∧ ∀ p, r.toGlobal p = motion kvs p := by
  have std : CoordSys.std Dbl = (CoordSys.std ℝ).fin := by
    simp [CoordSys.std, CoordSys.fin, M3.fin, M3.map]
  have := C62_tree h hp
  rw [hk, std] at this
  obtain ⟨r, hr, -, hm⟩ := C62_motion kvs hw (c := CoordSys.std ℝ) isRotation_one
  rw [hr] at this
  refine ⟨r, (Except.ok.inj this).symm, fun p => ?_⟩
  rw [hm]
  ext <;> simp [CoordSys.std, CoordSys.toGlobal, M3.mulVec]

/-! ## Media -/

section media
variable {F : Type} [Arith F] {b : Builders F}

theorem interface_not_simple : simpleKind (F := F) "Interface".toList = none := by
  simp [simpleKind]

/-- Except for plain interfaces, the media of an optic are those found in its dictionary. -/
theorem branch_media {d : OpticData F} {items : Option (List (OpticCfg F))} {k : Common F} {o : OpticObj F}
    (h : Branch b d items k o) (ht : k.type ≠ "Interface".toList) : inMedium o = k.inMedium ∧ outMedium o = k.outMedium := by
  cases h with
  | plain h => exact absurd h ht
  | simple => exact ⟨rfl, rfl⟩
  | screen => exact ⟨rfl, rfl⟩
  | lens => exact ⟨rfl, rfl⟩
  | compound => exact ⟨rfl, rfl⟩

theorem parsed_media {cfg : OpticCfg F} {c : CoordSys F} {mIn : MediumObj F} {mOut : Option (MediumObj F)} {o : OpticObj F}
    (h : parseOptic b cfg c mIn mOut = .ok o) (ht : (cfgData cfg).type ≠ some "Interface".toList) :
    parseIn b (cfgData cfg).inMedium mIn = .ok (inMedium o) ∧
    parseOut b (cfgData cfg).outMedium mOut (inMedium o) = .ok (outMedium o) := by
  match cfg with
  | .mk d items =>
    obtain ⟨k, hk, br⟩ := parseOptic_ok h
    obtain ⟨-, -, -, hin, hout, hty⟩ := parseCommon_ok hk
    have : k.type ≠ "Interface".toList := fun e => ht (by rw [← e]; exact hty)
    rw [(branch_media br this).1, (branch_media br this).2]
    exact ⟨hin, hout⟩

/-- Nothing is an item of a simple interface. -/
theorem lens_ne_compound : ("Lens".toList : Name) ≠ "CompoundOptic".toList := by simp

/-- C63: the medium in front of an item of a parsed tree is the one its dictionary gives.  If it gives none, it is the medium in
front of its parent, except that it is the medium inside for the second item of a lens.  Plain `Interface`s are excluded,
see `C63_interface_violated`. -/
theorem C63_in_partial {cfg : OpticCfg F} {c : CoordSys F} {mIn : MediumObj F} {mOut : Option (MediumObj F)} {o p o' : OpticObj F}
    {path : List ℕ} {i : ℕ} {a a' : OpticCfg F} (h : parseOptic b cfg c mIn mOut = .ok o) (hp : opticAt o path = some p)
    (ho : opticAt o (path ++ [i]) = some o') (ha : cfgAt cfg path = some a) (ha' : cfgAt cfg (path ++ [i]) = some a')
    (ht : (cfgData a').type ≠ some "Interface".toList) :
    match (cfgData a').inMedium with
    | some m => parseMedium b m = .ok (inMedium o')
    | none => if (cfgData a).type = some "Lens".toList ∧ i = 1
        then ∃ m, (cfgData a).medium = some m ∧ parseMedium b m = .ok (inMedium o')
        else inMedium o' = inMedium p := by
  obtain ⟨x, x', m, m', hx, hx', hg, hpo⟩ := child_parsed h hp ho
  rw [ha] at hx; cases hx
  rw [ha'] at hx'; cases hx'
  have := (parsed_media hpo ht).1
  cases hd : (cfgData a').inMedium with
  | some m => rw [hd] at this; exact this
  | none =>
    rw [hd] at this
    have e : m = inMedium o' := Except.ok.inj this
    simp only
    cases hg with
    | compound hty => rw [if_neg (by rw [hty]; simp)]; exact e.symm
    | first => rw [if_neg (by simp)]; exact e.symm
    | second hty hm hmo => rw [if_pos ⟨hty, rfl⟩]; exact ⟨_, hm, e ▸ hmo⟩

/-- C63: the medium behind an item is the one its dictionary gives; `null` stands for the medium in front of the item itself.
If the key is missing, it is the medium behind its parent, except that it is the medium inside for the first item of a lens. -/
theorem C63_out_partial {cfg : OpticCfg F} {c : CoordSys F} {mIn : MediumObj F} {mOut : Option (MediumObj F)} {o p o' : OpticObj F}
    {path : List ℕ} {i : ℕ} {a a' : OpticCfg F} (h : parseOptic b cfg c mIn mOut = .ok o) (hp : opticAt o path = some p)
    (ho : opticAt o (path ++ [i]) = some o') (ha : cfgAt cfg path = some a) (ha' : cfgAt cfg (path ++ [i]) = some a')
    (ht : (cfgData a').type ≠ some "Interface".toList) :
    match (cfgData a').outMedium with
    | some (some m) => parseMedium b m = .ok (outMedium o')
    | some none => outMedium o' = inMedium o'
    | none => if (cfgData a).type = some "Lens".toList ∧ i = 0
        then ∃ m, (cfgData a).medium = some m ∧ parseMedium b m = .ok (outMedium o')
        else outMedium o' = outMedium p := by
  obtain ⟨x, x', m, m', hx, hx', hg, hpo⟩ := child_parsed h hp ho
  rw [ha] at hx; cases hx
  rw [ha'] at hx'; cases hx'
  have := (parsed_media hpo ht).2
  match hd : (cfgData a').outMedium with
  | some (some m) => rw [hd] at this; exact this
  | some none => rw [hd] at this; exact (Except.ok.inj this).symm
  | none =>
    rw [hd] at this
    have e : m' = outMedium o' := Except.ok.inj this
    simp only
    cases hg with
    | compound hty => rw [if_neg (by rw [hty]; simp)]; exact e.symm
    | second => rw [if_neg (by simp)]; exact e.symm
    | first hty hm hmo => rw [if_pos ⟨hty, rfl⟩]; exact ⟨_, hm, e ▸ hmo⟩

/-- C63: at the top, the medium in front defaults to vacuum and the medium behind to the one in front. -/
theorem C63_top_partial {cfg : OpticCfg F} {o : OpticObj F} (h : parseTop b cfg = .ok o)
    (ht : (cfgData cfg).type ≠ some "Interface".toList) :
    (match (cfgData cfg).inMedium with
      | some m => parseMedium b m = .ok (inMedium o)
      | none => inMedium o = .const 1) ∧
    (match (cfgData cfg).outMedium with
      | some (some m) => parseMedium b m = .ok (outMedium o)
      | _ => outMedium o = inMedium o) := by
  obtain ⟨hin, hout⟩ := parsed_media h ht
  constructor
  · cases hd : (cfgData cfg).inMedium with
    | some m => rw [hd] at hin; exact hin
    | none => rw [hd] at hin; exact (Except.ok.inj hin).symm
  · match hd : (cfgData cfg).outMedium with
    | some (some m) => rw [hd] at hout; exact hout
    | some none => rw [hd] at hout; exact (Except.ok.inj hout).symm
    | none => rw [hd] at hout; exact (Except.ok.inj hout).symm

/-- C63: every lens of a parsed tree has exactly two items, and they agree on the medium between them. -/
theorem C63_lens {cfg : OpticCfg F} {c : CoordSys F} {mIn : MediumObj F} {mOut : Option (MediumObj F)} {o p : OpticObj F}
    {path : List ℕ} {a : OpticCfg F} (h : parseOptic b cfg c mIn mOut = .ok o) (hp : opticAt o path = some p)
    (ha : cfgAt cfg path = some a) (ht : (cfgData a).type = some "Lens".toList) :
    ∃ o₁ o₂, itemsOf p = [o₁, o₂] ∧ (outMedium o₁).eq (inMedium o₂) = .ok true := by
  obtain ⟨x, c', m, m', hx, hpo⟩ := at_parsed h hp
  rw [ha] at hx; cases hx
  match a, ht, hpo with
  | .mk d items, ht, hpo =>
    obtain ⟨k, hk, br⟩ := parseOptic_ok hpo
    obtain ⟨-, -, -, -, -, hty⟩ := parseCommon_ok hk
    have e : k.type = "Lens".toList := Option.some.inj (hty.symm.trans ht)
    cases br with
    | lens _ _ _ _ _ _ heq => exact ⟨_, _, rfl, heq⟩
    | simple h => rw [e] at h; simp [simpleKind] at h
    | screen h => rw [e] at h; simp at h
    | compound h => rw [e] at h; simp at h
    | plain h => rw [e] at h; simp at h

/-- C63: where the dictionaries mention no media and no lenses, the whole tree is in vacuum. -/
theorem C63_vacuum {cfg : OpticCfg F} {o : OpticObj F} (h : parseTop b cfg = .ok o)
    (hn : ∀ path a, cfgAt cfg path = some a → (cfgData a).inMedium = none ∧ (cfgData a).outMedium = none ∧
      (cfgData a).type ≠ some "Lens".toList) : ∀ (path : List ℕ) (o' : OpticObj F), opticAt o path = some o' →
    inMedium o' = .const 1 ∧ outMedium o' = .const 1 := by
  have plain : ∀ {a : OpticCfg F} {c m m'} {o' : OpticObj F}, parseOptic b a c m m' = .ok o' →
      (cfgData a).type = some "Interface".toList → inMedium o' = .const 1 ∧ outMedium o' = .const 1 := by
    intro a c m m' o' ho ht
    match a, ht, ho with
    | .mk d items, ht, ho =>
      obtain ⟨k, hk, br⟩ := parseOptic_ok ho
      obtain ⟨-, -, -, -, -, hty⟩ := parseCommon_ok hk
      have e : k.type = "Interface".toList := Option.some.inj (hty.symm.trans ht)
      cases br with
      | plain => exact ⟨rfl, rfl⟩
      | lens h => rw [e] at h; simp at h
      | simple h => rw [e] at h; simp [simpleKind] at h
      | screen h => rw [e] at h; simp at h
      | compound h => rw [e] at h; simp at h
  intro path
  induction path using List.reverseRecOn with
  | nil =>
    intro o' ho
    cases ho
    by_cases ht : (cfgData cfg).type = some "Interface".toList
    · exact plain h ht
    · obtain ⟨h1, h2, -⟩ := hn [] cfg rfl
      obtain ⟨hin, hout⟩ := C63_top_partial h ht
      rw [h1] at hin; rw [h2] at hout
      simp only at hin hout
      exact ⟨hin, hout.trans hin⟩
  | append_singleton path i ih =>
    intro o' ho
    obtain ⟨p, hp⟩ : ∃ p, opticAt o path = some p := by
      rw [opticAt_append] at ho
      cases hh : opticAt o path with
      | none => rw [hh] at ho; cases ho
      | some p => exact ⟨p, rfl⟩
    obtain ⟨a, a', m, m', ha, ha', -, hpo⟩ := child_parsed h hp ho
    by_cases ht : (cfgData a').type = some "Interface".toList
    · exact plain hpo ht
    · obtain ⟨h1, h2, -⟩ := hn _ _ ha'
      obtain ⟨-, -, h3⟩ := hn _ _ ha
      have hin := C63_in_partial h hp ho ha ha' ht
      have hout := C63_out_partial h hp ho ha ha' ht
      rw [h1] at hin; rw [h2] at hout
      simp only [h3, false_and, if_false] at hin hout
      rw [hin, hout]
      exact ih p hp

end media

/-! ## The tree as a whole (C83) -/

section shape
variable {F : Type} [Arith F] {b : Builders F}

/-- C83: a parsed compound has one item per entry of `items`, in the same order. -/
theorem C83_items {cfg : OpticCfg F} {c : CoordSys F} {mIn : MediumObj F} {mOut : Option (MediumObj F)} {o p : OpticObj F}
    {path : List ℕ} {a : OpticCfg F} (h : parseOptic b cfg c mIn mOut = .ok o) (hp : opticAt o path = some p)
    (ha : cfgAt cfg path = some a) (ht : (cfgData a).type = some "CompoundOptic".toList) :
    (itemsOf p).length = (cfgItems a).length := by
  obtain ⟨x, c', m, m', hx, hpo⟩ := at_parsed h hp
  rw [ha] at hx; cases hx
  match a, ht, hpo with
  | .mk d items, ht, hpo =>
    obtain ⟨k, hk, br⟩ := parseOptic_ok hpo
    obtain ⟨-, -, -, -, -, hty⟩ := parseCommon_ok hk
    have e : k.type = "CompoundOptic".toList := Option.some.inj (hty.symm.trans ht)
    cases br with
    | compound _ hi hall => simp [itemsOf, cfgItems, hi, hall.length_eq]
    | lens h => rw [e] at h; simp at h
    | simple h => rw [e] at h; simp [simpleKind] at h
    | screen h => rw [e] at h; simp at h
    | plain h => rw [e] at h; simp at h

/-- C83: every optic has the name given in its dictionary, the empty one by default. -/
theorem C83_names {cfg : OpticCfg F} {c : CoordSys F} {mIn : MediumObj F} {mOut : Option (MediumObj F)} {o o' : OpticObj F}
    {path : List ℕ} {a : OpticCfg F} (h : parseOptic b cfg c mIn mOut = .ok o) (ho : opticAt o path = some o')
    (ha : cfgAt cfg path = some a) : nameOf o' = (cfgData a).name.getD [] := by
  obtain ⟨x, c', m, m', hx, hpo⟩ := at_parsed h ho
  rw [ha] at hx; cases hx
  match a, hpo with
  | .mk d items, hpo =>
    obtain ⟨k, hk, br⟩ := parseOptic_ok hpo
    rw [(branch_frame br).2]
    exact (parseCommon_ok hk).2.1.symm

/-- The class an interface dictionary asks for, with the screen of an `OPDScreen`. -/
inductive AsksFor (b : Builders F) (d : OpticData F) : KindObj F → Prop
  | mirror : d.type = some "Mirror".toList → AsksFor b d .mirror
  | refractive : d.type = some "RefractiveInterface".toList → AsksFor b d .refractive
  | baffle : d.type = some "Baffle".toList → AsksFor b d .baffle
  | detector : d.type = some "Detector".toList → AsksFor b d .detector
  | plain : d.type = some "Interface".toList → AsksFor b d .plain
  | screen {c s} : d.type = some "OPDScreen".toList → d.screen = some c → parseSurface b c = .ok s → AsksFor b d (.screen s)

theorem parseSurfKey_ok {x : Option (SurfCfg F)} {s : SurfaceObj F} (h : parseSurfKey b x = .ok s) :
    ∃ c, x = some c ∧ parseSurface b c = .ok s := by
  obtain ⟨c, hc, h⟩ := bind_ok h
  exact ⟨c, popKey_ok hc, h⟩

/-- C83: every interface of the tree has the class and the surface its dictionary asks for and is not skipped; unless it is a
plain `Interface`, it has the obscuration given by the dictionary as well. -/
theorem C83_interfaces {cfg : OpticCfg F} {c : CoordSys F} {mIn : MediumObj F} {mOut : Option (MediumObj F)} {o : OpticObj F}
    {path : List ℕ} {a : OpticCfg F} {d : IfaceObj F} (h : parseOptic b cfg c mIn mOut = .ok o)
    (ho : opticAt o path = some (.iface d)) (ha : cfgAt cfg path = some a) :
    AsksFor b (cfgData a) d.kind ∧ (∃ s, (cfgData a).surface = some s ∧ parseSurface b s = .ok d.surface) ∧ d.skip = false ∧
    (d.kind ≠ .plain → match (cfgData a).obscuration with
      | none => d.obscuration = none
      | some x => ∃ y, parseObsc b x = .ok y ∧ d.obscuration = some y) := by
  obtain ⟨x, c', m, m', hx, hpo⟩ := at_parsed h ho
  rw [ha] at hx; cases hx
  match a, hpo with
  | .mk q items, hpo =>
    obtain ⟨k, hk, br⟩ := parseOptic_ok hpo
    obtain ⟨hob, -, -, -, -, hty⟩ := parseCommon_ok hk
    have hob' : match q.obscuration with
        | none => k.obscuration = none
        | some x => ∃ y, parseObsc b x = .ok y ∧ k.obscuration = some y := by
      cases hq : q.obscuration with
      | none => rw [hq] at hob; exact (Except.ok.inj hob).symm
      | some x =>
        rw [hq] at hob
        obtain ⟨y, hy, h⟩ := bind_ok hob
        exact ⟨y, hy, (Except.ok.inj h).symm⟩
    simp only [cfgData]
    cases br with
    | @simple kind s hs hsurf =>
      refine ⟨?_, parseSurfKey_ok hsurf, rfl, fun _ => hob'⟩
      unfold simpleKind at hs
      split at hs
      · rename_i e; cases hs; exact .mirror (e ▸ hty)
      · split at hs
        · rename_i e; cases hs; exact .refractive (e ▸ hty)
        · split at hs
          · rename_i e; cases hs; exact .baffle (e ▸ hty)
          · split at hs
            · rename_i e; cases hs; exact .detector (e ▸ hty)
            · cases hs
    | screen e hs hscr _ =>
      obtain ⟨cc, h1, h2⟩ := parseSurfKey_ok hscr
      exact ⟨.screen (e ▸ hty) h1 h2, parseSurfKey_ok hs, rfl, fun _ => hob'⟩
    | plain e hs => exact ⟨.plain (e ▸ hty), parseSurfKey_ok hs, rfl, fun hne => absurd rfl hne⟩

/-- **C83** (coatings): an interface of a configuration has the coatings of its class: mirrors reflect everything, refractive
interfaces and baffles transmit everything, detectors transmit everything forwards. -/
theorem C83_coatings {cfg : OpticCfg F} {c : CoordSys F} {mIn : MediumObj F} {mOut : Option (MediumObj F)} {o : OpticObj F}
    {path : List ℕ} {a : OpticCfg F} {d : IfaceObj F} (h : parseOptic b cfg c mIn mOut = .ok o)
    (ho : opticAt o path = some (.iface d)) (ha : cfgAt cfg path = some a) :
    ((cfgData a).type = some "Mirror".toList → d.forwardCoating = some ⟨1, 0⟩ ∧ d.reverseCoating = some ⟨1, 0⟩) ∧
    ((cfgData a).type = some "RefractiveInterface".toList → d.forwardCoating = some ⟨0, 1⟩ ∧ d.reverseCoating = some ⟨0, 1⟩) ∧
    ((cfgData a).type = some "Baffle".toList → d.forwardCoating = some ⟨0, 1⟩ ∧ d.reverseCoating = some ⟨0, 1⟩) ∧
    ((cfgData a).type = some "Detector".toList → d.forwardCoating = some ⟨0, 1⟩ ∧ d.reverseCoating = none) := by
  obtain ⟨hk, -⟩ := C83_interfaces h ho ha
  have hc : d.forwardCoating = forwardOf d.kind ∧ d.reverseCoating = reverseOf d.kind := by
    obtain ⟨x, c', m, m', hx, hpo⟩ := at_parsed h ho
    rw [ha] at hx; cases hx
    match a, hpo with
    | .mk q items, hpo =>
      obtain ⟨k, hk, br⟩ := parseOptic_ok hpo
      cases br <;> exact ⟨rfl, rfl⟩
  rw [hc.1, hc.2]
  generalize d.kind = kind at hk
  cases hk <;> rename_i e <;> (try rename_i e') <;> simp [*, forwardOf, reverseOf]

end shape

/-! ## Clear apertures (C84) -/

/-- `Clear` occurs nowhere in a name. -/
def NoClear (s : Name) : Prop := ∀ t, t <:+ s → ¬ "Clear".toList <+: t

theorem replaceAll_none {old new : List Char} : ∀ (n : ℕ) (s : List Char), (∀ t, t <:+ s → ¬ old <+: t) →
    replaceAll old new n s = s
  | 0, _, _ => rfl
  | _ + 1, [], _ => rfl
  | n + 1, c :: s, h => by
    have h0 : ¬ old.isPrefixOf (c :: s) = true := fun e => h _ List.suffix_rfl (List.isPrefixOf_iff_prefix.1 e)
    rw [replaceAll, if_neg h0, replaceAll_none n s (fun t ht => h t (ht.trans (List.suffix_cons c s)))]

theorem clearToObsc_eq {s : Name} (h : NoClear s) : clearToObsc ("Clear".toList ++ s) = "Obsc".toList ++ s := by
  have hl : ("Clear".toList ++ s).length = (s.length + 4) + 1 := by simp
  rw [clearToObsc, hl]
  have : "Clear".toList ++ s = 'C' :: ("lear".toList ++ s) := rfl
  rw [this, replaceAll, if_pos (by rw [← this]; exact List.isPrefixOf_iff_prefix.2 (List.prefix_append _ _))]
  congr 1
  exact replaceAll_none _ _ h

theorem parseObsc_some {F : Type} (b : Builders F) (typ : Name) (params : List (Name × Param F))
    (original : Option (ObscCfg F)) (items : Option (List (ObscCfg F))) :
    parseObsc b (.mk (some typ) params original items) =
      if "Clear".toList.isPrefixOf typ then
        (typedObsc b (clearToObsc typ) params (original.isSome || items.isSome) (parseOriginal b original) (parseItems b items)
          >>= fun o => pure (.negation o))
      else typedObsc b typ params (original.isSome || items.isSome) (parseOriginal b original) (parseItems b items) := by
  rw [parseObsc]
  rfl

/-- C84: a dictionary of type `ClearX` gives an obscuration exactly when the same dictionary with type `ObscX` does, and it
blocks exactly the points that one does not block. -/
theorem C84_clear {F : Type} [Arith F] (b : Builders F) {s : Name} (hs : NoClear s) (params : List (Name × Param F))
    (original : Option (ObscCfg F)) (items : Option (List (ObscCfg F))) :
    match parseObsc b (.mk (some ("Obsc".toList ++ s)) params original items) with
    | .error e => parseObsc b (.mk (some ("Clear".toList ++ s)) params original items) = .error e
    | .ok o => ∃ o', parseObsc b (.mk (some ("Clear".toList ++ s)) params original items) = .ok o' ∧
        ∀ x y, o'.contains x y = !o.contains x y := by
  have h1 : ¬ "Clear".toList.isPrefixOf ("Obsc".toList ++ s) = true := by
    rw [List.isPrefixOf_iff_prefix]
    intro h
    have := h.head (by simp)
    simp at this
  have h2 : "Clear".toList.isPrefixOf ("Clear".toList ++ s) = true :=
    List.isPrefixOf_iff_prefix.2 (List.prefix_append _ _)
  have e1 : parseObsc b (.mk (some ("Obsc".toList ++ s)) params original items) =
      typedObsc b ("Obsc".toList ++ s) params (original.isSome || items.isSome) (parseOriginal b original) (parseItems b items) := by
    rw [parseObsc_some, if_neg h1]
  have e2 : parseObsc b (.mk (some ("Clear".toList ++ s)) params original items) =
      (typedObsc b ("Obsc".toList ++ s) params (original.isSome || items.isSome) (parseOriginal b original) (parseItems b items)
        >>= fun o => pure (.negation o)) := by
    rw [parseObsc_some, if_pos h2, clearToObsc_eq hs]
  rw [e1, e2]
  cases typedObsc b ("Obsc".toList ++ s) params (original.isSome || items.isSome) (parseOriginal b original) (parseItems b items) with
  | error e => rfl
  | ok o => exact ⟨_, rfl, fun x y => by rw [Obsc.contains]⟩

/-- C84: a name that is neither one of the seven classes nor starts with `Clear` is refused. -/
theorem C84_unknown {F : Type} [Arith F] (b : Builders F) {typ : Name} (h0 : ¬ "Clear".toList <+: typ)
    (h : typ ∉ ["ObscCircle".toList, "ObscAnnulus".toList, "ObscRay".toList, "ObscRectangle".toList, "ObscPolygon".toList,
      "ObscNegation".toList, "ObscUnion".toList, "ObscIntersection".toList]) (params : List (Name × Param F))
    (original : Option (ObscCfg F)) (items : Option (List (ObscCfg F))) :
    parseObsc b (.mk (some typ) params original items) = .error .valueError := by
  have h1 : ¬ "Clear".toList.isPrefixOf typ = true := fun e => h0 (List.isPrefixOf_iff_prefix.1 e)
  rw [parseObsc_some, if_neg h1]
  simp only [List.mem_cons, not_or, List.not_mem_nil, not_false_eq_true, and_true] at h
  obtain ⟨a1, a2, a3, a4, a5, a6, a7, a8⟩ := h
  have a0 : typ ∉ basicObsc := by
    simp only [basicObsc, List.mem_cons, List.not_mem_nil, or_false, not_or]
    exact ⟨a1, a2, a3, a4, a5⟩
  rw [typedObsc, if_neg a0, if_neg a6, if_neg a7, if_neg a8]

/-! ## Cases -/

/-- Constructors for the examples. -/
noncomputable def demoBuild : Builders Dbl where
  surface _ _ := .ok .plane
  medium _ _ := .ok (.const 2)
  obsc _ _ := .ok (.circle 1 0 0)
  repr _ := []

def demoData (type : String) : OpticData Dbl :=
  ⟨some type.toList, none, none, none, none, none, none, some (.mk (some "Plane".toList) [] none), none⟩

/-- A lens of index 3/2 turned about the x axis, at height 1, with a second surface half a unit further. -/
noncomputable def demoLens : OpticCfg Dbl :=
  .mk { demoData "CompoundOptic" with coordSys := some [("z".toList, .num (.fin 1))] } (some [
    .mk { demoData "Lens" with coordSys := some [("rotX".toList, .num (.fin 2))], medium := some (.num (.fin (3/2))) } (some [
      .mk (demoData "RefractiveInterface") none,
      .mk { demoData "RefractiveInterface" with coordSys := some [("z".toList, .num (.fin (1/2)))] } none])])

theorem demoLens_parses : ∃ o o', parseTop demoBuild demoLens = .ok o ∧ opticAt o [0, 1] = some o' := by
  simp [parseTop, demoLens, parseOptic, parseOptics, parseOpticList, parseTwo, demoData, parseCommon, parseObscKey, parseFrame,
      parseCoordSys, csStep, parseIn, parseOut, popKey, simpleKind, parseMedium, parseSurfKey, parseSurface, demoBuild, newIface,
      newLens, assertEq, MediumObj.eq, numEq, inMedium, outMedium, bind, Except.bind, pure, Except.pure, opticAt, itemsOf]


/-- The frame dictionaries above the second surface of the lens, with real values. -/
noncomputable def demoEntries : List (Name × CsVal ℝ) :=
  [("z".toList, .num 1), ("rotX".toList, .num 2), ("z".toList, .num (1/2))]

example : ∃ (o o' : OpticObj Dbl), parseTop demoBuild demoLens = .ok o ∧ opticAt o [0, 1] = some o' ∧
    framesTo demoLens [0, 1] = demoEntries.map finEntry ∧ (∀ kv ∈ demoEntries, WellTyped kv) ∧
    motion demoEntries ⟨0, 0, 0⟩ ≠ ⟨0, 0, 0⟩ := by
  obtain ⟨o, o', h, h'⟩ := demoLens_parses
  refine ⟨o, o', h, h', rfl, ?_, ?_⟩
  · simp [demoEntries, WellTyped]
  · intro hp
    have := congrArg V3.z hp
    simp [demoEntries, motion, List.foldr, entryMap] at this
    nlinarith [Real.neg_one_le_cos 2, this]

/-- A plain interface whose dictionary gives a medium in front and an obscuration. -/
noncomputable def demoPlain : OpticCfg Dbl :=
  .mk ⟨some "Interface".toList, none, some (.mk (some "ObscCircle".toList) [] none none), none, some (.num (.fin 2)), none, none,
    some (.mk (some "Plane".toList) [] none), none⟩ none

theorem demoPlain_parses : parseTop demoBuild demoPlain =
    .ok (newIface .plain [] .plane none (CoordSys.std Dbl) (.const 1) (.const 1)) := by
  simp [parseTop, demoPlain, parseOptic, demoData, parseCommon, parseObscKey, parseObsc, typedObsc, basicObsc, parseFrame, parseIn,
    parseOut, popKey, simpleKind, parseMedium, parseSurfKey, parseSurface, demoBuild, newIface, bind, Except.bind, pure,
    Except.pure]

/-- C63: a plain `Interface` does not get the media its dictionary gives. -/
theorem C63_interface_violated : ∃ (b : Builders Dbl) (cfg : OpticCfg Dbl) (o : OpticObj Dbl) (m : MediumCfg Dbl) (mo : MediumObj Dbl),
    parseTop b cfg = .ok o ∧ (cfgData cfg).inMedium = some m ∧ parseMedium b m = .ok mo ∧ inMedium o ≠ mo := by
  refine ⟨demoBuild, demoPlain, _, .num (.fin 2), .const (.fin 2), demoPlain_parses, rfl, rfl, ?_⟩
  simp [inMedium, newIface]

/-- C83: a plain `Interface` does not get the obscuration its dictionary gives. -/
theorem C83_obscuration_violated : ∃ (b : Builders Dbl) (cfg : OpticCfg Dbl) (d : IfaceObj Dbl) (x : ObscCfg Dbl) (y : Obsc Dbl),
    parseTop b cfg = .ok (.iface d) ∧ (cfgData cfg).obscuration = some x ∧ parseObsc b x = .ok y ∧ d.obscuration = none := by
  refine ⟨demoBuild, demoPlain, _, .mk (some "ObscCircle".toList) [] none none, .circle 1 0 0, demoPlain_parses, rfl, ?_, rfl⟩
  simp [parseObsc, popKey, typedObsc, basicObsc, demoBuild, bind, Except.bind]

/-- C83: a lens silently drops all items after the second. -/
theorem C83_lens_violated : ∃ (b : Builders Dbl) (cfg : OpticCfg Dbl) (o : OpticObj Dbl), parseTop b cfg = .ok o ∧
    (itemsOf o).length < (cfgItems cfg).length := by
  refine ⟨demoBuild, .mk { demoData "Lens" with medium := some (.num (.fin (3/2))) } (some [
      .mk (demoData "RefractiveInterface") none, .mk (demoData "RefractiveInterface") none,
      .mk (demoData "RefractiveInterface") none]), ?_⟩
  simp [parseTop, parseOptic, parseTwo, demoData, parseCommon, parseObscKey, parseFrame, parseIn, parseOut, popKey, simpleKind,
    parseMedium, parseSurfKey, parseSurface, demoBuild, newIface, newLens, assertEq, MediumObj.eq, numEq, inMedium, outMedium,
    bind, Except.bind, pure, Except.pure, itemsOf, cfgItems]

example : ∃ (o p o' : OpticObj Dbl) (a a' : OpticCfg Dbl), parseTop demoBuild demoLens = .ok o ∧ opticAt o [0] = some p ∧
    opticAt o ([0] ++ [1]) = some o' ∧ cfgAt demoLens [0] = some a ∧ cfgAt demoLens ([0] ++ [1]) = some a' ∧
    (cfgData a').type ≠ some "Interface".toList ∧ (cfgData a).type = some "Lens".toList ∧
    inMedium o' = .const (.fin (3/2)) ∧ outMedium o' = .const (.fin 1) := by
  simp [parseTop, demoLens, parseOptic, parseOptics, parseOpticList, parseTwo, demoData, parseCommon, parseObscKey, parseFrame,
    parseCoordSys, csStep, parseIn, parseOut, popKey, simpleKind, parseMedium, parseSurfKey, parseSurface, demoBuild, newIface,
    newLens, assertEq, MediumObj.eq, numEq, inMedium, outMedium, bind, Except.bind, pure, Except.pure, opticAt, itemsOf,
    cfgAt, cfgItems, cfgData]

example : NoClear "Annulus".toList := by
  intro t ht h
  have h1 := h.length_le
  have := h.sublist.trans ht.sublist
  have h3 := this.subset (show 'C' ∈ "Clear".toList by simp)
  simp at h3

end Batoid.Props
