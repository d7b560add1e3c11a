import Verif.Props.Names
import Mathlib.Tactic.IntervalCases

/-!
# Property C57: explicit paths

Specification vocabulary: a walk over the interfaces of a telescope, given by positions that start at the first interface
and change by one at every step; `ghost` says what must happen along it.
-/

namespace Batoid.Props
open Batoid

section spec
variable {F : Type} [Arith F]

/-- The interface acting as a mirror: same surface, frame and obscuration. -/
def asMirror (d : Iface F) : Iface F := { d with kind := .mirror }

/-- What rays undergo along the positions `ks` when they arrive at the first of them travelling backwards (`back`) or
forwards: where the next position lies on in the same direction (and at the end) they pass through the interface, where it
lies on the other side they are reflected. -/
def ghost (niter : ℕ) (f : ℕ → Iface F) : Bool → List ℕ → RayVec F → RayVec F
  | _, [], rv => rv
  | back, [k], rv => (f k).trace niter back rv
  | back, k :: k' :: ks, rv =>
    ghost niter f (decide (k' < k)) (k' :: ks)
      (if back = decide (k' < k) then (f k).trace niter back rv else (asMirror (f k)).trace niter back rv)

/-- The positions after `k` change by one at every step. -/
def Walk : ℕ → List ℕ → Prop
  | _, [] => True
  | k, k' :: ks => (k' = k + 1 ∨ k = k' + 1) ∧ Walk k' ks

end spec

/-! ## The order of first appearance -/

section order
variable {nm : ℕ → Name} {n : ℕ}

/-- The dictionary of the first `m + 1` names. -/
def firstNames (nm : ℕ → Name) (m : ℕ) : Dict Name ℕ := (List.range (m + 1)).map (fun k => (nm k, k))

theorem firstNames_keys (hinj : ∀ i j, i < n → j < n → nm i = nm j → i = j) {m : ℕ} (hm : m < n) :
    ((firstNames nm m).map Prod.fst).Nodup := by
  unfold firstNames
  rw [List.map_map, List.nodup_map_iff_inj_on List.nodup_range]
  intro i hi j hj e
  rw [List.mem_range] at hi hj
  exact hinj i j (by omega) (by omega) e

theorem firstNames_get (hinj : ∀ i j, i < n → j < n → nm i = nm j → i = j) {m k : ℕ} (hm : m < n) (hk : k ≤ m) :
    (firstNames nm m).get? (nm k) = some k := by
  refine get?_of_mem (firstNames_keys hinj hm) ?_
  unfold firstNames
  rw [List.mem_map]
  exact ⟨k, by rw [List.mem_range]; omega, rfl⟩

theorem firstNames_fresh (hinj : ∀ i j, i < n → j < n → nm i = nm j → i = j) {m : ℕ} (hm : m + 1 < n) :
    nm (m + 1) ∉ (firstNames nm m).map Prod.fst := by
  unfold firstNames
  rw [List.map_map, List.mem_map]
  rintro ⟨j, hj, e⟩
  rw [List.mem_range] at hj
  have := hinj j (m + 1) (by omega) hm e
  omega

theorem nominal_fold (hinj : ∀ i j, i < n → j < n → nm i = nm j → i = j) : ∀ (ks : List ℕ) (k0 m : ℕ), k0 ≤ m → m < n →
    Walk k0 ks → (∀ k ∈ ks, k < n) →
    ∃ m', m ≤ m' ∧ m' < n ∧ (∀ k ∈ ks, k ≤ m') ∧
      (ks.map nm).foldl (fun d x => if Dict.has d x then d else Dict.set d x d.length) (firstNames nm m) = firstNames nm m'
  | [], k0, m, _, hm, _, _ => ⟨m, le_refl _, hm, by simp, rfl⟩
  | k :: ks, k0, m, h0, hm, hw, hn => by
    have hk : k < n := hn k (by simp)
    have hle : k ≤ m + 1 := by rcases hw.1 with h | h <;> omega
    rw [List.map_cons, List.foldl_cons]
    by_cases hkm : k ≤ m
    · have hhas : Dict.has (firstNames nm m) (nm k) = true := by
        rw [Dict.has, firstNames_get hinj hm hkm]; rfl
      rw [if_pos hhas]
      obtain ⟨m', h1, h2, h3, h4⟩ := nominal_fold hinj ks k m hkm hm hw.2 (fun j hj => hn j (by simp [hj]))
      refine ⟨m', h1, h2, ?_, h4⟩
      intro j hj
      rcases List.mem_cons.1 hj with rfl | hj
      · omega
      · exact h3 j hj
    · have hk1 : k = m + 1 := by omega
      subst hk1
      have hfresh := firstNames_fresh hinj hk
      have hhas : ¬ Dict.has (firstNames nm m) (nm (m + 1)) = true := fun h => hfresh (has_iff.1 h)
      rw [if_neg hhas, set_fresh _ _ _ hfresh]
      have e : firstNames nm m ++ [(nm (m + 1), (firstNames nm m).length)] = firstNames nm (m + 1) := by
        simp [firstNames, List.range_succ]
      rw [e]
      obtain ⟨m', h1, h2, h3, h4⟩ := nominal_fold hinj ks (m + 1) (m + 1) (le_refl _) hk hw.2 (fun j hj => hn j (by simp [hj]))
      refine ⟨m', by omega, h2, ?_, h4⟩
      intro j hj
      rcases List.mem_cons.1 hj with rfl | hj
      · omega
      · exact h3 j hj

theorem orderOf_walk (hinj : ∀ i j, i < n → j < n → nm i = nm j → i = j) (ks : List ℕ) (hw : Walk 0 ks)
    (hn : ∀ k ∈ 0 :: ks, k < n) : ∀ k ∈ 0 :: ks, Optic.orderOf ((0 :: ks).map nm) (nm k) = k := by
  intro k hk
  have h0 : 0 < n := hn 0 (by simp)
  obtain ⟨m', h1, h2, h3, h4⟩ := nominal_fold hinj ks 0 0 (le_refl _) h0 hw (fun j hj => hn j (by simp [hj]))
  have hnom : Optic.nominalOrder ((0 :: ks).map nm) = firstNames nm m' := by
    unfold Optic.nominalOrder
    rw [List.map_cons, List.foldl_cons, ← h4]
    rfl
  rw [Optic.orderOf, hnom, firstNames_get hinj h2]
  · rfl
  · rcases List.mem_cons.1 hk with rfl | hk
    · omega
    · exact h3 k hk

end order

/-! ## C57 -/

section c57
variable {F : Type} [Arith F]

theorem pathStep_eq (niter : ℕ) (d : Iface F) (back back' : Bool) (rv : RayVec F) :
    Optic.pathStep niter (.iface d) back back' rv =
      .ok (if back = back' then d.trace niter back rv else (asMirror d).trace niter back rv) := by
  unfold Optic.pathStep
  split
  · rfl
  · rfl

theorem pathLoop_walk (niter : ℕ) (o : Optic F) (f : ℕ → Iface F) (nm : ℕ → Name) (path : List Name) :
    ∀ (ks : List ℕ) (k : ℕ) (back : Bool) (rv : RayVec F), (∀ j ∈ k :: ks, Optic.orderOf path (nm j) = j) →
      (∀ j ∈ k :: ks, o.getItem (nm j) = .ok (.iface (f j))) → Walk k ks → (ks = [] → k = 0 → back = true) →
      Optic.pathLoop niter o path ((k :: ks).map nm) back rv = .ok (ghost niter f back (k :: ks) rv)
  | [], k, back, rv, ho, hg, _, hb => by
    have h1 := ho k (by simp)
    have h2 := hg k (by simp)
    have hnb : Optic.nextBack path (nm k) [] back = back := by
      simp only [Optic.nextBack, h1]
      split
      · rename_i h; rw [hb rfl h]
      · rfl
    simp only [List.map_cons, List.map_nil, Optic.pathLoop, h2, hnb, ghost]
    show (Optic.pathStep niter (.iface (f k)) back back rv).bind _ = _
    rw [pathStep_eq]; simp [Except.bind]
  | k' :: ks, k, back, rv, ho, hg, hw, _ => by
    have h1 := ho k (by simp)
    have h1' := ho k' (by simp)
    have h2 := hg k (by simp)
    have hnb : Optic.nextBack path (nm k) ((k' :: ks).map nm) back = decide (k' < k) := by
      simp only [List.map_cons, Optic.nextBack, h1, h1']
    rw [List.map_cons, Optic.pathLoop, h2, ghost]
    simp only [hnb]
    show (Optic.pathStep niter (.iface (f k)) back (decide (k' < k)) rv).bind _ = _
    rw [pathStep_eq]
    simp only [Except.bind]
    refine pathLoop_walk niter o f nm path ks k' _ _ (fun j hj => ho j (by simp [hj])) (fun j hj => hg j (by simp [hj])) hw.2 ?_
    intro _ hk
    rcases hw.1 with h | h
    · omega
    · simp; omega

/-- C57: for every walk of at least two steps over the interfaces of a telescope (any ghost path), tracing along the list of
their names makes the rays pass through or turn round exactly as the walk says, and always in the listed order. -/
theorem C57_path_follows_walk_partial (niter : ℕ) (o : Optic F) (n : ℕ) (f : ℕ → Iface F)
    (hinj : ∀ i j, i < n → j < n → (f i).name = (f j).name → i = j)
    (hget : ∀ i, i < n → o.getItem (f i).name = .ok (.iface (f i)))
    (ks : List ℕ) (hks : ks ≠ []) (hw : Walk 0 ks) (hn : ∀ k ∈ 0 :: ks, k < n) (rv : RayVec F) :
    o.tracePath niter ((0 :: ks).map (fun k => (f k).name)) rv = .ok (ghost niter f false (0 :: ks) rv) := by
  unfold Optic.tracePath
  exact pathLoop_walk niter o f (fun k => (f k).name) _ ks 0 false rv
    (orderOf_walk (nm := fun k => (f k).name) hinj ks hw hn) (fun j hj => hget j (hn j hj)) hw (fun h => absurd h hks)

theorem walk_range' : ∀ (len k : ℕ), Walk k (List.range' (k + 1) len)
  | 0, k => by simp [Walk]
  | len + 1, k => by
    rw [List.range'_succ]
    exact ⟨.inl rfl, walk_range' len (k + 1)⟩

theorem ghost_range' (niter : ℕ) (f : ℕ → Iface F) : ∀ (len k : ℕ) (rv : RayVec F),
    ghost niter f false (k :: List.range' (k + 1) len) rv
      = (k :: List.range' (k + 1) len).foldl (fun rv j => (f j).trace niter false rv) rv
  | 0, k, rv => by simp [ghost]
  | len + 1, k, rv => by
    rw [List.range'_succ, ghost]
    have h : decide (k + 1 < k) = false := by simp
    rw [h, if_pos rfl, ghost_range' niter f len (k + 1)]
    simp only [List.foldl_cons]

/-- C57: the nominal path, the names of all visible interfaces in order, gives the plain trace.  Missing from the full
statement: telescopes of a single interface, for which it is false (`C57_single_interface_violated`). -/
theorem C57_nominal_path_partial (niter : ℕ) (o : Optic F) (hlen : 2 ≤ (visits o).length)
    (hnd : ((visits o).map (·.name)).Nodup) (hget : ∀ d ∈ visits o, o.getItem d.name = .ok (.iface d)) (rv : RayVec F) :
    o.tracePath niter ((visits o).map (·.name)) rv = .ok (o.trace niter false rv) := by
  rw [trace_visits]
  generalize visits o = L at hlen hnd hget
  have h0 : 0 < L.length := by omega
  let f : ℕ → Iface F := fun k => if h : k < L.length then L[k] else L[0]
  have hf : ∀ k (h : k < L.length), f k = L[k] := fun k h => by simp [f, h]
  have hL : L = (List.range L.length).map f := by
    apply List.ext_getElem (by simp)
    intro i h1 h2
    simp [hf i h1]
  have hr : List.range L.length = 0 :: List.range' 1 (L.length - 1) := by
    rw [List.range_eq_range']
    obtain ⟨m, hm⟩ : ∃ m, L.length = m + 1 := ⟨L.length - 1, by omega⟩
    rw [hm, List.range'_succ]; rfl
  have hmap : L.map (·.name) = (0 :: List.range' 1 (L.length - 1)).map (fun k => (f k).name) := by
    conv_lhs => rw [hL]
    rw [List.map_map, hr]; rfl
  rw [hmap, C57_path_follows_walk_partial niter o L.length f]
  · have := ghost_range' niter f (L.length - 1) 0 rv
    rw [Nat.zero_add] at this
    rw [this, ← hr]
    conv_rhs => rw [hL]
    rw [List.foldl_map]
  · intro i j hi hj e
    rw [hf i hi, hf j hj] at e
    have := (List.nodup_iff_injective_get.1 hnd) (a₁ := ⟨i, by simpa using hi⟩) (a₂ := ⟨j, by simpa using hj⟩) (by simpa using e)
    simpa using this
  · intro i hi
    rw [hf i hi]
    exact hget _ (List.getElem_mem hi)
  · intro e
    have := congrArg List.length e
    simp at this; omega
  · exact walk_range' (L.length - 1) 0
  · intro k hk
    rw [← hr, List.mem_range] at hk
    exact hk

/-- C57: at a turn-around the interface, whatever its kind, acts as a mirror on every ray that meets it. -/
theorem C57_turn_reflects (d : Iface Dbl) (niter : ℕ) (back : Bool) (rv : RayVec Dbl) (i : ℕ) (ray : Ray Dbl)
    (hi : rv.rays[i]? = some ray) {r v n : V3 ℝ} {dt : ℝ}
    (h : Hit d.surface (CoordTransform.make rv.coordSys d.coordSys) niter ray r v n dt)
    (hv : v ≠ ⟨0, 0, 0⟩) (hn : IsUnit' n) {n2 : ℝ} (h2 : 0 < n2)
    (hm : (if back then d.inMedium else d.outMedium).getN ray.wavelength = Dbl.fin n2) :
    ∃ out rv', Optic.pathStep niter (.iface d) back (!back) rv = .ok rv' ∧ rv'.rays[i]? = some out ∧
      out.r = (r + v.smulR dt).fin ∧ ∃ u : V3 ℝ, out.v = u.fin ∧ speed u = speed v ∧ tangential u n = tangential v n ∧
        V3.dot u n = -V3.dot v n := by
  obtain ⟨out, h1, h3, -, -, -, h4, -⟩ := C18_physics (asMirror d) niter back rv i ray hi h hv hn
    (by intro s hs; cases hs) h2 hm
  exact ⟨out, _, by rw [pathStep_eq], by simpa using h1, h3, h4 rfl⟩

/-! ### `traceFull` along a path -/

theorem historyKey_inj {nm : Name} {i j : ℕ} (h : Optic.historyKey nm i = Optic.historyKey nm j) : i = j := by
  simp only [Optic.historyKey, List.append_cancel_left_eq, List.cons.injEq, true_and] at h
  have := congrArg (fun l => Nat.ofDigitChars 10 l 0) h
  simpa [Nat.ofDigitChars_ten_toDigits] using this

theorem freshKey_spec (out : Dict Name (Record F)) (nm : Name) : ∀ (fuel j : ℕ),
    (∃ i, Optic.freshKey out nm fuel j = Optic.historyKey nm i) ∧
    (Optic.freshKey out nm fuel j ∈ out.map Prod.fst →
      ∀ i, j ≤ i → i ≤ j + fuel → Optic.historyKey nm i ∈ out.map Prod.fst)
  | 0, j => ⟨⟨j, rfl⟩, fun h i h1 h2 => by
      have : i = j := by omega
      subst this; exact h⟩
  | fuel + 1, j => by
    rw [Optic.freshKey]
    obtain ⟨h1, h2⟩ := freshKey_spec out nm fuel (j + 1)
    split
    · rename_i hh
      refine ⟨h1, fun h i hi1 hi2 => ?_⟩
      by_cases e : i = j
      · subst e; exact has_iff.1 hh
      · exact h2 h i (by omega) (by omega)
    · rename_i hh
      exact ⟨⟨j, rfl⟩, fun h => absurd (has_iff.2 h) hh⟩

/-- The key chosen is never in use. -/
theorem freshKey_fresh (out : Dict Name (Record F)) (nm : Name) :
    Optic.freshKey out nm out.length 0 ∉ out.map Prod.fst := by
  intro h
  have hall := (freshKey_spec out nm out.length 0).2 h
  have hsub : ((List.range (out.length + 1)).map (Optic.historyKey nm)) ⊆ out.map Prod.fst := by
    intro k hk
    rw [List.mem_map] at hk
    obtain ⟨i, hi, rfl⟩ := hk
    rw [List.mem_range] at hi
    exact hall i (by omega) (by omega)
  have hnd : ((List.range (out.length + 1)).map (Optic.historyKey nm)).Nodup := by
    rw [List.nodup_map_iff_inj_on List.nodup_range]
    intro i _ j _ e
    exact historyKey_inj e
  have := (hnd.subperm hsub).length_le
  simp at this

/-- `recs` is a chain of records from the rays `a` to the rays `b`. -/
def Chained : RayVec F → List (Record F) → RayVec F → Prop
  | a, [], b => a = b
  | a, r :: rs, b => r.input = a ∧ Chained r.output rs b

theorem pathFull_eq (niter : ℕ) (o : Optic F) (path : List Name) : ∀ (l : List Name) (back : Bool) (rv rv' : RayVec F)
    (out : Dict Name (Record F)), (out.map Prod.fst).Nodup → Optic.pathLoop niter o path l back rv = .ok rv' →
    ∃ new, Optic.pathFullLoop niter o path l back rv out = .ok (out ++ new) ∧ ((out ++ new).map Prod.fst).Nodup ∧
      new.length = l.length ∧ Chained rv (new.map Prod.snd) rv' ∧
      List.Forall₂ (fun nm (e : Name × Record F) => ∃ it, o.getItem nm = .ok it ∧ e.2.name = it.name) l new
  | [], back, rv, rv', out, hnd, h => by
    simp only [Optic.pathLoop, Except.ok.injEq] at h
    exact ⟨[], by simp [Optic.pathFullLoop], by simpa using hnd, rfl, h, .nil⟩
  | nm :: rest, back, rv, rv', out, hnd, h => by
    rw [Optic.pathLoop] at h
    cases hi : o.getItem nm with
    | error e => rw [hi] at h; cases h
    | ok it =>
      rw [hi] at h
      cases hp : Optic.pathStep niter it back (Optic.nextBack path nm rest back) rv with
      | error e =>
        have : (Except.bind (Except.ok it) fun item => Except.bind
          (Optic.pathStep niter item back (Optic.nextBack path nm rest back) rv) fun rv' =>
            Optic.pathLoop niter o path rest (Optic.nextBack path nm rest back) rv') = .ok rv' := h
        simp only [Except.bind, hp] at this
        cases this
      | ok rv1 =>
        have h' : Optic.pathLoop niter o path rest (Optic.nextBack path nm rest back) rv1 = .ok rv' := by
          have : (Except.bind (Except.ok it) fun item => Except.bind
            (Optic.pathStep niter item back (Optic.nextBack path nm rest back) rv) fun rv' =>
              Optic.pathLoop niter o path rest (Optic.nextBack path nm rest back) rv') = .ok rv' := h
          simpa only [Except.bind, hp] using this
        have hfresh := freshKey_fresh out it.name
        have hset := set_fresh out (Optic.freshKey out it.name out.length 0) (⟨it.name, rv, rv1⟩ : Record F) hfresh
        have hnd' : ((out ++ [(Optic.freshKey out it.name out.length 0, (⟨it.name, rv, rv1⟩ : Record F))]).map Prod.fst).Nodup := by
          rw [List.map_append, List.nodup_append]
          refine ⟨hnd, by simp, ?_⟩
          intro a ha b hb e
          simp at hb
          subst e; subst hb; exact hfresh ha
        obtain ⟨new, n1, n2, n3, n4, n5⟩ := pathFull_eq niter o path rest _ rv1 rv' _ hnd' h'
        refine ⟨(Optic.freshKey out it.name out.length 0, ⟨it.name, rv, rv1⟩) :: new, ?_, by simpa using n2, by simp [n3],
          ⟨rfl, n4⟩, .cons ⟨it, hi, rfl⟩ n5⟩
        have hs : Optic.pathFullLoop niter o path (nm :: rest) back rv out =
            Optic.pathFullLoop niter o path rest (Optic.nextBack path nm rest back) rv1
              (Dict.set out (Optic.freshKey out it.name out.length 0) ⟨it.name, rv, rv1⟩) := by
          rw [Optic.pathFullLoop, hi]
          show (Except.bind (Optic.pathStep niter it back (Optic.nextBack path nm rest back) rv) _) = _
          rw [hp]; rfl
        rw [hs, hset, n1]
        simp

/-- C57 for `traceFull(path=...)`, every path and tree: whenever `trace(path=...)` succeeds with result `rv'`, so does
`traceFull`; it returns one record per step, in order, none overwritten however often an interface is visited (the keys are
distinct); each record carries the name of the listed interface, starts from the rays the previous one ended with, and the
last one ends with `rv'`. -/
theorem C57_traceFull_path (niter : ℕ) (o : Optic F) (path : List Name) (rv rv' : RayVec F)
    (h : o.tracePath niter path rv = .ok rv') :
    ∃ full, o.traceFullPath niter path rv = .ok full ∧ (full.map Prod.fst).Nodup ∧ full.length = path.length ∧
      Chained rv (full.map Prod.snd) rv' ∧
      List.Forall₂ (fun nm (e : Name × Record F) => ∃ it, o.getItem nm = .ok it ∧ e.2.name = it.name) path full := by
  obtain ⟨new, h1, h2, h3, h4, h5⟩ := pathFull_eq niter o path path false rv rv' [] (by simp) h
  exact ⟨new, h1, h2, h3, h4, h5⟩

end c57

/-! ### Concrete cases -/

/-- A telescope of three flats. -/
noncomputable def demoThree : Optic Dbl :=
  demoComp "T" [.iface (demoFlat "A" 0), .iface (demoFlat "B" 1), .iface (demoFlat "C" 2)]

/-- The ghost path A, B, A, B, C: through A, reflected at B, reflected at A, through B and C. -/
example (rv : RayVec Dbl) : demoThree.tracePath 5 ["A".toList, "B".toList, "A".toList, "B".toList, "C".toList] rv =
    .ok ((demoFlat "C" 2).trace 5 false ((demoFlat "B" 1).trace 5 false ((asMirror (demoFlat "A" 0)).trace 5 true
      ((asMirror (demoFlat "B" 1)).trace 5 false ((demoFlat "A" 0).trace 5 false rv))))) := by
  have := C57_path_follows_walk_partial 5 demoThree 3
    (fun k => if k = 0 then demoFlat "A" 0 else if k = 1 then demoFlat "B" 1 else demoFlat "C" 2)
    (by
      intro i j hi hj
      interval_cases i <;> interval_cases j <;> simp [demoFlat])
    (by intro i hi; interval_cases i <;> rfl)
    [1, 0, 1, 2] (by simp) (by simp [Walk]) (by simp) rv
  exact this

/-- The nominal path of the same telescope. -/
example (rv : RayVec Dbl) : demoThree.tracePath 5 ["A".toList, "B".toList, "C".toList] rv = .ok (demoThree.trace 5 false rv) := by
  refine C57_nominal_path_partial 5 demoThree ?_ ?_ ?_ rv
  · simp [demoThree, demoComp, visits, visitsItems, Optic.skip, demoFlat, demoMirror]
  · simp [demoThree, demoComp, visits, visitsItems, Optic.skip, demoFlat, demoMirror]
  · intro d hd
    simp [demoThree, demoComp, visits, visitsItems, Optic.skip, demoFlat, demoMirror] at hd
    rcases hd with rfl | rfl | rfl <;> rfl

/-- A telescope of a single detector. -/
noncomputable def demoSingle : Iface Dbl := { demoMirror with kind := .detector, name := "A".toList }

/-- C57 fails for a telescope of a single interface: the nominal path reflects rays off a detector which the plain trace lets
pass. -/
theorem C57_single_interface_violated : ∃ (o : Optic Dbl) (rv a : RayVec Dbl), (visits o).map (·.name) = ["A".toList] ∧
    o.tracePath 5 ["A".toList] rv = .ok a ∧
    ∃ p q : Ray Dbl, a.rays[0]? = some p ∧ (o.trace 5 false rv).rays[0]? = some q ∧
      (∃ u : V3 ℝ, p.v = u.fin ∧ u.z = 4 / 5) ∧ q.v = (⟨3 / 5, 0, -4 / 5⟩ : V3 ℝ).fin := by
  have hit := demo_hit (v := ⟨3 / 5, 0, -4 / 5⟩) (by norm_num)
  obtain ⟨q, q1, -, -, -, -, -, q2, -⟩ := C18_physics demoSingle 5 false
    ⟨[demoRay ⟨3 / 5, 0, -4 / 5⟩], (CoordSys.std ℝ).fin⟩ 0 _ rfl hit (by simp) demo_unit (by intro s h; cases h)
    (n2 := 1) (by norm_num) rfl
  obtain ⟨p, p1, -, -, -, -, p2, -⟩ := C18_physics (asMirror demoSingle) 5 false
    ⟨[demoRay ⟨3 / 5, 0, -4 / 5⟩], (CoordSys.std ℝ).fin⟩ 0 _ rfl hit (by simp) demo_unit (by intro s h; cases h)
    (n2 := 1) (by norm_num) rfl
  obtain ⟨u, hu, -, -, h3⟩ := p2 rfl
  have hd : (demoComp "T" [.iface demoSingle]).tracePath 5 ["A".toList]
      ⟨[demoRay ⟨3 / 5, 0, -4 / 5⟩], (CoordSys.std ℝ).fin⟩ =
      .ok ((asMirror demoSingle).trace 5 false ⟨[demoRay ⟨3 / 5, 0, -4 / 5⟩], (CoordSys.std ℝ).fin⟩) := by
    generalize (⟨[demoRay ⟨3 / 5, 0, -4 / 5⟩], (CoordSys.std ℝ).fin⟩ : RayVec Dbl) = rv
    rfl
  have ht : ∀ rv, (demoComp "T" [.iface demoSingle]).trace 5 false rv = demoSingle.trace 5 false rv := fun _ => rfl
  refine ⟨demoComp "T" [.iface demoSingle], ⟨[demoRay ⟨3 / 5, 0, -4 / 5⟩], (CoordSys.std ℝ).fin⟩, _, ?_, hd,
    p, q, p1, by rw [ht]; exact q1, ⟨u, hu, ?_⟩, q2 (.inr (.inl rfl))⟩
  · simp [demoComp, visits, visitsItems, Optic.skip, demoSingle, demoMirror]
  · simp [V3.dot] at h3
    rw [h3]; norm_num

end Batoid.Props
