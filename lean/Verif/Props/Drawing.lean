import Verif.Drawing
import Verif.Props.Trace
import Verif.Props.Ghosts
import Verif.Props.Kernels
import Verif.Props.Stigmatic

/-!
# Property C92: drawing rays

The specification vocabulary: `stage reverse o m` are the rays after the first `m` interfaces that a tree presents to them.
`getGlobalRays` is given the result of `traceFull`; its vertices are to be the positions of the rays at the stages.
-/

namespace Batoid.Props
open Batoid

section structural
variable {F : Type} [Arith F]

/-- The rays after the first `m` interfaces of `ds`. -/
def stageOf (niter : ℕ) (reverse : Bool) (ds : List (Iface F)) (rv : RayVec F) (m : ℕ) : RayVec F :=
  (ds.take m).foldl (fun rv d => d.trace niter reverse rv) rv

/-- The rays after the first `m` interfaces of a tree. -/
def stage (niter : ℕ) (reverse : Bool) (o : Optic F) (rv : RayVec F) (m : ℕ) : RayVec F :=
  stageOf niter reverse (order reverse o) rv m

theorem stageOf_zero (niter : ℕ) (reverse : Bool) (ds : List (Iface F)) (rv : RayVec F) :
    stageOf niter reverse ds rv 0 = rv := by simp [stageOf]

theorem stageOf_succ (niter : ℕ) (reverse : Bool) (ds : List (Iface F)) (rv : RayVec F) (m : ℕ) (d : Iface F)
    (h : ds[m]? = some d) :
    stageOf niter reverse ds rv (m + 1) = d.trace niter reverse (stageOf niter reverse ds rv m) := by
  unfold stageOf
  rw [List.take_add_one, h, List.foldl_append]
  rfl

/-- The records of a history are the stages before and after each interface. -/
theorem history_stage (niter : ℕ) (reverse : Bool) : ∀ (ds : List (Iface F)) (rv : RayVec F) (m : ℕ) (d : Iface F),
    ds[m]? = some d → (history niter reverse ds rv)[m]?
      = some (d.name, ⟨d.name, stageOf niter reverse ds rv m, stageOf niter reverse ds rv (m + 1)⟩)
  | [], _, _, _, h => by simp at h
  | d' :: ds, rv, 0, d, h => by
    simp at h; subst h
    simp [history, stageOf]
  | d' :: ds, rv, m + 1, d, h => by
    have := history_stage niter reverse ds (d'.trace niter reverse rv) m d (by simpa using h)
    simpa [history, stageOf] using this

theorem stageOf_length (niter : ℕ) (reverse : Bool) (ds : List (Iface F)) (rv : RayVec F) (m : ℕ) :
    (stageOf niter reverse ds rv m).rays.length = rv.rays.length := by
  unfold stageOf
  generalize ds.take m = l
  induction l generalizing rv with
  | nil => rfl
  | cons d l ih => rw [List.foldl_cons, ih, (C18_trace_frame_and_order d niter reverse rv).2]

/-! ## The loop -/

/-- The vertex of ray `j`. -/
def vertexOf (g : CoordSys F) (rv : RayVec F) (j : ℕ) : Option (V3 F) :=
  rv.rays[j]?.map fun ray => (CoordTransform.make rv.coordSys g).forward ray.r

/-- Ray `j` is not vignetted. -/
def seen (rv : RayVec F) (j : ℕ) : Bool := (rv.rays[j]?.map fun ray => !ray.vignetted).getD false

theorem globalVertices_eq (tf : Dict Name (Record F)) (g : CoordSys F) (n : ℕ) :
    ∀ (recs : List (Name × Record F)) (lines : List (Polyline F)),
    (∀ e ∈ recs, tf.get? e.1 = some e.2 ∧ e.2.output.rays.length = n) → lines.length = n →
    ∃ ls, globalVertices tf g n (recs.map Prod.fst) lines = .ok ls ∧ ls.length = n ∧
      ∀ (j : ℕ) (l : Polyline F), lines[j]? = some l → ∃ line, ls[j]? = some line ∧
        line.vertices.map some = l.vertices.map some ++ recs.map (fun e => vertexOf g e.2.output j) ∧
        line.raylen = l.raylen + recs.countP (fun e => seen e.2.output j)
  | [], lines, _, hl => ⟨lines, rfl, hl, fun j l h => ⟨l, h, by simp, by simp⟩⟩
  | e :: recs, lines, h, hl => by
    obtain ⟨h1, h2⟩ := h e (by simp)
    obtain ⟨ls, e1, e2, e3⟩ := globalVertices_eq tf g n recs
      (List.zipWith (addVertex (CoordTransform.make e.2.output.coordSys g)) lines e.2.output.rays)
      (fun e' he => h e' (by simp [he])) (by simp [hl, h2])
    refine ⟨ls, ?_, e2, ?_⟩
    · simp only [List.map_cons, globalVertices, h1, h2, if_true]
      exact e1
    · intro j l hj
      have hjn : j < n := by
        rw [← hl]; exact (List.getElem?_eq_some_iff.1 hj).1
      obtain ⟨ray, hray⟩ : ∃ ray, e.2.output.rays[j]? = some ray := ⟨_, List.getElem?_eq_getElem (by omega)⟩
      obtain ⟨line, f1, f2, f3⟩ := e3 j (addVertex (CoordTransform.make e.2.output.coordSys g) l ray)
        (by rw [List.getElem?_zipWith, hj, hray])
      refine ⟨line, f1, ?_, ?_⟩
      · rw [f2]
        simp [addVertex, vertexOf, hray]
      · rw [f3]
        cases hv : ray.vignetted <;> simp [addVertex, seen, hray, hv, List.countP_cons]
        omega

theorem get?_of_getElem? {α β : Type} [DecidableEq α] : ∀ (d : Dict α β), (d.map Prod.fst).Nodup → ∀ e ∈ d, d.get? e.1 = some e.2
  | [], _, e, h => by simp at h
  | (k, v) :: d, hn, e, h => by
    simp only [List.map_cons, List.nodup_cons] at hn
    rw [Dict.get?]
    rcases List.mem_cons.1 h with rfl | h
    · simp
    · rw [if_neg, get?_of_getElem? d hn.2 e h]
      intro hk
      exact hn.1 (List.mem_map.2 ⟨e, h, hk.symm⟩)

theorem nameIndex_of (names : List Name) (hn : names.Nodup) (i : ℕ) (nm : Name) (h : names[i]? = some nm) :
    nameIndex names nm = .ok i := by
  have : names.idxOf? nm = some i := by
    obtain ⟨hi, e⟩ := List.getElem?_eq_some_iff.1 h
    rw [List.idxOf?_eq_some_iff]
    refine ⟨hi, by simpa using e, ?_⟩
    intro j hj e'
    have := (List.Nodup.getElem_inj_iff hn (hi := by omega) (hj := hi)).1 ((by simpa using e' : names[j] = nm).trans e.symm)
    omega
  simp [nameIndex, this]

/-- In a list in which no true element follows a false one, the number of true elements tells which they are. -/
theorem countP_prefix {α : Type} (p : α → Bool) : ∀ (l : List α),
    (∀ (i : ℕ) x y, l[i]? = some x → l[i + 1]? = some y → p y = true → p x = true) →
    ∀ (k : ℕ) x, l[k]? = some x → (k < l.countP p ↔ p x = true)
  | [], _, k, x, h => by simp at h
  | a :: l, hm, k, x, h => by
    have ih := countP_prefix p l (fun i x y hx hy => hm (i + 1) x y (by simpa using hx) (by simpa using hy))
    cases ha : p a with
    | true =>
      rw [List.countP_cons_of_pos ha]
      cases k with
      | zero => simp at h; subst h; simp [ha]
      | succ k => rw [← ih k x (by simpa using h)]; omega
    | false =>
      rw [List.countP_cons_of_neg (by simp [ha])]
      have hz : ∀ (i : ℕ) y, (a :: l)[i]? = some y → p y = false := by
        intro i
        induction i with
        | zero => intro y hy; simp at hy; subst hy; exact ha
        | succ i ihi =>
          intro y hy
          obtain ⟨z, hz⟩ : ∃ z, (a :: l)[i]? = some z :=
            ⟨_, List.getElem?_eq_getElem (by have := (List.getElem?_eq_some_iff.1 hy).1; omega)⟩
          by_contra hc
          have := hm i z y hz hy (by simpa using hc)
          rw [ihi z hz] at this
          exact absurd this (by simp)
      have h0 : l.countP p = 0 := by
        rw [List.countP_eq_zero]
        intro y hy
        obtain ⟨i, hi⟩ := List.getElem?_of_mem hy
        simp [hz (i + 1) y (by simpa using hi)]
      simp [h0, hz k x h]

/-- A vignetted ray stays vignetted. -/
theorem trace_vignetted (d : Iface F) (niter : ℕ) (reverse : Bool) (rv : RayVec F) (j : ℕ) :
    seen (d.trace niter reverse rv) j = true → seen rv j = true := by
  intro h
  cases hi : rv.rays[j]? with
  | none =>
    have : (d.trace niter reverse rv).rays[j]? = none := by
      rw [List.getElem?_eq_none_iff] at hi ⊢
      rw [(C18_trace_frame_and_order d niter reverse rv).2]; exact hi
    simp [seen, this] at h
  | some ray =>
    obtain ⟨out, h1, -, h3⟩ := trace_ray d niter reverse rv j ray hi
    simp only [seen, h1, hi, Option.map_some, Option.getD_some, Bool.not_eq_true'] at h ⊢
    by_contra hv
    have hv : ray.vignetted = true := by simpa using hv
    have hk : (Iface.onRay d niter reverse (CoordTransform.make rv.coordSys d.coordSys) ray).vignetted = true := by
      unfold Iface.onRay
      cases d.kind <;> simp only [Ray.refract, Ray.reflect, Ray.intersect, Ray.refractScreen] <;> split <;> try exact hv
      all_goals split <;> try (simp [Ray.markFailed, hv]; done)
      all_goals (try split) <;> simp [hv]
    have := h3.2 (Or.inl hk)
    simp [this] at h

/-! ## C92: any arithmetic -/

/-- What `getGlobalRays` is to return for ray `j` between two surfaces: one vertex for every stage, from the one before the
first surface to the one after the last, each the position of the ray in the frame `g`; and after the first vertex exactly
the ones that are not vignetted lie below `raylen`. -/
structure DrawsRay (niter : ℕ) (reverse : Bool) (o : Optic F) (rv : RayVec F) (g : CoordSys F) (a b j : ℕ) (line : Polyline F) : Prop where
  count : line.vertices.length = b - a + 2
  first : 1 ≤ line.raylen
  last : line.raylen ≤ b - a + 2
  vertex : ∀ k, k ≤ b - a + 1 → ∃ ray, (stage niter reverse o rv (a + k)).rays[j]? = some ray ∧
    line.vertices[k]? = some ((CoordTransform.make (stage niter reverse o rv (a + k)).coordSys g).forward ray.r) ∧
    (1 ≤ k → (k < line.raylen ↔ ray.vignetted = false))

/-- C92, part: between any two of the surfaces in the order of traversal, `getGlobalRays` gives for every ray the positions of
the ray at all stages, and `raylen` tells which of them are not vignetted: since a ray once vignetted stays so, they are the
first ones.  Missing: the first vertex is always drawn, `C92_entry_violated`; interfaces of the same name overwrite each
other's records, as in C51. -/
theorem C92_lines_partial (niter : ℕ) (reverse : Bool) (o : Optic F) (rv : RayVec F) (g : CoordSys F)
    (hnames : ((visits o).map (·.name)).Nodup) (hs : o.skip = false) {a b : ℕ} (hab : a ≤ b) {da db : Iface F}
    (ha : (order reverse o)[a]? = some da) (hb : (order reverse o)[b]? = some db) :
    ∃ lines, getGlobalRays (o.traceFull niter reverse rv) (some da.name) (some db.name) g = .ok lines ∧
      lines.length = rv.rays.length ∧
      ∀ (j : ℕ) line, lines[j]? = some line → DrawsRay niter reverse o rv g a b j line := by
  have htf : o.traceFull niter reverse rv = history niter reverse (order reverse o) rv := by
    cases reverse
    · exact full_history niter o rv hnames hs
    · exact fullRev_history niter o rv hnames hs
  have hnd : ((order reverse o).map (·.name)).Nodup := by
    cases reverse
    · exact hnames
    · simpa [order] using hnames
  rw [htf]
  have hkeys := history_keys niter reverse (order reverse o) rv
  have hH : ∀ (m : ℕ) (d : Iface F), (order reverse o)[m]? = some d →
      (history niter reverse (order reverse o) rv)[m]?
        = some (d.name, ⟨d.name, stage niter reverse o rv m, stage niter reverse o rv (m + 1)⟩) :=
    fun m d hd => history_stage niter reverse (order reverse o) rv m d hd
  have hlen : (history niter reverse (order reverse o) rv).length = (order reverse o).length := by
    have := congrArg List.length hkeys
    simpa using this
  generalize history niter reverse (order reverse o) rv = H at hkeys hH hlen
  have hndH : (H.map Prod.fst).Nodup := by rw [hkeys]; exact hnd
  have hbl : b < (order reverse o).length := (List.getElem?_eq_some_iff.1 hb).1
  have hia : nameIndex (H.map Prod.fst) da.name = .ok a :=
    nameIndex_of _ hndH a _ (by rw [List.getElem?_map, hH a da ha]; rfl)
  have hib : nameIndex (H.map Prod.fst) db.name = .ok b :=
    nameIndex_of _ hndH b _ (by rw [List.getElem?_map, hH b db hb]; rfl)
  have hget : Dict.get? H da.name = some ⟨da.name, stage niter reverse o rv a, stage niter reverse o rv (a + 1)⟩ :=
    get?_of_getElem? H hndH _ (List.mem_of_getElem? (hH a da ha))
  have hslice : ∀ i, i ≤ b - a → ∃ d, ((H.take (b + 1)).drop a)[i]?
      = some (d, ⟨d, stage niter reverse o rv (a + i), stage niter reverse o rv (a + i + 1)⟩) := by
    intro i hi
    have hd : (order reverse o)[a + i]? = some ((order reverse o)[a + i]'(by omega)) := List.getElem?_eq_getElem _
    refine ⟨((order reverse o)[a + i]'(by omega)).name, ?_⟩
    rw [List.getElem?_drop, List.getElem?_take_of_lt (by omega), hH _ _ hd]
  have hsl : ((H.take (b + 1)).drop a).length = b - a + 1 := by
    simp [hlen]; omega
  have hst : ∀ m, (stage niter reverse o rv m).rays.length = rv.rays.length := fun m => stageOf_length niter reverse _ rv m
  obtain ⟨ls, e1, e2, e3⟩ := globalVertices_eq H g rv.rays.length ((H.take (b + 1)).drop a)
    ((stage niter reverse o rv a).rays.map fun ray =>
      ⟨[(CoordTransform.make (stage niter reverse o rv a).coordSys g).forward ray.r], 1⟩)
    (by
      intro e he
      refine ⟨get?_of_getElem? H hndH _ (List.mem_of_mem_take (List.mem_of_mem_drop he)), ?_⟩
      obtain ⟨i, hi⟩ := List.getElem?_of_mem he
      have hil := (List.getElem?_eq_some_iff.1 hi).1
      obtain ⟨d, hd⟩ := hslice i (by omega)
      rw [hi] at hd
      cases hd
      exact hst _)
    (by simp [hst])
  refine ⟨ls, ?_, e2, ?_⟩
  · simp only [getGlobalRays, defaultName, bind, Except.bind, hia, hib, globalRange, hget]
    rw [if_neg (by omega), hst a, ← List.map_take, ← List.map_drop]
    exact e1
  · intro j line hj
    have hjn : j < rv.rays.length := by rw [← e2]; exact (List.getElem?_eq_some_iff.1 hj).1
    have hray : ∀ m, ∃ ray, (stage niter reverse o rv m).rays[j]? = some ray := fun m =>
      ⟨_, List.getElem?_eq_getElem (by rw [hst]; exact hjn)⟩
    obtain ⟨ray0, h0⟩ := hray a
    obtain ⟨line', f1, f2, f3⟩ := e3 j
      ⟨[(CoordTransform.make (stage niter reverse o rv a).coordSys g).forward ray0.r], 1⟩
      (by rw [List.getElem?_map, h0]; rfl)
    rw [hj] at f1
    cases f1
    have hcount : line.vertices.length = b - a + 2 := by
      have := congrArg List.length f2
      simp only [List.length_map, List.length_append, List.length_cons, List.length_nil, hsl] at this
      omega
    have hpre := countP_prefix (fun e : Name × Record F => seen e.2.output j) ((H.take (b + 1)).drop a) (by
      intro i x y hx hy hp
      have hyl := (List.getElem?_eq_some_iff.1 hy).1
      obtain ⟨d, hd⟩ := hslice i (by omega)
      obtain ⟨d', hd'⟩ := hslice (i + 1) (by omega)
      rw [hx] at hd; cases hd
      rw [hy] at hd'; cases hd'
      simp only at hp ⊢
      obtain ⟨e, he⟩ : ∃ e, (order reverse o)[a + (i + 1)]? = some e := ⟨_, List.getElem?_eq_getElem (by omega)⟩
      have := stageOf_succ niter reverse (order reverse o) rv (a + (i + 1)) e he
      unfold stage at hp ⊢
      rw [this] at hp
      exact trace_vignetted e niter reverse _ j hp)
    refine ⟨hcount, by simp only at f3; omega, ?_, ?_⟩
    · have := List.countP_le_length (p := fun e : Name × Record F => seen e.2.output j) (l := (H.take (b + 1)).drop a)
      simp only at f3
      omega
    · intro k hk
      obtain ⟨ray, hr⟩ := hray (a + k)
      refine ⟨ray, hr, ?_, ?_⟩
      · have hv : (line.vertices.map some)[k]? = some (vertexOf g (stage niter reverse o rv (a + k)) j) := by
          rw [f2]
          cases k with
          | zero => simp [vertexOf, h0]
          | succ i =>
            obtain ⟨d, hd⟩ := hslice i (by omega)
            simp only [List.map_cons, List.map_nil, List.singleton_append, List.getElem?_cons_succ, List.getElem?_map, hd,
              Option.map_some]
            rfl
        rw [vertexOf, hr, List.getElem?_map] at hv
        cases hl : line.vertices[k]? with
        | none => rw [hl] at hv; simp at hv
        | some p => rw [hl] at hv; simpa using hv
      · intro hk1
        obtain ⟨i, rfl⟩ : ∃ i, k = i + 1 := ⟨k - 1, by omega⟩
        obtain ⟨d, hd⟩ := hslice i (by omega)
        have := hpre i _ hd
        simp only [seen, show a + i + 1 = a + (i + 1) by omega, hr, Option.map_some, Option.getD_some,
          Bool.not_eq_true'] at this
        rw [← this]
        simp only at f3
        rw [f3]
        simp only [seen]
        omega

/-- C92, part: what is drawn.  After the first vertex, the vertex of a stage is drawn exactly if the ray is not vignetted at that stage, and nothing
but the vertices of the stages is drawn. -/
theorem C92_drawn_partial {niter : ℕ} {reverse : Bool} {o : Optic F} {rv : RayVec F} {g : CoordSys F} {a b j : ℕ} {line : Polyline F}
    (h : DrawsRay niter reverse o rv g a b j line) {k : ℕ} (hk : 1 ≤ k) :
    (k ≤ b - a + 1 → ∃ ray, (stage niter reverse o rv (a + k)).rays[j]? = some ray ∧
      line.drawn[k]? = if ray.vignetted then none
        else some ((CoordTransform.make (stage niter reverse o rv (a + k)).coordSys g).forward ray.r)) ∧
    (b - a + 1 < k → line.drawn[k]? = none) := by
  constructor
  · intro hk2
    obtain ⟨ray, h1, h2, h3⟩ := h.vertex k hk2
    refine ⟨ray, h1, ?_⟩
    cases hv : ray.vignetted with
    | true =>
      have : ¬ k < line.raylen := fun hlt => by rw [(h3 hk).1 hlt] at hv; cases hv
      simp only [if_true, Polyline.drawn, List.getElem?_eq_none_iff, List.length_take]
      omega
    | false =>
      have hlt := (h3 hk).2 hv
      simp only [Bool.false_eq_true, if_false, Polyline.drawn]
      rw [List.getElem?_take_of_lt hlt, h2]
  · intro hk2
    have := h.count
    simp only [Polyline.drawn, List.getElem?_eq_none_iff, List.length_take]
    omega

/-- C92: `start=None` and `end=None` stand for the first and the last surface of the history; for an empty history both
raise `IndexError`. -/
theorem C92_defaults (tf : Dict Name (Record F)) (g : CoordSys F) (start stop : Option Name) :
    (∀ first rec, tf[0]? = some (first, rec) → getGlobalRays tf none stop g = getGlobalRays tf (some first) stop g) ∧
    (∀ last rec, tf[tf.length - 1]? = some (last, rec) →
      getGlobalRays tf start none g = getGlobalRays tf start (some last) g) ∧
    (tf = [] → (start = none ∨ stop = none) → getGlobalRays tf start stop g = .error .indexError) := by
  refine ⟨?_, ?_, ?_⟩
  · intro first rec h
    have : (tf.map Prod.fst).head? = some first := by
      rw [List.head?_eq_getElem?, List.getElem?_map, h]; rfl
    simp [getGlobalRays, this, defaultName]
  · intro last rec h
    have : (tf.map Prod.fst).getLast? = some last := by
      rw [List.getLast?_eq_getElem?, List.getElem?_map, List.length_map, h]; rfl
    simp [getGlobalRays, this, defaultName]
  · rintro rfl (rfl | rfl)
    · simp [getGlobalRays, defaultName, bind, Except.bind]
    · cases start <;> simp [getGlobalRays, defaultName, bind, Except.bind]

/-- C92: names that are not in the history raise `ValueError`, and so does an `end` that comes before the `start`. -/
theorem C92_errors (tf : Dict Name (Record F)) (g : CoordSys F) (start stop : Name) :
    (start ∉ tf.map Prod.fst ∨ stop ∉ tf.map Prod.fst → getGlobalRays tf (some start) (some stop) g = .error .valueError) ∧
    (∀ (a b : ℕ) ra rb, (tf.map Prod.fst).Nodup → tf[a]? = some (start, ra) → tf[b]? = some (stop, rb) → b < a →
      getGlobalRays tf (some start) (some stop) g = .error .valueError) := by
  constructor
  · intro h
    simp only [getGlobalRays, defaultName, bind, Except.bind]
    by_cases hs : start ∈ tf.map Prod.fst
    · have hs' : stop ∉ tf.map Prod.fst := by tauto
      have h1 : nameIndex (tf.map Prod.fst) stop = .error .valueError := by
        simp only [nameIndex]; rw [List.idxOf?_eq_none_iff.2 hs']
      rw [h1]
      cases hq : nameIndex (tf.map Prod.fst) start with
      | ok i => rfl
      | error e =>
        simp only [nameIndex] at hq
        split at hq
        · cases hq
        · cases hq; rfl
    · have h1 : nameIndex (tf.map Prod.fst) start = .error .valueError := by
        simp only [nameIndex]; rw [List.idxOf?_eq_none_iff.2 hs]
      rw [h1]
  · intro a b ra rb hn ha hb hab
    have hia : nameIndex (tf.map Prod.fst) start = .ok a := nameIndex_of _ hn a _ (by rw [List.getElem?_map, ha]; rfl)
    have hib : nameIndex (tf.map Prod.fst) stop = .ok b := nameIndex_of _ hn b _ (by rw [List.getElem?_map, hb]; rfl)
    simp only [getGlobalRays, defaultName, bind, Except.bind, hia, hib, globalRange]
    rw [if_pos (by omega)]

/-- If every failed ray is vignetted, this is so at every stage. -/
theorem stageOf_failedVignetted (niter : ℕ) (reverse : Bool) (ds : List (Iface F)) (rv : RayVec F) (h : FailedVignetted rv) (m : ℕ) :
    FailedVignetted (stageOf niter reverse ds rv m) := by
  unfold stageOf
  generalize ds.take m = l
  induction l generalizing rv with
  | nil => exact h
  | cons d l ih =>
    rw [List.foldl_cons]
    apply ih
    intro out hout hf
    obtain ⟨j, hj⟩ := List.getElem?_of_mem hout
    obtain ⟨ray, hray⟩ : ∃ ray, rv.rays[j]? = some ray :=
      ⟨_, List.getElem?_eq_getElem (by
        rw [← (C18_trace_frame_and_order d niter reverse rv).2]; exact (List.getElem?_eq_some_iff.1 hj).1)⟩
    obtain ⟨out', h1, h2, h3⟩ := trace_ray d niter reverse rv j ray hray
    rw [hj] at h1
    cases h1
    rw [h3]
    left
    have hr := h ray (List.mem_of_getElem? hray)
    rw [h2] at hf
    simp only at hf
    revert hf
    unfold Iface.onRay
    cases d.kind <;> simp only [Ray.refract, Ray.reflect, Ray.intersect, Ray.refractScreen] <;> split <;> try exact hr
    all_goals split <;> try (simp [Ray.markFailed]; done)
    all_goals (try split) <;> first | exact hr | exact fun _ => rfl

/-- A ray that an interface lets pass has moved along its velocity: `dt` is the time it took. -/
theorem onRay_moves (d : Iface F) (niter : ℕ) (reverse : Bool) (ct : CoordTransform F) (ray : Ray F)
    (hf : ray.failed = false) (hout : (Iface.onRay d niter reverse ct ray).failed = false) :
    ∃ dt, (Iface.onRay d niter reverse ct ray).r = ct.forward ray.r + (ct.forwardVel ray.v).smulR dt ∧
      ((∀ s, d.kind ≠ .screen s) → (Iface.onRay d niter reverse ct ray).t = ray.t + dt) := by
  unfold Iface.onRay at hout ⊢
  cases ht : d.surface.timeToIntersect (ct.forward ray.r) (ct.forwardVel ray.v) 0 niter with
  | mk ok dt =>
    cases ok with
    | false =>
      exfalso
      cases hk : d.kind <;>
        simp [hk, Ray.refract, Ray.reflect, Ray.intersect, Ray.refractScreen, hf, ht, Ray.markFailed] at hout
    | true =>
      refine ⟨dt, ?_, ?_⟩
      · cases hk : d.kind <;>
          simp only [Ray.refract, Ray.reflect, Ray.intersect, Ray.refractScreen, hf, ht, Bool.false_eq_true, if_false]
        split <;> rfl
      · intro hs
        cases hk : d.kind <;>
          simp only [Ray.refract, Ray.reflect, Ray.intersect, Ray.refractScreen, hf, ht, Bool.false_eq_true, if_false]
        · split <;> rfl
        · exact absurd hk (hs _)

end structural

/-! ## C92: geometry -/

theorem Dbl.step_fin {a b c : ℝ} {dt : Dbl} (h : Dbl.fin a + Dbl.fin b * dt = Dbl.fin c) : ∃ x, dt = Dbl.fin x := by
  cases dt with
  | fin x => exact ⟨x, rfl⟩
  | nan => exact absurd h (by intro h; cases h)
  | pinf =>
    exfalso
    have : Dbl.add (Dbl.fin a) (Dbl.infMul b) = Dbl.fin c := h
    unfold Dbl.infMul at this
    split at this
    · cases this
    · split at this <;> cases this
  | ninf =>
    exfalso
    have : Dbl.add (Dbl.fin a) (Dbl.infMul (-b)) = Dbl.fin c := h
    unfold Dbl.infMul at this
    split at this
    · cases this
    · split at this <;> cases this

/-- C92: the vertices are the positions of the ray in the frame `gs` (for the default argument, in global coordinates). -/
theorem C92_position {niter : ℕ} {reverse : Bool} {o : Optic Dbl} {rv : RayVec Dbl} {gs : CoordSys ℝ} {a b j : ℕ} {line : Polyline Dbl}
    (h : DrawsRay niter reverse o rv gs.fin a b j line) {k : ℕ} (hk : k ≤ b - a + 1) {cs : CoordSys ℝ} (ho : cs.rot.Orth)
    (hcs : (stage niter reverse o rv (a + k)).coordSys = cs.fin) {ray : Ray Dbl} {r : V3 ℝ}
    (hr : (stage niter reverse o rv (a + k)).rays[j]? = some ray) (hpos : ray.r = r.fin) :
    line.vertices[k]? = some (gs.toLocal (cs.toGlobal r)).fin := by
  obtain ⟨ray', h1, h2, -⟩ := h.vertex k hk
  rw [hr] at h1
  cases h1
  rw [h2, hcs, hpos, CoordTransform.forward_fin, CoordSys.forward_eq ho]

/-- C92: the drawn line is the path of the light.  Two consecutive drawn vertices are joined by a straight line along the
velocity with which the ray leaves the first one, and (except behind a phase screen, which also delays the ray) the second
is where that velocity takes it in the time between the two. -/
theorem C92_straight {niter : ℕ} {reverse : Bool} {o : Optic Dbl} {rv : RayVec Dbl} {gs : CoordSys ℝ} {a b j : ℕ} {line : Polyline Dbl}
    (h : DrawsRay niter reverse o rv gs.fin a b j line) (hfv : FailedVignetted rv) {k : ℕ} (hk : k + 1 < line.raylen)
    {d : Iface Dbl} (hd : (order reverse o)[a + k]? = some d) {cs cs' : CoordSys ℝ} (ho : cs.rot.Orth) (ho' : cs'.rot.Orth)
    (hcs : (stage niter reverse o rv (a + k)).coordSys = cs.fin) (hcs' : d.coordSys = cs'.fin) {ray ray' : Ray Dbl} {r v r' : V3 ℝ}
    (hr : (stage niter reverse o rv (a + k)).rays[j]? = some ray) (hpos : ray.r = r.fin) (hvel : ray.v = v.fin)
    (hr' : (stage niter reverse o rv (a + (k + 1))).rays[j]? = some ray') (hpos' : ray'.r = r'.fin) :
    ∃ (P : V3 ℝ) (dt : ℝ), line.drawn[k]? = some P.fin ∧
      line.drawn[k + 1]? = some (P + (gs.rot.tr.mulVec (cs.rot.mulVec v)).smulR dt).fin ∧
      ((∀ s, d.kind ≠ .screen s) → ray'.t = ray.t + Dbl.fin dt) := by
  have hlast := h.last
  have hst : stage niter reverse o rv (a + (k + 1)) = d.trace niter reverse (stage niter reverse o rv (a + k)) :=
    stageOf_succ niter reverse (order reverse o) rv (a + k) d hd
  obtain ⟨out, h1, h2, -⟩ := trace_ray d niter reverse _ j ray hr
  rw [← hst, hr'] at h1
  cases h1
  simp only [hcs, hcs'] at h2
  have hvis : ray'.vignetted = false := by
    obtain ⟨x, h3, -, h5⟩ := h.vertex (k + 1) (by omega)
    rw [hr'] at h3; cases h3
    exact (h5 (by omega)).1 hk
  have hlive' : ray'.failed = false := by
    by_contra hc
    have := stageOf_failedVignetted niter reverse (order reverse o) rv hfv (a + (k + 1)) ray' (List.mem_of_getElem? hr')
      (by simpa using hc)
    rw [hvis] at this; cases this
  have hkf : (Iface.onRay d niter reverse (CoordTransform.make cs.fin cs'.fin) ray).failed = false := by
    rw [h2] at hlive'; exact hlive'
  have hlive : ray.failed = false := by
    by_contra hc
    have hc : ray.failed = true := by simpa using hc
    have : (Iface.onRay d niter reverse (CoordTransform.make cs.fin cs'.fin) ray) = ray := by
      unfold Iface.onRay
      cases d.kind <;> simp [Ray.refract, Ray.reflect, Ray.intersect, Ray.refractScreen, hc]
    rw [this, hc] at hkf; cases hkf
  obtain ⟨dt, m1, m2⟩ := onRay_moves d niter reverse (CoordTransform.make cs.fin cs'.fin) ray hlive hkf
  have hr2 : ray'.r = (Iface.onRay d niter reverse (CoordTransform.make cs.fin cs'.fin) ray).r := by rw [h2]
  have ht2 : ray'.t = (Iface.onRay d niter reverse (CoordTransform.make cs.fin cs'.fin) ray).t := by rw [h2]
  rw [← hr2, hpos', hpos, hvel, CoordTransform.forward_fin, CoordTransform.forwardVel_fin, CoordSys.forward_eq ho,
    CoordSys.forwardVel_eq] at m1
  rw [← ht2] at m2
  obtain ⟨x, rfl⟩ : ∃ x, dt = Dbl.fin x := by
    have := congrArg V3.x m1
    exact Dbl.step_fin this.symm
  have m1 : r' = cs'.toLocal (cs.toGlobal r) + (cs'.rot.tr.mulVec (cs.rot.mulVec v)).smulR x := by
    have : r'.fin = (cs'.toLocal (cs.toGlobal r) + (cs'.rot.tr.mulVec (cs.rot.mulVec v)).smulR x).fin := by
      rw [m1, V3.fin_smulR, V3.fin_add]
    exact V3.fin_inj.1 this
  refine ⟨gs.toLocal (cs.toGlobal r), x, ?_, ?_, m2⟩
  · rw [Polyline.drawn, List.getElem?_take_of_lt (by omega)]
    exact C92_position h (by omega) ho hcs hr hpos
  · rw [Polyline.drawn, List.getElem?_take_of_lt (by omega)]
    rw [C92_position h (by omega) ho' (by rw [hst, (C18_trace_frame_and_order d niter reverse _).1, hcs']) hr' hpos']
    rw [m1, ← toLocal_line, CoordSys.toGlobal_toLocal ho', toLocal_line]


/-! ### Concrete cases -/

/-- Three flats, at heights 2, 1 and 0. -/
noncomputable def demoStack : Optic Dbl :=
  demoComp "T" [.iface (demoFlat "C" 2), .iface (demoFlat "B" 1), .iface (demoFlat "A" 0)]

/-- A ray going down at height `z` above the origin of its frame. -/
noncomputable def fallingRay (z t : ℝ) (vignetted : Bool) : Ray Dbl :=
  { r := (⟨1, 2, z⟩ : V3 ℝ).fin, v := (⟨0, 0, -1⟩ : V3 ℝ).fin, t := .fin t, wavelength := .fin 1, flux := .fin 1,
    vignetted := vignetted, failed := false }

theorem falling_step (nm : String) (z0 z t y : ℝ) (vig : Bool) (reverse : Bool) :
    (demoFlat nm z).trace 5 reverse ⟨[fallingRay y t vig], (CoordSys.mk ⟨0, 0, z0⟩ M3.one).fin⟩
      = ⟨[fallingRay 0 (t + (y + z0 - z)) vig], (CoordSys.mk ⟨0, 0, z⟩ M3.one).fin⟩ := by
  have hf : (CoordTransform.make (CoordSys.mk ⟨0, 0, z0⟩ M3.one).fin (CoordSys.mk ⟨0, 0, z⟩ M3.one).fin).forward (⟨1, 2, y⟩ : V3 ℝ).fin
      = (⟨1, 2, y + z0 - z⟩ : V3 ℝ).fin := by
    rw [CoordTransform.forward_fin, CoordSys.forward_eq M3.orth_one, V3.fin_inj]
    ext <;> simp [CoordSys.toLocal, CoordSys.toGlobal, M3.one, M3.mulVec, M3.tr, V3.dot]
  have hv : (CoordTransform.make (CoordSys.mk ⟨0, 0, z0⟩ M3.one).fin (CoordSys.mk ⟨0, 0, z⟩ M3.one).fin).forwardVel (⟨0, 0, -1⟩ : V3 ℝ).fin
      = (⟨0, 0, -1⟩ : V3 ℝ).fin := by
    rw [CoordTransform.forwardVel_fin, CoordSys.forwardVel_eq, V3.fin_inj]
    ext <;> simp [M3.one, M3.mulVec, M3.tr, V3.dot]
  have hne : (-1 : ℝ) ≠ 0 := by norm_num
  simp only [Iface.trace, Iface.applyObscuration, interact_rays, demoFlat, demoMirror, Iface.onRay, List.map_cons, List.map_nil,
    Ray.intersect, fallingRay, hf, hv]
  simp [Surface.plane, Dbl.div_fin hne]
  have e : (z - (y + z0)) / -1 = y + z0 - z := by ring
  refine ⟨?_, e⟩
  rw [e]
  ext <;> simp [V3.smulR]

theorem falling_vertex (z0 y : ℝ) :
    (CoordTransform.make (CoordSys.mk ⟨0, 0, z0⟩ M3.one).fin (CoordSys.mk ⟨0, 0, 0⟩ M3.one).fin).forward (⟨1, 2, y⟩ : V3 ℝ).fin
      = (⟨1, 2, y + z0⟩ : V3 ℝ).fin := by
  rw [CoordTransform.forward_fin, CoordSys.forward_eq M3.orth_one, V3.fin_inj]
  ext <;> simp [CoordSys.toLocal, CoordSys.toGlobal, M3.one, M3.mulVec, M3.tr, V3.dot]

theorem falling_draw (vig : Bool) :
    getGlobalRays (demoStack.traceFull 5 false ⟨[fallingRay 4 0 vig], (CoordSys.mk ⟨0, 0, 0⟩ M3.one).fin⟩) none none
      (CoordSys.mk ⟨0, 0, 0⟩ M3.one).fin
    = .ok [⟨[(⟨1, 2, 4⟩ : V3 ℝ).fin, (⟨1, 2, 2⟩ : V3 ℝ).fin, (⟨1, 2, 1⟩ : V3 ℝ).fin, (⟨1, 2, 0⟩ : V3 ℝ).fin],
        if vig then 1 else 4⟩] := by
  have htf : demoStack.traceFull 5 false ⟨[fallingRay 4 0 vig], (CoordSys.mk ⟨0, 0, 0⟩ M3.one).fin⟩
      = [("C".toList, ⟨"C".toList, ⟨[fallingRay 4 0 vig], (CoordSys.mk ⟨0, 0, 0⟩ M3.one).fin⟩,
            ⟨[fallingRay 0 (0 + (4 + 0 - 2)) vig], (CoordSys.mk ⟨0, 0, 2⟩ M3.one).fin⟩⟩),
          ("B".toList, ⟨"B".toList, ⟨[fallingRay 0 (0 + (4 + 0 - 2)) vig], (CoordSys.mk ⟨0, 0, 2⟩ M3.one).fin⟩,
            ⟨[fallingRay 0 (0 + (4 + 0 - 2) + (0 + 2 - 1)) vig], (CoordSys.mk ⟨0, 0, 1⟩ M3.one).fin⟩⟩),
          ("A".toList, ⟨"A".toList, ⟨[fallingRay 0 (0 + (4 + 0 - 2) + (0 + 2 - 1)) vig], (CoordSys.mk ⟨0, 0, 1⟩ M3.one).fin⟩,
            ⟨[fallingRay 0 (0 + (4 + 0 - 2) + (0 + 2 - 1) + (0 + 1 - 0)) vig], (CoordSys.mk ⟨0, 0, 0⟩ M3.one).fin⟩⟩)] := by
    rw [full_history 5 demoStack _ (by simp [demoStack, demoComp, visits, visitsItems, Optic.skip, demoFlat, demoMirror]) rfl]
    have hv : visits demoStack = [demoFlat "C" 2, demoFlat "B" 1, demoFlat "A" 0] := by
      simp [demoStack, demoComp, visits, visitsItems, Optic.skip, demoFlat, demoMirror]
    rw [hv]
    simp only [history, falling_step]
    simp [demoFlat]
  rw [htf]
  simp only [getGlobalRays, defaultName, nameIndex, bind, Except.bind, List.map_cons, List.map_nil, List.head?_cons,
    List.getLast?_cons_cons, List.getLast?_singleton, List.idxOf?_cons]
  simp [globalRange, globalVertices, Dict.get?, addVertex, fallingRay, falling_vertex]
  cases vig <;> rfl

/-- A ray that falls through the three flats is drawn with four vertices. -/
example : ∃ line, getGlobalRays (demoStack.traceFull 5 false ⟨[fallingRay 4 0 false], (CoordSys.mk ⟨0, 0, 0⟩ M3.one).fin⟩) none none
      (CoordSys.mk ⟨0, 0, 0⟩ M3.one).fin = .ok [line] ∧
    line.drawn = [(⟨1, 2, 4⟩ : V3 ℝ).fin, (⟨1, 2, 2⟩ : V3 ℝ).fin, (⟨1, 2, 1⟩ : V3 ℝ).fin, (⟨1, 2, 0⟩ : V3 ℝ).fin] :=
  ⟨_, falling_draw false, rfl⟩

theorem demoStack_visits : visits demoStack = [demoFlat "C" 2, demoFlat "B" 1, demoFlat "A" 0] := by
  simp [demoStack, demoComp, visits, visitsItems, Optic.skip, demoFlat, demoMirror]

/-- The hypotheses of `C92_lines_partial` and `C92_straight` hold for the same ray between `C` and `B`. -/
example : ∃ (lines : List (Polyline Dbl)) (line : Polyline Dbl) (P : V3 ℝ) (dt : ℝ),
    getGlobalRays (demoStack.traceFull 5 false ⟨[fallingRay 4 0 false], (CoordSys.mk ⟨0, 0, 0⟩ M3.one).fin⟩)
      (some "C".toList) (some "B".toList) (CoordSys.mk ⟨0, 0, 0⟩ M3.one).fin = .ok lines ∧ lines[0]? = some line ∧
    line.drawn[1]? = some P.fin ∧ line.drawn[2]? = some (P + (⟨0, 0, -1⟩ : V3 ℝ).smulR dt).fin := by
  obtain ⟨lines, h1, h2, h3⟩ := C92_lines_partial 5 false demoStack ⟨[fallingRay 4 0 false], (CoordSys.mk ⟨0, 0, 0⟩ M3.one).fin⟩
    (CoordSys.mk ⟨0, 0, 0⟩ M3.one).fin (by rw [demoStack_visits]; simp [demoFlat]) rfl (a := 0) (b := 1) (by norm_num)
    (da := demoFlat "C" 2) (db := demoFlat "B" 1) (by simp [order, demoStack_visits]) (by simp [order, demoStack_visits])
  obtain ⟨line, hl⟩ : ∃ line, lines[0]? = some line := ⟨_, List.getElem?_eq_getElem (by rw [h2]; simp)⟩
  have hd := h3 0 line hl
  have s1 : stage 5 false demoStack ⟨[fallingRay 4 0 false], (CoordSys.mk ⟨0, 0, 0⟩ M3.one).fin⟩ 1
      = ⟨[fallingRay 0 (0 + (4 + 0 - 2)) false], (CoordSys.mk ⟨0, 0, 2⟩ M3.one).fin⟩ := by
    simp only [stage, stageOf, order, demoStack_visits, Bool.false_eq_true, if_false, List.take_succ_cons, List.take_zero,
      List.foldl_cons, List.foldl_nil, falling_step]
  have s2 : stage 5 false demoStack ⟨[fallingRay 4 0 false], (CoordSys.mk ⟨0, 0, 0⟩ M3.one).fin⟩ 2
      = ⟨[fallingRay 0 (0 + (4 + 0 - 2) + (0 + 2 - 1)) false], (CoordSys.mk ⟨0, 0, 1⟩ M3.one).fin⟩ := by
    simp only [stage, stageOf, order, demoStack_visits, Bool.false_eq_true, if_false, List.take_succ_cons, List.take_zero,
      List.foldl_cons, List.foldl_nil, falling_step]
  have hlen : 2 < line.raylen := by
    obtain ⟨ray, e1, -, e3⟩ := hd.vertex 2 (by norm_num)
    rw [show 0 + 2 = 2 from rfl, s2] at e1
    simp only [List.getElem?_cons_zero, Option.some.injEq] at e1
    subst e1
    exact (e3 (by norm_num)).2 rfl
  obtain ⟨P, dt, p1, p2, -⟩ := C92_straight (k := 1) hd (by
      intro ray hr hf
      simp only [List.mem_singleton] at hr
      subst hr
      simp [fallingRay] at hf) hlen (d := demoFlat "B" 1) (by simp [order, demoStack_visits])
    (cs := ⟨⟨0, 0, 2⟩, M3.one⟩) (cs' := ⟨⟨0, 0, 1⟩, M3.one⟩) M3.orth_one M3.orth_one
    (by rw [show 0 + 1 = 1 from rfl, s1]) rfl (ray := fallingRay 0 (0 + (4 + 0 - 2)) false) (r := ⟨1, 2, 0⟩) (v := ⟨0, 0, -1⟩) (r' := ⟨1, 2, 0⟩)
    (ray' := fallingRay 0 (0 + (4 + 0 - 2) + (0 + 2 - 1)) false)
    (by rw [show 0 + 1 = 1 from rfl, s1]; rfl) rfl rfl (by rw [show 0 + (1 + 1) = 2 from rfl, s2]; rfl) rfl
  refine ⟨lines, line, P, dt, h1, hl, p1, ?_⟩
  rw [p2]
  congr 3
  ext <;> simp [M3.one, M3.mulVec, M3.tr, V3.dot, V3.smulR]

/-- C92 fails for the first vertex: a ray that arrives vignetted has no visible vertex, but `raylen` is one and the vertex where it
enters is drawn. -/
theorem C92_entry_violated : ∃ (o : Optic Dbl) (rv : RayVec Dbl) (line : Polyline Dbl),
    (∀ ray ∈ rv.rays, ray.vignetted = true) ∧
    getGlobalRays (o.traceFull 5 false rv) none none (CoordSys.mk ⟨0, 0, 0⟩ M3.one).fin = .ok [line] ∧ line.raylen = 1 ∧
    line.drawn ≠ [] :=
  ⟨demoStack, ⟨[fallingRay 4 0 true], (CoordSys.mk ⟨0, 0, 0⟩ M3.one).fin⟩, _, by simp [fallingRay], falling_draw true, rfl,
    by simp [Polyline.drawn]⟩

end Batoid.Props
