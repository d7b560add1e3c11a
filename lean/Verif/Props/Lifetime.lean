import Verif.Lifetime

/-!
# Property C123: no pointer outlives what it points to

Whatever objects a program makes, keeps and forgets, in any order, the C++ code never follows a pointer into memory that python has released.
-/

namespace Batoid.Props
open Batoid.Lifetime

/-! ## Specification -/

/-- The memory that calls on the objects of the program may read: whatever references and pointers lead to. -/
inductive Touched (s : State) : ℕ → Prop
  | root {x} (h : x ∈ s.roots) : Touched s x
  | ref {x c y} (hx : Touched s x) (hc : s.heap x = some c) (h : y ∈ c.refs ∨ y ∈ c.cpp) : Touched s y
  | ptr {x c y} (hx : Touched s x) (hc : s.heap x = some c) (h : y ∈ c.points ∨ y ∈ c.blocks) : Touched s y

/-- None of it has been released. -/
def Safe (s : State) : Prop := ∀ x, Touched s x → (s.heap x).isSome

/-- The program does not assign attributes or elements that C++ objects depend on. -/
def Careful (s : State) : Op → Prop
  | .assign x _ => ∀ c, s.heap x = some c → c.kind ≠ .library
  | _ => True

/-- The states that a program of this kind gets to. -/
inductive Runs : State → Prop
  | start : Runs .empty
  | step {s} (op) (h : Runs s) (hc : Careful s op) : Runs (s.step op)

/-! ## Invariant -/

structure CellOk (c : Cell) : Prop where
  cpp : c.kind = .cpp → c.refs = [] ∧ c.cpp = []
  block : c.kind = .block → c.refs = [] ∧ c.cpp = []
  py : c.kind ≠ .cpp → c.points = [] ∧ c.blocks = []
  wrap : c.cpp ≠ [] ∨ c.lazy = true → c.kind = .library ∨ c.kind = .frozen

def PyCell (s : State) (x : ℕ) : Prop := ∃ c, s.heap x = some c ∧ c.kind ≠ .cpp ∧ c.kind ≠ .block

/-- Kept by `x` whatever the program does to its own objects. -/
inductive Kept (s : State) : ℕ → ℕ → Prop
  | here {x} : Kept s x x
  | next {x c y z} (hc : s.heap x = some c) (hk : c.kind ≠ .program) (h : y ∈ c.refs ∨ y ∈ c.cpp) (hz : Kept s y z) : Kept s x z

/-- A C++ object of `x`, all of whose pointers lead to what `x` keeps. -/
def Part (s : State) (x y : ℕ) : Prop := ∃ c, s.heap y = some c ∧ c.kind = .cpp ∧ ∀ p ∈ c.points, Kept s x p

structure HeapInv (s : State) : Prop where
  fresh : ∀ x, s.next ≤ x → s.heap x = none
  ok : ∀ x c, s.heap x = some c → CellOk c
  roots : ∀ x ∈ s.roots, PyCell s x
  refs : ∀ x c, Held s x → s.heap x = some c → ∀ y ∈ c.refs, PyCell s y
  cpps : ∀ x c, Held s x → s.heap x = some c → ∀ y ∈ c.cpp, Part s x y
  blocks : ∀ x c, s.heap x = some c → ∀ b ∈ c.blocks, ∃ cb, s.heap b = some cb ∧ cb.kind = .block
  apart : ∀ x c y d b, s.heap x = some c → s.heap y = some d → b ∈ c.blocks → b ∈ d.blocks → x = y

theorem HeapInv.held {s : State} (h : HeapInv s) {x : ℕ} (hx : Held s x) : ∃ c, s.heap x = some c ∧ c.kind ≠ .block := by
  cases hx with
  | root hr => obtain ⟨c, h1, -, h3⟩ := h.roots x hr; exact ⟨c, h1, h3⟩
  | ref ha hc hm =>
    rcases hm with hm | hm
    · obtain ⟨c, h1, -, h3⟩ := h.refs _ _ ha hc _ hm; exact ⟨c, h1, h3⟩
    · obtain ⟨c, h1, h2, -⟩ := h.cpps _ _ ha hc _ hm; exact ⟨c, h1, by rw [h2]; decide⟩

theorem HeapInv.owner {s : State} (h : HeapInv s) {x : ℕ} {c : Cell} (hx : Held s x) (hc : s.heap x = some c) (hk : c.kind = .cpp) :
    ∃ w cw, Held s w ∧ s.heap w = some cw ∧ x ∈ cw.cpp := by
  cases hx with
  | root hr => obtain ⟨c', h1, h2, -⟩ := h.roots x hr; rw [hc] at h1; cases h1; exact absurd hk h2
  | ref ha hca hm =>
    rcases hm with hm | hm
    · obtain ⟨c', h1, h2, -⟩ := h.refs _ _ ha hca _ hm; rw [hc] at h1; cases h1; exact absurd hk h2
    · exact ⟨_, _, ha, hca, hm⟩

theorem Kept.held {s : State} {x y : ℕ} (h : Kept s x y) : Held s x → Held s y := by
  induction h with
  | here => exact id
  | next hc _ hm _ ih => exact fun hx => ih (.ref hx hc hm)

theorem HeapInv.lt {s : State} (h : HeapInv s) {x : ℕ} {c : Cell} (hc : s.heap x = some c) : x < s.next := by
  by_contra hn
  rw [h.fresh x (by omega)] at hc
  cases hc

/-- The invariant is enough. -/
theorem HeapInv.safe {s : State} (h : HeapInv s) : Safe s := by
  have key : ∀ x, Touched s x → Held s x ∨ ∃ c, s.heap x = some c ∧ c.kind = .block := by
    intro x hx
    induction hx with
    | root hr => exact Or.inl (.root hr)
    | @ref x c y _ hc hm ih =>
      rcases ih with ih | ⟨c', h1, h2⟩
      · exact Or.inl (.ref ih hc hm)
      · rw [hc] at h1; cases h1
        obtain ⟨e1, e2⟩ := (h.ok _ _ hc).block h2
        simp [e1, e2] at hm
    | @ptr x c y _ hc hm ih =>
      by_cases hk : c.kind = .cpp
      · rcases ih with ih | ⟨c', h1, h2⟩
        · obtain ⟨w, cw, hw, hcw, hin⟩ := h.owner ih hc hk
          obtain ⟨c', h1, -, h3⟩ := h.cpps _ _ hw hcw _ hin
          rw [hc] at h1; cases h1
          rcases hm with hm | hm
          · exact Or.inl ((h3 _ hm).held hw)
          · exact Or.inr (h.blocks _ _ hc _ hm)
        · rw [hc] at h1; cases h1; rw [hk] at h2; cases h2
      · obtain ⟨e1, e2⟩ := (h.ok _ _ hc).py hk
        simp [e1, e2] at hm
  intro x hx
  rcases key x hx with hx | ⟨c, hc, -⟩
  · obtain ⟨c, hc, -⟩ := h.held hx; simp [hc]
  · simp [hc]

/-! ## Steps keep the invariant -/

theorem heap_new {s : State} {c : Cell} {x : ℕ} (h : x ≠ s.next) : Function.update s.heap s.next (some c) x = s.heap x := Function.update_of_ne h _ _

theorem PyCell.grow {s s' : State} (h : ∀ x c, s.heap x = some c → s'.heap x = some c) {x : ℕ} (hx : PyCell s x) : PyCell s' x := by
  obtain ⟨c, h1, h2⟩ := hx; exact ⟨c, h _ _ h1, h2⟩

theorem Kept.grow {s s' : State} (h : ∀ x c, s.heap x = some c → s'.heap x = some c) {x y : ℕ} (hx : Kept s x y) : Kept s' x y := by
  induction hx with
  | here => exact .here
  | next hc hk hm _ ih => exact .next (h _ _ hc) hk hm ih

theorem Part.grow {s s' : State} (h : ∀ x c, s.heap x = some c → s'.heap x = some c) {x y : ℕ} (hx : Part s x y) : Part s' x y := by
  obtain ⟨c, h1, h2, h3⟩ := hx; exact ⟨c, h _ _ h1, h2, fun p hp => (h3 p hp).grow h⟩

theorem HeapInv.grows {s : State} (h : HeapInv s) (c : Cell) : ∀ x d, s.heap x = some d → Function.update s.heap s.next (some c) x = some d := by
  intro x d hd
  rw [heap_new (Nat.ne_of_lt (h.lt hd)), hd]

/-- The blocks of a new cell are blocks of no other cell. -/
structure NewBlocks (s : State) (c : Cell) : Prop where
  isBlock : ∀ b ∈ c.blocks, ∃ cb, s.heap b = some cb ∧ cb.kind = .block
  free : ∀ b ∈ c.blocks, ∀ x d, s.heap x = some d → b ∉ d.blocks

theorem NewBlocks.nil {s : State} {c : Cell} (h : c.blocks = []) : NewBlocks s c := ⟨by simp [h], by simp [h]⟩

theorem inv_alloc {s : State} (h : HeapInv s) {c : Cell} (hc : CellOk c) (hb : NewBlocks s c) : HeapInv (s.alloc c) := by
  have hg := h.grows c
  have hheld : ∀ x, Held (s.alloc c) x → Held s x := by
    intro x hx
    induction hx with
    | root hr => exact .root hr
    | @ref x d y _ hd hm ih =>
      obtain ⟨d', hd', -⟩ := h.held ih
      have : d = d' := by
        have := hg _ _ hd'
        exact Option.some.inj (hd.symm.trans this)
      exact .ref ih (this ▸ hd') hm
  have hold : ∀ {x d}, Held (s.alloc c) x → (s.alloc c).heap x = some d → s.heap x = some d := by
    intro x d hx hd
    obtain ⟨d', hd', -⟩ := h.held (hheld x hx)
    rw [hd', Option.some.inj (hd.symm.trans (hg _ _ hd'))]
  have hcase : ∀ {x d}, (s.alloc c).heap x = some d → (x = s.next ∧ d = c) ∨ s.heap x = some d := by
    intro x d hd
    by_cases hx : x = s.next
    · subst hx
      simp [State.alloc] at hd
      exact Or.inl ⟨rfl, hd.symm⟩
    · exact Or.inr (by simpa [State.alloc, heap_new hx] using hd)
  refine ⟨?_, ?_, ?_, ?_, ?_, ?_, ?_⟩
  · intro x hx
    have hx' : s.next + 1 ≤ x := hx
    show Function.update s.heap s.next (some c) x = none
    rw [heap_new (by omega), h.fresh x (by omega)]
  · intro x d hd
    rcases hcase hd with ⟨-, rfl⟩ | hd
    · exact hc
    · exact h.ok _ _ hd
  · exact fun x hx => (h.roots x hx).grow hg
  · exact fun x d hx hd y hy => (h.refs x d (hheld x hx) (hold hx hd) y hy).grow hg
  · exact fun x d hx hd y hy => (h.cpps x d (hheld x hx) (hold hx hd) y hy).grow hg
  · intro x d hd b hbm
    rcases hcase hd with ⟨-, rfl⟩ | hd
    · obtain ⟨cb, h1, h2⟩ := hb.isBlock b hbm; exact ⟨cb, hg _ _ h1, h2⟩
    · obtain ⟨cb, h1, h2⟩ := h.blocks _ _ hd b hbm; exact ⟨cb, hg _ _ h1, h2⟩
  · intro x d y e b hd he hbd hbe
    rcases hcase hd with ⟨rfl, rfl⟩ | hd <;> rcases hcase he with ⟨rfl, rfl⟩ | he
    · rfl
    · exact absurd hbe (hb.free b hbd _ _ he)
    · exact absurd hbd (hb.free b hbe _ _ (by assumption))
    · exact h.apart _ _ _ _ _ hd he hbd hbe

theorem inv_make {s : State} (h : HeapInv s) {c : Cell} (hc : CellOk c) (hpy : c.kind ≠ .cpp ∧ c.kind ≠ .block) (hrefs : ∀ y ∈ c.refs, y ∈ s.roots)
    (hcpp : ∀ y ∈ c.cpp, Part (s.make c) s.next y) : HeapInv (s.make c) := by
  have h0 : HeapInv (s.alloc c) := inv_alloc h hc (.nil (hc.py hpy.1).2)
  have hg := h.grows c
  have hnew : (s.make c).heap s.next = some c := by simp [State.make]
  have hsame : (s.make c).heap = (s.alloc c).heap := rfl
  have hkept : ∀ {x y}, Kept (s.alloc c) x y → Kept (s.make c) x y := fun hk => Kept.grow (s := s.alloc c) (s' := s.make c) (fun _ _ hd => hd) hk
  have hheld : ∀ x, Held (s.make c) x → Held (s.alloc c) x ∨ x = s.next ∨ x ∈ c.cpp := by
    intro x hx
    induction hx with
    | root hr =>
      rcases List.mem_cons.1 hr with rfl | hr
      · exact Or.inr (Or.inl rfl)
      · exact Or.inl (.root hr)
    | @ref x d y _ hd hm ih =>
      rcases ih with ih | rfl | ih
      · exact Or.inl (.ref ih hd hm)
      · rw [hnew] at hd; cases hd
        rcases hm with hm | hm
        · exact Or.inl (.root (hrefs _ hm))
        · exact Or.inr (Or.inr hm)
      · obtain ⟨d', h1, h2, -⟩ := hcpp _ ih
        rw [hd] at h1; cases h1
        obtain ⟨e1, e2⟩ := (h0.ok _ _ hd).cpp h2
        simp [e1, e2] at hm
  refine ⟨h0.fresh, h0.ok, ?_, ?_, ?_, h0.blocks, h0.apart⟩
  · intro x hx
    rcases List.mem_cons.1 hx with rfl | hx
    · exact ⟨c, hnew, hpy⟩
    · exact h0.roots x hx
  · intro x d hx hd y hy
    rcases hheld x hx with hx | rfl | hx
    · exact h0.refs x d hx hd y hy
    · rw [hnew] at hd; cases hd
      exact h0.roots y (hrefs y hy)
    · obtain ⟨d', h1, h2, -⟩ := hcpp _ hx
      rw [hd] at h1; cases h1
      rw [((h0.ok _ _ hd).cpp h2).1] at hy; cases hy
  · intro x d hx hd y hy
    rcases hheld x hx with hx | rfl | hx
    · obtain ⟨e, h1, h2, h3⟩ := h0.cpps x d hx hd y hy
      exact ⟨e, h1, h2, fun p hp => hkept (h3 p hp)⟩
    · rw [hnew] at hd; cases hd
      exact hcpp y hy
    · obtain ⟨d', h1, h2, -⟩ := hcpp _ hx
      rw [hd] at h1; cases h1
      rw [((h0.ok _ _ hd).cpp h2).2] at hy; cases hy

/-- Fewer variables, or variables for what is kept anyway. -/
theorem inv_roots {s : State} (h : HeapInv s) {l : List ℕ} (hl : ∀ x ∈ l, Held s x ∧ PyCell s x) : HeapInv { s with roots := l } := by
  have hheld : ∀ x, Held { s with roots := l } x → Held s x := by
    intro x hx
    induction hx with
    | root hr => exact (hl _ hr).1
    | ref _ hc hm ih => exact .ref ih hc hm
  have hkept : ∀ {x y}, Kept s x y → Kept { s with roots := l } x y := fun hk => Kept.grow (s := s) (s' := { s with roots := l }) (fun _ _ hd => hd) hk
  refine ⟨h.fresh, h.ok, fun x hx => (hl x hx).2, fun x c hx => h.refs x c (hheld x hx), fun x c hx hc y hy => ?_, h.blocks, h.apart⟩
  obtain ⟨e, h1, h2, h3⟩ := h.cpps x c (hheld x hx) hc y hy
  exact ⟨e, h1, h2, fun p hp => hkept (h3 p hp)⟩

theorem inv_fewer {s : State} (h : HeapInv s) {l : List ℕ} (hl : ∀ x ∈ l, x ∈ s.roots) : HeapInv { s with roots := l } :=
  inv_roots h fun x hx => ⟨.root (hl x hx), h.roots x (hl x hx)⟩

theorem ok_py {k : Kind} (hk : k ≠ .cpp) (hk' : k ≠ .block) (refs : List ℕ) : CellOk { kind := k, refs := refs } :=
  ⟨fun h => absurd h hk, fun h => absurd h hk', fun _ => ⟨rfl, rfl⟩, fun h => by simp at h⟩

theorem ok_wrap {k : Kind} (hk : k = .library ∨ k = .frozen) (refs cpp : List ℕ) (lazy : Bool) : CellOk { kind := k, refs := refs, cpp := cpp, lazy := lazy } := by
  rcases hk with rfl | rfl <;> exact ⟨fun h => by simp at h, fun h => by simp at h, fun _ => ⟨rfl, rfl⟩, fun _ => by simp⟩

theorem ok_cpp (points blocks : List ℕ) (d : Bool) : CellOk { kind := .cpp, points := points, blocks := blocks, deletes := d } :=
  ⟨fun _ => ⟨rfl, rfl⟩, fun h => by simp at h, fun h => absurd rfl h, fun h => by simp at h⟩

theorem ok_block : CellOk { kind := .block } := ⟨fun h => by simp at h, fun _ => ⟨rfl, rfl⟩, fun _ => ⟨rfl, rfl⟩, fun h => by simp at h⟩

/-- What `arrays` does. -/
structure Arrays (s s' : State) (a : List ℕ) : Prop where
  inv : HeapInv s'
  roots : ∀ x ∈ s.roots, x ∈ s'.roots
  mem : ∀ x ∈ a, x ∈ s'.roots
  noBlocks : ∀ x c, s'.heap x = some c → s.heap x = some c ∨ (c.kind ≠ .block ∧ c.kind ≠ .cpp)
  heap : ∀ x c, s.heap x = some c → s'.heap x = some c

theorem arrays_ok {s : State} (h : HeapInv s) (g : List (Option ℕ)) (hg : ∀ x ∈ g.filterMap id, x ∈ s.roots) : Arrays s (s.arrays g).1 (s.arrays g).2 := by
  induction g generalizing s with
  | nil => exact ⟨h, fun _ h => h, by simp [State.arrays], fun _ _ h => Or.inl h, fun _ _ h => h⟩
  | cons o g ih =>
    cases o with
    | none =>
      have h1 : HeapInv (s.make {}) := inv_make h (ok_py (by decide) (by decide) []) (by decide) (by simp) (by simp)
      obtain ⟨i1, i2, i3, i4, i5⟩ := ih h1 fun x hx => List.mem_cons_of_mem _ (hg x (by simpa using hx))
      refine ⟨i1, fun x hx => i2 x (List.mem_cons_of_mem _ hx), ?_, ?_, fun x c hc => i5 x c (h.grows _ x c hc)⟩
      · intro x hx
        rcases List.mem_cons.1 hx with rfl | hx
        · exact i2 _ (List.mem_cons_self ..)
        · exact i3 x hx
      · intro x c hc
        rcases i4 x c hc with h4 | h4
        · by_cases hx : x = s.next
          · subst hx
            simp only [State.make, Function.update_self, Option.some.injEq] at h4
            subst h4
            exact Or.inr (by decide)
          · exact Or.inl (by simpa [State.make, heap_new hx] using h4)
        · exact Or.inr h4
    | some y =>
      have hg' : ∀ x ∈ g.filterMap id, x ∈ s.roots := fun x hx => hg x (by simpa using Or.inr hx)
      obtain ⟨i1, i2, i3, i4, i5⟩ := ih h hg'
      refine ⟨i1, i2, ?_, i4, i5⟩
      intro x hx
      rcases List.mem_cons.1 hx with rfl | hx
      · exact i2 _ (hg _ (by simp))
      · exact i3 x hx

theorem result_ok {s : State} {c : Cell} (hm : HeapInv (s.make c)) {old : List ℕ} (hold : ∀ x ∈ old, x ∈ s.roots) :
    HeapInv ((s.make c).result old) := by
  refine inv_fewer hm fun x hx => ?_
  rcases List.mem_cons.1 hx with rfl | hx
  · simp [State.make]
  · exact List.mem_cons_of_mem _ (hold x hx)

/-- A pointer to what the object refers to itself. -/
theorem kept_ref {s : State} {c : Cell} (hk : c.kind ≠ .program) {y : ℕ} (h : y ∈ c.refs ∨ y ∈ c.cpp) : Kept (s.make c) s.next y :=
  .next (c := c) (by simp [State.make]) hk h .here

/-- A cell made by the last `alloc`. -/
theorem heap_alloc (s : State) (c : Cell) : (s.alloc c).heap s.next = some c := by simp [State.alloc]

theorem heap_made (s : State) (c : Cell) : (s.make c).heap s.next = some c := by simp [State.make]

theorem heap_make_old {s : State} (h : HeapInv s) {d : Cell} {x : ℕ} {c : Cell} (hx : s.heap x = some c) : (s.make d).heap x = some c := h.grows d x c hx

theorem heap_alloc_old {s : State} (h : HeapInv s) {d : Cell} {x : ℕ} {c : Cell} (hx : s.heap x = some c) : (s.alloc d).heap x = some c := h.grows d x c hx

theorem heap_empty : HeapInv .empty := by
  refine ⟨fun _ _ => rfl, ?_, ?_, ?_, ?_, ?_, ?_⟩ <;> simp [State.empty]

theorem inv_simple {s : State} (h : HeapInv s) : HeapInv s.simple := by
  have h1 : HeapInv (s.alloc { kind := .cpp }) := inv_alloc h (ok_cpp [] [] false) (.nil rfl)
  refine result_ok (inv_make h1 (ok_wrap (Or.inl rfl) _ _ _) (by simp) (by simp) ?_) fun _ hx => hx
  intro y hy
  obtain rfl : y = s.next := by simpa using hy
  exact ⟨_, heap_make_old h1 (heap_alloc _ _), rfl, by simp⟩

theorem inv_pair {s : State} (h : HeapInv s) (x y : Option ℕ) (hg : ∀ z ∈ x.toList ++ y.toList, z ∈ s.roots) : HeapInv (s.pair x y) := by
  obtain ⟨i1, i2, i3, -, -⟩ := arrays_ok h [x, y] (by intro z hz; apply hg; cases x <;> cases y <;> simp_all)
  unfold State.pair
  generalize s.arrays [x, y] = r at *
  obtain ⟨s1, a⟩ := r
  have h1 : HeapInv (s1.alloc { kind := .cpp, points := a }) := inv_alloc i1 (ok_cpp _ [] false) (.nil rfl)
  refine result_ok (inv_make h1 (ok_wrap (Or.inl rfl) _ _ _) (by simp) i3 ?_) i2
  intro z hz
  obtain rfl : z = s1.next := by simpa using hz
  exact ⟨_, heap_make_old h1 (heap_alloc _ _), rfl, fun p hp => kept_ref (by simp) (Or.inl hp)⟩

theorem new_block {s : State} (h : HeapInv s) (points : List ℕ) (d : Bool) :
    NewBlocks (s.alloc { kind := .block }) { kind := .cpp, points := points, blocks := [s.next], deletes := d } := by
  refine ⟨?_, ?_⟩
  · intro b hb
    obtain rfl : b = s.next := by simpa using hb
    exact ⟨_, heap_alloc _ _, rfl⟩
  · intro b hb x c hc hbc
    obtain rfl : b = s.next := by simpa using hb
    by_cases hx : x = s.next
    · subst hx
      rw [heap_alloc] at hc; cases hc; simp at hbc
    · have hc' : s.heap x = some c := by simpa [State.alloc, heap_new hx] using hc
      obtain ⟨cb, hcb, -⟩ := h.blocks _ _ hc' _ hbc
      exact absurd (h.lt hcb) (Nat.lt_irrefl _)

theorem inv_asphere {s : State} (h : HeapInv s) (coefs : ℕ) (p : Option ℕ) (hg : ∀ z ∈ coefs :: p.toList, z ∈ s.roots) : HeapInv (s.asphere coefs p) := by
  obtain ⟨i1, i2, i3, -, -⟩ := arrays_ok h [p] (by intro z hz; apply hg; cases p <;> simp_all)
  unfold State.asphere
  generalize s.arrays [p] = r at *
  obtain ⟨s1, a⟩ := r
  have h1 : HeapInv (s1.alloc { kind := .block }) := inv_alloc i1 ok_block (.nil rfl)
  have h2 := inv_alloc h1 (ok_cpp a [s1.next] true) (new_block i1 a true)
  refine result_ok (inv_make h2 (ok_wrap (Or.inl rfl) _ _ _) (by simp) ?_ ?_) i2
  · intro z hz
    rcases List.mem_cons.1 hz with rfl | hz
    · exact i2 _ (hg _ (List.mem_cons_self ..))
    · exact i3 z hz
  · intro z hz
    obtain rfl : z = (s1.alloc { kind := .block }).next := by simpa using hz
    exact ⟨_, heap_make_old h2 (heap_alloc _ _), rfl, fun q hq => kept_ref (by simp) (Or.inl (List.mem_cons_of_mem _ hq))⟩

theorem inv_zernike {s : State} (h : HeapInv s) : HeapInv s.zernike := by
  obtain ⟨i1, i2, i3, -, -⟩ := arrays_ok h [none, none, none, none] (by simp)
  unfold State.zernike
  generalize s.arrays [none, none, none, none] = r at *
  obtain ⟨s1, a⟩ := r
  have h1 : HeapInv (s1.make { kind := .program, refs := a }) := inv_make i1 (ok_py (by simp) (by simp) _) (by simp) i3 (by simp)
  have h2 := inv_alloc h1 (ok_cpp a.tail [] false) (.nil rfl)
  refine result_ok (inv_make h2 (ok_wrap (Or.inl rfl) _ _ _) (by simp) ?_ ?_) fun x hx => List.mem_cons_of_mem _ (i2 x hx)
  · intro z hz
    rcases List.mem_cons.1 hz with rfl | hz
    · exact List.mem_cons_self ..
    · exact List.mem_cons_of_mem _ (i3 z hz)
  · intro z hz
    obtain rfl : z = (s1.make { kind := .program, refs := a }).next := by simpa using hz
    exact ⟨_, heap_make_old h2 (heap_alloc _ _), rfl, fun q hq => kept_ref (by simp) (Or.inl (List.mem_cons_of_mem _ (List.mem_of_mem_tail hq)))⟩

theorem inv_bicubic {s : State} (h : HeapInv s) (g : List (Option ℕ)) (hg : ∀ z ∈ g.filterMap id, z ∈ s.roots) : HeapInv (s.bicubic g) := by
  obtain ⟨i1, i2, i3, -, -⟩ := arrays_ok h g hg
  unfold State.bicubic
  generalize s.arrays g = r at *
  obtain ⟨s1, a⟩ := r
  have h1 := inv_alloc i1 (ok_cpp (a.drop 2) [] false) (.nil rfl)
  have h2 := inv_alloc h1 (ok_cpp [s1.next] [] false) (.nil rfl)
  refine result_ok (inv_make h2 (ok_wrap (Or.inl rfl) _ _ _) (by simp) i3 ?_) i2
  intro z hz
  simp only [List.mem_cons, List.not_mem_nil, or_false] at hz
  rcases hz with rfl | rfl
  · refine ⟨_, heap_make_old h2 (heap_alloc _ _), rfl, fun q hq => kept_ref (by simp) (Or.inr ?_)⟩
    simp at hq; simp [hq]
  · exact ⟨_, heap_make_old h2 (heap_alloc_old h1 (heap_alloc _ _)), rfl, fun q hq => kept_ref (by simp) (Or.inl (List.mem_of_mem_drop hq))⟩

theorem mapM_mem {f : ℕ → Option ℕ} {l cs : List ℕ} (h : l.mapM f = some cs) {y : ℕ} (hy : y ∈ cs) : ∃ x ∈ l, f x = some y := by
  induction l generalizing cs with
  | nil => simp at h; subst h; cases hy
  | cons a l ih =>
    simp only [List.mapM_cons, Option.bind_eq_bind, Option.pure_def, Option.bind_eq_some_iff] at h
    obtain ⟨b, hb, bs, hbs, h⟩ := h
    cases h
    rcases List.mem_cons.1 hy with rfl | hy
    · exact ⟨a, List.mem_cons_self .., hb⟩
    · obtain ⟨x, hx, hf⟩ := ih hbs hy
      exact ⟨x, List.mem_cons_of_mem _ hx, hf⟩

theorem cppOf_some {s : State} {x y : ℕ} (h : s.cppOf x = some y) : ∃ c, s.heap x = some c ∧ y ∈ c.cpp := by
  unfold State.cppOf at h
  obtain ⟨c, hc, hy⟩ := Option.bind_eq_some_iff.1 h
  exact ⟨c, hc, List.mem_of_head? hy⟩

theorem inv_several {s : State} (h : HeapInv s) {k : Kind} (hk : k = .library ∨ k = .frozen) (l : List ℕ) (hl : ∀ z ∈ l, z ∈ s.roots) : HeapInv (s.several k l) := by
  unfold State.several
  split
  · exact h
  · rename_i cs hcs
    have hk' : k ≠ .cpp ∧ k ≠ .block ∧ k ≠ .program := by rcases hk with rfl | rfl <;> decide
    have h1 : HeapInv (s.make { kind := k, refs := l }) := inv_make h (ok_py hk'.1 hk'.2.1 _) ⟨hk'.1, hk'.2.1⟩ hl (by simp)
    have h2 : HeapInv ((s.make { kind := k, refs := l }).alloc { kind := .block }) := inv_alloc h1 ok_block (.nil rfl)
    have h3 := inv_alloc h2 (ok_cpp cs [(s.make { kind := k, refs := l }).next] false) (new_block h1 cs false)
    refine result_ok (inv_make h3 (ok_wrap (Or.inl rfl) _ _ _) (by simp) ?_ ?_) fun x hx => List.mem_cons_of_mem _ hx
    · intro z hz
      obtain rfl : z = s.next := by simpa using hz
      exact List.mem_cons_self ..
    · intro z hz
      obtain rfl : z = ((s.make { kind := k, refs := l }).alloc { kind := .block }).next := by simpa using hz
      refine ⟨_, heap_make_old h3 (heap_alloc _ _), rfl, fun q hq => ?_⟩
      obtain ⟨x, hx, hf⟩ := mapM_mem hcs hq
      obtain ⟨c, hc, hqc⟩ := cppOf_some hf
      have hold : ∀ y d, (s.make { kind := k, refs := l }).heap y = some d → ∀ c', ((((s.make { kind := k, refs := l }).alloc { kind := .block }).alloc
          { kind := .cpp, points := cs, blocks := [(s.make { kind := k, refs := l }).next] }).make c').heap y = some d := fun y d hd c' =>
        heap_make_old h3 (heap_alloc_old h2 (heap_alloc_old h1 hd))
      refine .next (heap_made _ _) (by simp) (Or.inl (List.mem_cons_self ..)) ?_
      refine .next (c := { kind := k, refs := l }) (hold _ _ (heap_made _ _) _) hk'.2.2 (Or.inl hx) ?_
      have hw : c.kind ≠ .program := by
        rcases (h.ok _ _ hc).wrap (Or.inl (List.ne_nil_of_mem hqc)) with e | e <;> rw [e] <;> decide
      exact .next (hold _ _ (heap_make_old h hc) _) hw (Or.inr hqc) .here

theorem inv_negation {s : State} (h : HeapInv s) (x : ℕ) (hx : x ∈ s.roots) : HeapInv (s.negation x) := by
  unfold State.negation
  split
  · exact h
  · rename_i c hc
    obtain ⟨cx, hcx, hin⟩ := cppOf_some hc
    have h1 := inv_alloc h (ok_cpp [c] [] false) (.nil rfl)
    refine result_ok (inv_make h1 (ok_wrap (Or.inl rfl) _ _ _) (by simp) (fun y hy => (List.mem_singleton.1 hy) ▸ hx) ?_) fun _ hx => hx
    intro z hz
    obtain rfl : z = s.next := by simpa using hz
    refine ⟨_, heap_make_old h1 (heap_alloc _ _), rfl, fun q hq => ?_⟩
    obtain rfl : q = c := by simpa using hq
    refine .next (heap_made _ _) (by simp) (Or.inl (List.mem_cons_self ..)) ?_
    have hw : cx.kind ≠ .program := by
      rcases (h.ok _ _ hcx).wrap (Or.inl (List.ne_nil_of_mem hin)) with e | e <;> rw [e] <;> decide
    exact .next (heap_make_old h1 (heap_alloc_old h hcx)) hw (Or.inr hin) .here

theorem inv_rays {s : State} (h : HeapInv s) (g : List (Option ℕ)) (hg : ∀ z ∈ g.filterMap id, z ∈ s.roots) : HeapInv (s.rays g) := by
  obtain ⟨i1, i2, i3, -, -⟩ := arrays_ok h g hg
  unfold State.rays
  generalize s.arrays g = r at *
  obtain ⟨s1, a⟩ := r
  exact result_ok (inv_make i1 (ok_wrap (Or.inr rfl) _ _ _) (by simp) i3 (by simp)) i2

theorem inv_useRays {s : State} (h : HeapInv s) (x : ℕ) (hx : x ∈ s.roots) : HeapInv (s.useRays x) := by
  unfold State.useRays
  split
  · exact h
  rename_i c hc
  split_ifs with hl
  swap
  · exact h
  obtain ⟨hl, hcpp⟩ := hl
  have h1 := inv_alloc h (ok_cpp c.refs [] false) (.nil rfl)
  have hxn : x ≠ s.next := Nat.ne_of_lt (h.lt hc)
  have hcx : (s.alloc { kind := .cpp, points := c.refs }).heap x = some c := heap_alloc_old h hc
  have hwrap := (h.ok _ _ hc).wrap (Or.inr hl)
  have hprog : c.kind ≠ .program := by rcases hwrap with e | e <;> rw [e] <;> decide
  have hkc : c.kind ≠ .cpp ∧ c.kind ≠ .block := by rcases hwrap with e | e <;> rw [e] <;> decide
  generalize hs1 : s.alloc { kind := .cpp, points := c.refs } = s1 at *
  have hnx : s1.heap s.next = some { kind := .cpp, points := c.refs } := by rw [← hs1]; exact heap_alloc _ _
  have hroots : s1.roots = s.roots := by rw [← hs1]; rfl
  have hnext : s1.next = s.next + 1 := by rw [← hs1]; rfl
  have e : (⟨Function.update (Function.update s.heap s.next (some { kind := .cpp, points := c.refs })) x (some { c with cpp := [s.next] }), s.next + 1, s.roots⟩ : State)
      = ⟨Function.update s1.heap x (some { c with cpp := [s.next] }), s1.next, s1.roots⟩ := by rw [← hs1]; rfl
  rw [e]
  generalize hs2 : (⟨Function.update s1.heap x (some { c with cpp := [s.next] }), s1.next, s1.roots⟩ : State) = s2
  have hr2 : s2.roots = s1.roots := by rw [← hs2]
  have hx2 : s2.heap x = some { c with cpp := [s.next] } := by rw [← hs2]; simp
  have ho : ∀ y, y ≠ x → s2.heap y = s1.heap y := by intro y hy; rw [← hs2]; simp [hy]
  have hcase : ∀ y d, s2.heap y = some d → (y = x ∧ d = { c with cpp := [s.next] }) ∨ (y ≠ x ∧ s1.heap y = some d) := by
    intro y d hd
    by_cases hy : y = x
    · subst hy; rw [hx2] at hd; cases hd; exact Or.inl ⟨rfl, rfl⟩
    · exact Or.inr ⟨hy, by rw [← ho y hy]; exact hd⟩
  have hxr : Held s1 x := .root (by rw [hroots]; exact hx)
  have hheld : ∀ y, Held s2 y → Held s1 y ∨ y = s.next := by
    intro y hy
    induction hy with
    | root hr => exact Or.inl (.root (hr2 ▸ hr))
    | @ref y d z _ hd hm ih =>
      rcases hcase y d hd with ⟨rfl, rfl⟩ | ⟨hyx, hd1⟩
      · rcases hm with hm | hm
        · exact Or.inl (.ref hxr hcx (Or.inl hm))
        · exact Or.inr (by simpa using hm)
      · rcases ih with ih | rfl
        · exact Or.inl (.ref ih hd1 hm)
        · rw [hnx] at hd1; cases hd1; simp at hm
  have hplain : ∀ y, PyCell s1 y → PyCell s2 y := by
    rintro y ⟨d, hd, hk⟩
    by_cases hy : y = x
    · subst hy; rw [hcx] at hd; cases hd; exact ⟨_, hx2, hkc⟩
    · exact ⟨d, by rw [ho y hy]; exact hd, hk⟩
  have hkept : ∀ {y z}, Kept s1 y z → Kept s2 y z := by
    intro y z hk
    induction hk with
    | here => exact .here
    | @next y d z w hd hkd hm _ ih =>
      by_cases hy : y = x
      · subst hy; rw [hcx] at hd; cases hd
        rw [hcpp] at hm
        exact .next hx2 hkd (Or.inl (by simpa using hm)) ih
      · exact .next (by rw [ho y hy]; exact hd) hkd hm ih
  refine ⟨?_, ?_, ?_, ?_, ?_, ?_, ?_⟩
  · intro y hy
    have hy' : s1.next ≤ y := by rw [← hs2] at hy; exact hy
    have : y ≠ x := by have := h1.lt hcx; omega
    rw [ho y this, h1.fresh y hy']
  · intro y d hd
    rcases hcase y d hd with ⟨rfl, rfl⟩ | ⟨-, hd⟩
    · have := h.ok _ _ hc
      exact ⟨fun e => absurd e hkc.1, fun e => absurd e hkc.2, this.py, fun _ => hwrap⟩
    · exact h1.ok _ _ hd
  · intro y hy
    exact hplain y (h1.roots y (hr2 ▸ hy))
  · intro y d hy hd z hz
    rcases hcase y d hd with ⟨rfl, rfl⟩ | ⟨-, hd⟩
    · exact hplain z (h1.refs _ _ hxr hcx z hz)
    · rcases hheld y hy with hy | rfl
      · exact hplain z (h1.refs _ _ hy hd z hz)
      · rw [hnx] at hd; cases hd; cases hz
  · intro y d hy hd z hz
    rcases hcase y d hd with ⟨rfl, rfl⟩ | ⟨-, hd⟩
    · obtain rfl : z = s.next := by simpa using hz
      refine ⟨{ kind := .cpp, points := c.refs }, ?_, rfl, fun p hp => .next hx2 hprog (Or.inl hp) .here⟩
      rw [ho _ (Ne.symm hxn)]; exact hnx
    · rcases hheld y hy with hy | rfl
      · obtain ⟨e, g1, g2, g3⟩ := h1.cpps _ _ hy hd z hz
        have hzx : z ≠ x := by rintro rfl; rw [hcx] at g1; cases g1; exact hkc.1 g2
        exact ⟨e, by rw [ho z hzx]; exact g1, g2, fun p hp => hkept (g3 p hp)⟩
      · rw [hnx] at hd; cases hd; cases hz
  · intro y d hd b hb
    have key : ∀ b, (∃ cb, s1.heap b = some cb ∧ cb.kind = .block) → ∃ cb, s2.heap b = some cb ∧ cb.kind = .block := by
      rintro b ⟨cb, g1, g2⟩
      have hbx : b ≠ x := by rintro rfl; rw [hcx] at g1; cases g1; exact hkc.2 g2
      exact ⟨cb, by rw [ho b hbx]; exact g1, g2⟩
    rcases hcase y d hd with ⟨rfl, rfl⟩ | ⟨-, hd⟩
    · exact key b (h1.blocks _ _ hcx b hb)
    · exact key b (h1.blocks _ _ hd b hb)
  · intro y d z e b hd he hbd hbe
    have hb0 : c.blocks = [] := ((h.ok _ _ hc).py hkc.1).2
    rcases hcase y d hd with ⟨rfl, rfl⟩ | ⟨-, hd⟩
    · simp [hb0] at hbd
    · rcases hcase z e he with ⟨rfl, rfl⟩ | ⟨-, he⟩
      · simp [hb0] at hbe
      · exact h1.apart _ _ _ _ _ hd he hbd hbe

theorem inv_assign {s : State} (h : HeapInv s) {x : ℕ} {c : Cell} (hc : s.heap x = some c) (hk : c.kind = .program) (l : List ℕ) (hl : ∀ y ∈ l, y ∈ s.roots) :
    HeapInv { s with heap := Function.update s.heap x (some { c with refs := l }) } := by
  generalize hs2 : ({ s with heap := Function.update s.heap x (some { c with refs := l }) } : State) = s2
  have hr2 : s2.roots = s.roots := by rw [← hs2]
  have hx2 : s2.heap x = some { c with refs := l } := by rw [← hs2]; simp
  have ho : ∀ y, y ≠ x → s2.heap y = s.heap y := by intro y hy; rw [← hs2]; simp [hy]
  have hcpp : c.cpp = [] := by
    by_contra h0
    rcases (h.ok _ _ hc).wrap (Or.inl h0) with e | e <;> rw [hk] at e <;> cases e
  have hcase : ∀ y d, s2.heap y = some d → (y = x ∧ d = { c with refs := l }) ∨ (y ≠ x ∧ s.heap y = some d) := by
    intro y d hd
    by_cases hy : y = x
    · subst hy; rw [hx2] at hd; cases hd; exact Or.inl ⟨rfl, rfl⟩
    · exact Or.inr ⟨hy, by rw [← ho y hy]; exact hd⟩
  have hheld : ∀ y, Held s2 y → Held s y := by
    intro y hy
    induction hy with
    | root hr => exact .root (hr2 ▸ hr)
    | @ref y d z _ hd hm ih =>
      rcases hcase y d hd with ⟨rfl, rfl⟩ | ⟨-, hd⟩
      · simp only [hcpp, List.not_mem_nil, or_false] at hm
        exact .root (hl _ hm)
      · exact .ref ih hd hm
  have hplain : ∀ y, PyCell s y → PyCell s2 y := by
    rintro y ⟨d, hd, hkd⟩
    by_cases hy : y = x
    · subst hy; exact ⟨_, hx2, by simp [hk]⟩
    · exact ⟨d, by rw [ho y hy]; exact hd, hkd⟩
  have hkept : ∀ {y z}, Kept s y z → Kept s2 y z := by
    intro y z hkk
    induction hkk with
    | here => exact .here
    | @next y d z w hd hkd hm _ ih =>
      have hy : y ≠ x := by rintro rfl; rw [hc] at hd; cases hd; exact hkd hk
      exact .next (by rw [ho y hy]; exact hd) hkd hm ih
  refine ⟨?_, ?_, ?_, ?_, ?_, ?_, ?_⟩
  · intro y hy
    have hy' : s.next ≤ y := by rw [← hs2] at hy; exact hy
    have : y ≠ x := by have := h.lt hc; omega
    rw [ho y this, h.fresh y hy']
  · intro y d hd
    rcases hcase y d hd with ⟨rfl, rfl⟩ | ⟨-, hd⟩
    · have := h.ok _ _ hc
      exact ⟨fun e => by simp [hk] at e, fun e => by simp [hk] at e, this.py, this.wrap⟩
    · exact h.ok _ _ hd
  · exact fun y hy => hplain y (h.roots y (hr2 ▸ hy))
  · intro y d hy hd z hz
    rcases hcase y d hd with ⟨rfl, rfl⟩ | ⟨-, hd⟩
    · exact hplain z (h.roots z (hl z hz))
    · exact hplain z (h.refs _ _ (hheld y hy) hd z hz)
  · intro y d hy hd z hz
    rcases hcase y d hd with ⟨rfl, rfl⟩ | ⟨-, hd⟩
    · simp [hcpp] at hz
    · obtain ⟨e, g1, g2, g3⟩ := h.cpps _ _ (hheld y hy) hd z hz
      have hzx : z ≠ x := by rintro rfl; rw [hc] at g1; cases g1; rw [hk] at g2; cases g2
      exact ⟨e, by rw [ho z hzx]; exact g1, g2, fun p hp => hkept (g3 p hp)⟩
  · intro y d hd b hb
    have key : ∀ b, (∃ cb, s.heap b = some cb ∧ cb.kind = .block) → ∃ cb, s2.heap b = some cb ∧ cb.kind = .block := by
      rintro b ⟨cb, g1, g2⟩
      have hbx : b ≠ x := by rintro rfl; rw [hc] at g1; cases g1; rw [hk] at g2; cases g2
      exact ⟨cb, by rw [ho b hbx]; exact g1, g2⟩
    rcases hcase y d hd with ⟨rfl, rfl⟩ | ⟨-, hd⟩
    · exact key b (h.blocks _ _ hc b hb)
    · exact key b (h.blocks _ _ hd b hb)
  · intro y d z e b hd he hbd hbe
    have hb0 : c.blocks = [] := ((h.ok _ _ hc).py (by simp [hk])).2
    rcases hcase y d hd with ⟨rfl, rfl⟩ | ⟨-, hd⟩
    · simp [hb0] at hbd
    · rcases hcase z e he with ⟨rfl, rfl⟩ | ⟨-, he⟩
      · simp [hb0] at hbe
      · exact h.apart _ _ _ _ _ hd he hbd hbe

theorem inv_release {s : State} (h : HeapInv s) {x : ℕ} {c : Cell} (hc : s.heap x = some c) (hx : ¬ Held s x) (hk : c.kind ≠ .block) : HeapInv (s.release x) := by
  unfold State.release
  rw [hc]
  show HeapInv { s with heap := fun y => if y = x ∨ (c.deletes = true ∧ y ∈ c.blocks) then none else s.heap y }
  generalize hs2 : ({ s with heap := fun y => if y = x ∨ (c.deletes = true ∧ y ∈ c.blocks) then none else s.heap y } : State) = s2
  have hr2 : s2.roots = s.roots := by rw [← hs2]
  have hsub : ∀ y d, s2.heap y = some d → s.heap y = some d := by
    intro y d hd
    rw [← hs2] at hd
    simp only at hd
    split_ifs at hd
    exact hd
  have hgone : ∀ y, Held s y → s2.heap y = s.heap y := by
    intro y hy
    rw [← hs2]
    simp only
    rw [if_neg]
    rintro (rfl | ⟨-, hb⟩)
    · exact hx hy
    · obtain ⟨cb, g1, g2⟩ := h.blocks _ _ hc _ hb
      obtain ⟨cb', g3, g4⟩ := h.held hy
      rw [g1] at g3; cases g3
      exact g4 g2
  have hheld : ∀ y, Held s2 y → Held s y := by
    intro y hy
    induction hy with
    | root hr => exact .root (hr2 ▸ hr)
    | ref _ hd hm ih => exact .ref ih (hsub _ _ hd) hm
  have hkept : ∀ {y z}, Kept s y z → Held s y → Kept s2 y z := by
    intro y z hk
    induction hk with
    | here => exact fun _ => .here
    | next hd hkd hm _ ih => exact fun hy => .next (by rw [hgone _ hy]; exact hd) hkd hm (ih (.ref hy hd hm))
  refine ⟨?_, fun y d hd => h.ok _ _ (hsub _ _ hd), ?_, ?_, ?_, ?_, fun y d z e b hd he => h.apart _ _ _ _ _ (hsub _ _ hd) (hsub _ _ he)⟩
  · intro y hy
    rw [← hs2] at hy ⊢
    simp only at hy ⊢
    split_ifs
    · rfl
    · exact h.fresh y hy
  · intro y hy
    rw [hr2] at hy
    obtain ⟨d, g1, g2⟩ := h.roots y hy
    exact ⟨d, by rw [hgone y (.root hy)]; exact g1, g2⟩
  · intro y d hy hd z hz
    obtain ⟨e, g1, g2⟩ := h.refs _ _ (hheld y hy) (hsub _ _ hd) z hz
    exact ⟨e, by rw [hgone z (.ref (hheld y hy) (hsub _ _ hd) (Or.inl hz))]; exact g1, g2⟩
  · intro y d hy hd z hz
    obtain ⟨e, g1, g2, g3⟩ := h.cpps _ _ (hheld y hy) (hsub _ _ hd) z hz
    exact ⟨e, by rw [hgone z (.ref (hheld y hy) (hsub _ _ hd) (Or.inr hz))]; exact g1, g2, fun p hp => hkept (g3 p hp) (hheld y hy)⟩
  · intro y d hd b hb
    obtain ⟨cb, g1, g2⟩ := h.blocks _ _ (hsub _ _ hd) b hb
    refine ⟨cb, ?_, g2⟩
    rw [← hs2]
    simp only
    rw [if_neg, g1]
    rintro (rfl | ⟨-, hbc⟩)
    · rw [hc] at g1; cases g1; exact hk g2
    · obtain rfl := h.apart _ _ _ _ _ hc (hsub _ _ hd) hbc hb
      rw [← hs2] at hd
      simp at hd

theorem inv_step {s : State} (h : HeapInv s) {op : Op} (hc : Careful s op) : HeapInv (s.step op) := by
  unfold State.step
  split_ifs with ha
  swap
  · exact h
  have ha' : ∀ x ∈ op.args, x ∈ s.roots := fun x hx => ha hx
  cases op with
  | array => exact inv_make h (ok_py (by simp) (by simp) []) (by simp) (by simp) (by simp)
  | simple => exact inv_simple h
  | asphere c p => exact inv_asphere h c p ha'
  | zernike => exact inv_zernike h
  | bicubic g => exact inv_bicubic h g ha'
  | pair x y => exact inv_pair h x y ha'
  | sum l => exact inv_several h (Or.inr rfl) l ha'
  | union l => exact inv_several h (Or.inl rfl) l ha'
  | negation x => exact inv_negation h x (ha' x (by simp [Op.args]))
  | rays g => exact inv_rays h g ha'
  | useRays x => exact inv_useRays h x (ha' x (by simp [Op.args]))
  | holder l => exact inv_make h (ok_py (by simp) (by simp) l) (by simp) ha' (by simp)
  | get x y =>
    simp only
    split
    · split_ifs with hy
      · rename_i c hcx
        have hx : Held s x := .root (ha' x (by simp [Op.args]))
        refine inv_roots h fun z hz => ?_
        rcases List.mem_cons.1 hz with rfl | hz
        · exact ⟨.ref hx hcx (Or.inl hy), h.refs _ _ hx hcx _ hy⟩
        · exact ⟨.root hz, h.roots z hz⟩
      · exact h
    · exact h
  | drop x => exact inv_fewer h fun y hy => List.mem_of_mem_erase hy
  | assign x l =>
    simp only
    split
    · split_ifs with hk
      · rename_i c hcx
        exact inv_assign h hcx (hk.resolve_right (hc c hcx)) l fun y hy => ha' y (by simp [Op.args, hy])
      · exact h
    · exact h
  | collect x =>
    simp only
    split
    · split_ifs with hk
      · rename_i c hcx
        exact inv_release h hcx hk.1 hk.2
      · exact h
    · exact h

theorem runs_inv {s : State} (h : Runs s) : HeapInv s := by
  induction h with
  | start => exact heap_empty
  | step op _ hc ih => exact inv_step ih hc

/-- **C123**, for programs that do not assign the attributes of objects with C++ objects, or the elements of their lists: nothing that a call can read has been
released. -/
theorem C123_safe_partial {s : State} (h : Runs s) : Safe s := (runs_inv h).safe

/-! ## What goes wrong otherwise -/

theorem held_closed {s : State} (l : List ℕ) (hr : ∀ x ∈ s.roots, x ∈ l) (hc : ∀ x ∈ l, ∀ c, s.heap x = some c → (∀ y ∈ c.refs, y ∈ l) ∧ ∀ y ∈ c.cpp, y ∈ l)
    {x : ℕ} (hx : Held s x) : x ∈ l := by
  induction hx with
  | root h => exact hr _ h
  | ref _ h hm ih =>
    rcases hm with hm | hm
    · exact (hc _ ih _ h).1 _ hm
    · exact (hc _ ih _ h).2 _ hm

/-- The state after a list of steps. -/
noncomputable def run (s : State) (ops : List Op) : State := ops.foldl State.step s

/-- The whole sentence: for every program. -/
def AlwaysSafe : Prop := ∀ ops, Safe (run .empty ops)

theorem collect_eq {s : State} {x : ℕ} {c : Cell} (hc : s.heap x = some c) (hk : c.kind ≠ .block) (l : List ℕ) (hr : ∀ x ∈ s.roots, x ∈ l)
    (hl : ∀ x ∈ l, ∀ c, s.heap x = some c → (∀ y ∈ c.refs, y ∈ l) ∧ ∀ y ∈ c.cpp, y ∈ l) (hx : x ∉ l) : s.step (.collect x) = s.release x := by
  have : ¬ Held s x := fun h => hx (held_closed l hr hl h)
  simp [State.step, Op.args, hc, this, hk]

/-- A state with as many cells as there are in a list. -/
def listed (cells : List (Option Cell)) (roots : List ℕ) : State := ⟨fun x => cells.getD x none, cells.length, roots⟩

theorem listed_eq {s : State} {cells : List (Option Cell)} {roots : List ℕ} (hn : s.next = cells.length) (hr : s.roots = roots)
    (hf : ∀ x, cells.length ≤ x → s.heap x = none) (hc : ∀ i (h : i < cells.length), s.heap i = cells[i]) : s = listed cells roots := by
  obtain ⟨heap, next, r⟩ := s
  simp only at hn hr
  subst hn hr
  simp only [listed, State.mk.injEq, and_true]
  funext x
  by_cases hx : x < cells.length
  · exact (hc x hx).trans (by simp [hx])
  · exact (hf x (by omega)).trans (by simp [hx])

theorem listed_alloc (cells : List (Option Cell)) (roots : List ℕ) (c : Cell) : (listed cells roots).alloc c = listed (cells ++ [some c]) roots := by
  refine listed_eq (by simp [State.alloc, listed]) rfl ?_ ?_
  · intro x hx
    simp only [List.length_append, List.length_singleton] at hx
    have : x ≠ cells.length := by omega
    simp [State.alloc, listed, Function.update, this, show cells.length ≤ x by omega]
  · intro i hi
    simp only [List.length_append, List.length_singleton] at hi
    by_cases h : i = cells.length
    · subst h; simp [State.alloc, listed]
    · simp [State.alloc, listed, Function.update, h, show i < cells.length by omega]

theorem listed_make (cells : List (Option Cell)) (roots : List ℕ) (c : Cell) :
    (listed cells roots).make c = listed (cells ++ [some c]) (cells.length :: roots) := by
  have := congrArg (fun t : State => ({ t with roots := cells.length :: roots } : State)) (listed_alloc cells roots c)
  exact this

theorem listed_release (cells : List (Option Cell)) (roots : List ℕ) {x : ℕ} {c : Cell} (hc : (listed cells roots).heap x = some c) (hd : c.deletes = false) :
    (listed cells roots).release x = listed (cells.set x none) roots := by
  simp only [State.release, hc, hd]
  refine listed_eq (by simp [listed]) rfl ?_ ?_
  · intro y hy
    simp only [List.length_set] at hy
    simp [listed, hy]
  · intro y hy
    simp only [List.length_set] at hy
    by_cases h : y = x
    · subst h; simp
    · simp [listed, h, hy, Ne.symm h]

theorem listed_collect (cells : List (Option Cell)) (roots : List ℕ) {x : ℕ} {c : Cell} (hc : (listed cells roots).heap x = some c) (hk : c.kind ≠ .block) (hd : c.deletes = false)
    (l : List ℕ) (hr : ∀ x ∈ roots, x ∈ l)
    (hl : ∀ x ∈ l, ∀ c, (listed cells roots).heap x = some c → (∀ y ∈ c.refs, y ∈ l) ∧ ∀ y ∈ c.cpp, y ∈ l) (hx : x ∉ l) :
    (listed cells roots).step (.collect x) = listed (cells.set x none) roots := by
  rw [collect_eq hc hk l hr hl hx, listed_release cells roots hc hd]

theorem listed_empty : State.empty = listed [] [] := by
  simp [State.empty, listed]

theorem listed_assign (cells : List (Option Cell)) (roots : List ℕ) (x : ℕ) (l : List ℕ) (h : x :: l ⊆ roots) {c : Cell} (hc : (listed cells roots).heap x = some c)
    (hk : c.kind = .program ∨ c.kind = .library) : (listed cells roots).step (.assign x l) = listed (cells.set x (some { c with refs := l })) roots := by
  have hx : x < cells.length := by
    by_contra hn
    simp [listed, show cells.length ≤ x by omega] at hc
  simp only [State.step, Op.args, show x :: l ⊆ (listed cells roots).roots from h, if_true, hc, hk]
  refine listed_eq (by simp [listed]) rfl ?_ ?_
  · intro y hy
    simp only [List.length_set] at hy
    simp [listed, Function.update, hy, show y ≠ x by omega]
  · intro y hy
    simp only [List.length_set] at hy
    by_cases h : y = x
    · subst h; simp
    · simp [listed, Function.update, h, hy, Ne.symm h]

theorem listed_roots (cells : List (Option Cell)) (r r' : List ℕ) : ({ listed cells r with roots := r' } : State) = listed cells r' := rfl

theorem listed_simple (cells : List (Option Cell)) (roots : List ℕ) :
    (listed cells roots).step .simple = listed (cells ++ [some { kind := .cpp }, some { kind := .library, cpp := [cells.length] }]) ((cells.length + 1) :: roots) := by
  have e : (listed cells roots).step .simple = (listed cells roots).simple := by simp [State.step, Op.args]
  rw [e, State.simple, listed_alloc, listed_make]
  simp [State.result, listed]

theorem listed_several (cells : List (Option Cell)) (roots l cs : List ℕ) (k : Kind) (hcs : l.mapM (listed cells roots).cppOf = some cs) :
    (listed cells roots).several k l = listed (cells ++ [some { kind := k, refs := l }, some { kind := .block },
      some { kind := .cpp, points := cs, blocks := [cells.length + 1] }, some { kind := .library, refs := [cells.length], cpp := [cells.length + 2] }])
      ((cells.length + 3) :: roots) := by
  simp only [State.several, hcs]
  rw [listed_make, listed_alloc, listed_alloc, listed_make]
  simp [State.result, listed]

theorem listed_union (cells : List (Option Cell)) (roots l : List ℕ) (hl : l ⊆ roots) :
    (listed cells roots).step (.union l) = (listed cells roots).several .library l := by
  simp [State.step, Op.args, show l ⊆ (listed cells roots).roots from hl, State.union]

theorem listed_sum (cells : List (Option Cell)) (roots l : List ℕ) (hl : l ⊆ roots) :
    (listed cells roots).step (.sum l) = (listed cells roots).several .frozen l := by
  simp [State.step, Op.args, show l ⊆ (listed cells roots).roots from hl, State.sum]

theorem listed_get (cells : List (Option Cell)) (roots : List ℕ) {x y : ℕ} {c : Cell} (hx : x ∈ roots) (hc : (listed cells roots).heap x = some c) (hy : y ∈ c.refs) :
    (listed cells roots).step (.get x y) = listed cells (y :: roots) := by
  simp only [State.step, Op.args, hc, hy, if_true]
  rw [if_pos (by simpa [listed] using hx)]
  rfl

theorem listed_drop (cells : List (Option Cell)) (roots : List ℕ) (x : ℕ) : (listed cells roots).step (.drop x) = listed cells (roots.erase x) := by
  simp [State.step, Op.args, listed]

theorem union_made : run .empty [.simple, .union [1]] = listed [some { kind := .cpp }, some { kind := .library, cpp := [0] }, some { kind := .library, refs := [1] },
    some { kind := .block }, some { kind := .cpp, points := [0], blocks := [3] }, some { kind := .library, refs := [2], cpp := [4] }] [5, 1] := by
  rw [listed_empty]
  simp only [run, List.foldl]
  rw [listed_simple, listed_union _ _ _ (by simp), listed_several _ _ _ [0] _ (by simp [State.cppOf, listed])]
  rfl

/-- `circle = ObscCircle(1.0); u = ObscUnion(circle); u.items.clear(); del circle`, after which python releases the circle and its C++ object. -/
def clearedItems : List Op := [.simple, .union [1]] ++ [.get 5 2, .assign 2 [], .drop 1, .collect 1, .collect 0]

theorem clearedItems_state : run .empty clearedItems = listed [none, none, some { kind := .library },
    some { kind := .block }, some { kind := .cpp, points := [0], blocks := [3] }, some { kind := .library, refs := [2], cpp := [4] }] [2, 5] := by
  rw [clearedItems, run, List.foldl_append]
  rw [show List.foldl State.step State.empty [.simple, .union [1]] = _ from union_made]
  simp only [List.foldl]
  rw [listed_get _ _ (c := { kind := .library, refs := [2], cpp := [4] }) (by simp) rfl (by simp),
    listed_assign _ _ _ _ (by simp) (c := { kind := .library, refs := [1] }) rfl (by simp), listed_drop,
    listed_collect _ _ (c := { kind := .library, cpp := [0] }) rfl (by simp) rfl [2, 5, 4] (by simp) (by simp [listed]) (by simp),
    listed_collect _ _ (c := { kind := .cpp }) rfl (by simp) rfl [2, 5, 4] (by simp) (by simp [listed]) (by simp)]
  rfl

/-- **C123** fails: the elements of the list `items` can be removed, and the C++ union still reads the C++ circle. -/
theorem C123_items_violated : ¬ Safe (run .empty clearedItems) := by
  intro h
  rw [clearedItems_state] at h
  have t1 : Touched _ 5 := Touched.root (s := listed [none, none, some { kind := .library },
    some { kind := .block }, some { kind := .cpp, points := [0], blocks := [3] }, some { kind := .library, refs := [2], cpp := [4] }] [2, 5]) (x := 5) (by simp [listed])
  have t2 : Touched _ 4 := t1.ref rfl (Or.inr (List.mem_singleton.2 rfl))
  have t3 : Touched _ 0 := t2.ptr rfl (Or.inl (List.mem_singleton.2 rfl))
  simpa [listed] using h 0 t3

theorem C123_violated : ¬ ∀ ops, Safe (run .empty ops) := fun h => C123_items_violated (h _)

theorem listed_negation (cells : List (Option Cell)) (roots : List ℕ) {x c : ℕ} (hx : x ∈ roots) (hc : (listed cells roots).cppOf x = some c) :
    (listed cells roots).step (.negation x) = listed (cells ++ [some { kind := .cpp, points := [c] }, some { kind := .library, refs := [x], cpp := [cells.length] }])
      ((cells.length + 1) :: roots) := by
  have e : (listed cells roots).step (.negation x) = (listed cells roots).negation x := by simp [State.step, Op.args, listed, hx]
  rw [e, State.negation, hc]
  simp only
  rw [listed_alloc, listed_make]
  simp [State.result, listed]

/-- `circle = ObscCircle(1.0); n = ObscNegation(circle); n.original = None; del circle`. -/
def assignedOriginal : List Op := [.simple, .negation 1, .assign 3 [], .drop 1, .collect 1, .collect 0]

theorem assignedOriginal_state : run .empty assignedOriginal = listed [none, none, some { kind := .cpp, points := [0] }, some { kind := .library, cpp := [2] }] [3] := by
  rw [listed_empty]
  simp only [run, assignedOriginal, List.foldl]
  rw [listed_simple, listed_negation _ _ (c := 0) (by simp) rfl, listed_assign _ _ _ _ (by simp) (c := { kind := .library, refs := [1], cpp := [2] }) rfl (by simp), listed_drop,
    listed_collect _ _ (c := { kind := .library, cpp := [0] }) rfl (by simp) rfl [3, 2] (by simp) (by simp [listed]) (by simp),
    listed_collect _ _ (c := { kind := .cpp }) rfl (by simp) rfl [3, 2] (by simp) (by simp [listed]) (by simp)]
  rfl

/-- So does assigning an attribute. -/
theorem C123_attribute_violated : ¬ Safe (run .empty assignedOriginal) := by
  intro h
  rw [assignedOriginal_state] at h
  have t1 : Touched _ 3 := Touched.root (s := listed [none, none, some { kind := .cpp, points := [0] }, some { kind := .library, cpp := [2] }] [3]) (x := 3) (by simp [listed])
  have t2 : Touched _ 2 := t1.ref rfl (Or.inr (List.mem_singleton.2 rfl))
  have t3 : Touched _ 0 := t2.ptr rfl (Or.inl (List.mem_singleton.2 rfl))
  simpa [listed] using h 0 t3

theorem listed_table (cells : List (Option Cell)) (roots : List ℕ) :
    (listed cells roots).step (.pair none none) = listed (cells ++ [some { kind := .frozen }, some { kind := .frozen }, some { kind := .cpp, points := [cells.length, cells.length + 1] },
      some { kind := .library, refs := [cells.length, cells.length + 1], cpp := [cells.length + 2] }]) ((cells.length + 3) :: roots) := by
  have e : (listed cells roots).step (.pair none none) = (listed cells roots).pair none none := by simp [State.step, Op.args]
  rw [e, State.pair]
  simp only [State.arrays, listed_make, listed_alloc]
  simp [State.result, listed]

/-- `m = TableMedium(wavelengths, ns); m.wavelengths = np.array(…)`: the constructor has made its own copies, and only the attribute keeps them. -/
def assignedArray : List Op := [.pair none none, .array, .get 3 1, .assign 3 [4, 1], .collect 0]

theorem assignedArray_state : run .empty assignedArray = listed [none, some { kind := .frozen }, some { kind := .cpp, points := [0, 1] },
    some { kind := .library, refs := [4, 1], cpp := [2] }, some { kind := .frozen }] [1, 4, 3] := by
  rw [listed_empty]
  simp only [run, assignedArray, List.foldl]
  rw [listed_table]
  have e : ∀ cells roots, (listed cells roots).step .array = listed (cells ++ [some { kind := .frozen }]) (cells.length :: roots) := by
    intro cells roots
    rw [← listed_make]; simp [State.step, Op.args]
  rw [e, listed_get _ _ (c := { kind := .library, refs := [0, 1], cpp := [2] }) (by simp) rfl (by simp),
    listed_assign _ _ _ _ (by simp) (c := { kind := .library, refs := [0, 1], cpp := [2] }) rfl (by simp),
    listed_collect _ _ (c := {}) rfl (by simp) rfl [1, 4, 3, 2] (by simp) (by simp [listed]) (by simp)]
  rfl

theorem C123_array_violated : ¬ Safe (run .empty assignedArray) := by
  intro h
  rw [assignedArray_state] at h
  have t1 : Touched _ 3 := Touched.root (s := listed [none, some { kind := .frozen }, some { kind := .cpp, points := [0, 1] },
    some { kind := .library, refs := [4, 1], cpp := [2] }, some { kind := .frozen }] [1, 4, 3]) (x := 3) (by simp [listed])
  have t2 : Touched _ 2 := t1.ref rfl (Or.inr (List.mem_singleton.2 rfl))
  have t3 : Touched _ 0 := t2.ptr rfl (Or.inl (List.mem_cons_self ..))
  simpa [listed] using h 0 t3

/-! ## Memory that is never released -/

/-- Every block that is still there belongs to an object that will release it. -/
def NoLeak (s : State) : Prop := ∀ b cb, s.heap b = some cb → cb.kind = .block → ∃ x c, s.heap x = some c ∧ c.deletes = true ∧ b ∈ c.blocks

/-- A program that makes sums or unions and forgets them. -/
def forgottenSum : List Op := [.simple, .sum [1], .drop 5, .drop 1, .collect 5, .collect 4, .collect 2, .collect 1, .collect 0]

/-- The array of pointers of a `Sum` stays when nothing else does. -/
theorem C123_leak_violated : (run .empty forgottenSum).roots = [] ∧ ∀ x, (run .empty forgottenSum).heap x = if x = 3 then some { kind := .block } else none := by
  have e : run .empty forgottenSum = listed [none, none, none, some { kind := .block }, none, none] [] := by
    rw [listed_empty]
    simp only [run, forgottenSum, List.foldl]
    rw [listed_simple, listed_sum _ _ _ (by simp), listed_several _ _ _ [0] _ (by simp [State.cppOf, listed]), listed_drop, listed_drop,
      listed_collect _ _ (c := { kind := .library, refs := [2], cpp := [4] }) rfl (by simp) rfl [] (by simp) (by simp) (by simp),
      listed_collect _ _ (c := { kind := .cpp, points := [0], blocks := [3] }) rfl (by simp) rfl [] (by simp) (by simp) (by simp),
      listed_collect _ _ (c := { kind := .frozen, refs := [1] }) rfl (by simp) rfl [] (by simp) (by simp) (by simp),
      listed_collect _ _ (c := { kind := .library, cpp := [0] }) rfl (by simp) rfl [] (by simp) (by simp) (by simp),
      listed_collect _ _ (c := { kind := .cpp }) rfl (by simp) rfl [] (by simp) (by simp) (by simp)]
    rfl
  rw [e]
  refine ⟨rfl, fun x => ?_⟩
  rcases x with _ | _ | _ | _ | _ | _ | x <;> simp [listed]

/-- Programs without sums, unions and intersections. -/
inductive RunsPlain : State → Prop
  | start : RunsPlain .empty
  | step {s} (op) (h : RunsPlain s) (hc : Careful s op) (hs : ∀ l, op ≠ .sum l) (hu : ∀ l, op ≠ .union l) : RunsPlain (s.step op)

theorem RunsPlain.runs {s : State} (h : RunsPlain s) : Runs s := by
  induction h with
  | start => exact .start
  | step op _ hc _ _ ih => exact .step op ih hc

theorem noLeak_alloc {s : State} (hi : HeapInv s) (h : NoLeak s) {c : Cell} (hk : c.kind ≠ .block) : NoLeak (s.alloc c) := by
  intro b cb hb hkb
  by_cases hn : b = s.next
  · subst hn
    rw [heap_alloc] at hb; cases hb; exact absurd hkb hk
  · have hb' : s.heap b = some cb := by simpa [State.alloc, heap_new hn] using hb
    obtain ⟨x, d, h1, h2, h3⟩ := h b cb hb' hkb
    exact ⟨x, d, heap_alloc_old hi h1, h2, h3⟩

theorem noLeak_heap {s s' : State} (h : NoLeak s) (e : s'.heap = s.heap) : NoLeak s' := by
  unfold NoLeak; rw [e]; exact h

theorem noLeak_make {s : State} (hi : HeapInv s) (h : NoLeak s) {c : Cell} (hk : c.kind ≠ .block) : NoLeak (s.make c) :=
  noLeak_heap (noLeak_alloc hi h hk) rfl

theorem noLeak_arrays {s : State} (hi : HeapInv s) (h : NoLeak s) (g : List (Option ℕ)) : NoLeak (s.arrays g).1 := by
  induction g generalizing s with
  | nil => exact h
  | cons o g ih =>
    cases o with
    | none =>
      have h1 : HeapInv (s.make {}) := inv_make hi (ok_py (by decide) (by decide) []) (by decide) (by simp) (by simp)
      exact ih h1 (noLeak_make hi h (by decide))
    | some y => exact ih hi h

theorem noLeak_step {s : State} (hi : HeapInv s) (h : NoLeak s) {op : Op} (hs : ∀ l, op ≠ .sum l) (hu : ∀ l, op ≠ .union l) : NoLeak (s.step op) := by
  unfold State.step
  split_ifs with ha
  swap
  · exact h
  have ha' : ∀ x ∈ op.args, x ∈ s.roots := fun x hx => ha hx
  cases op with
  | array => exact noLeak_make hi h (by decide)
  | simple =>
    have h1 : HeapInv (s.alloc { kind := .cpp }) := inv_alloc hi (ok_cpp [] [] false) (.nil rfl)
    exact noLeak_heap (noLeak_make h1 (noLeak_alloc hi h (by simp)) (by simp)) rfl
  | asphere c p =>
    obtain ⟨i1, -, -, -, -⟩ := arrays_ok hi [p] (by intro z hz; apply ha'; cases p <;> simp_all [Op.args])
    have n1 := noLeak_arrays hi h [p]
    show NoLeak (s.asphere c p)
    unfold State.asphere
    generalize s.arrays [p] = r at *
    obtain ⟨s1, a⟩ := r
    have h1 : HeapInv (s1.alloc { kind := .block }) := inv_alloc i1 ok_block (.nil rfl)
    have h2 := inv_alloc h1 (ok_cpp a [s1.next] true) (new_block i1 a true)
    refine noLeak_heap (noLeak_make h2 ?_ (by simp)) rfl
    intro b cb hb hkb
    by_cases hn : b = s1.next
    · exact ⟨_, _, heap_alloc _ _, rfl, by simp [hn]⟩
    · by_cases hn' : b = (s1.alloc { kind := .block }).next
      · rw [hn', heap_alloc] at hb; cases hb; simp at hkb
      · have hb' : s1.heap b = some cb := by
          have : (s1.alloc { kind := .block }).heap b = some cb := by simpa [State.alloc, Function.update, hn, show b ≠ s1.next + 1 from hn'] using hb
          simpa [State.alloc, Function.update, hn] using this
        obtain ⟨x, d, g1, g2, g3⟩ := n1 b cb hb' hkb
        exact ⟨x, d, heap_alloc_old h1 (heap_alloc_old i1 g1), g2, g3⟩
  | zernike =>
    obtain ⟨i1, i2, i3, -, -⟩ := arrays_ok hi [none, none, none, none] (by simp)
    have n1 := noLeak_arrays hi h [none, none, none, none]
    show NoLeak s.zernike
    unfold State.zernike
    generalize s.arrays [none, none, none, none] = r at *
    obtain ⟨s1, a⟩ := r
    have h1 : HeapInv (s1.make { kind := .program, refs := a }) := inv_make i1 (ok_py (by decide) (by decide) _) (by simp) i3 (by simp)
    have h2 := inv_alloc h1 (ok_cpp a.tail [] false) (.nil rfl)
    exact noLeak_heap (noLeak_make h2 (noLeak_alloc h1 (noLeak_make i1 n1 (by simp)) (by simp)) (by simp)) rfl
  | bicubic g =>
    obtain ⟨i1, i2, i3, -, -⟩ := arrays_ok hi g ha'
    have n1 := noLeak_arrays hi h g
    show NoLeak (s.bicubic g)
    unfold State.bicubic
    generalize s.arrays g = r at *
    obtain ⟨s1, a⟩ := r
    have h1 := inv_alloc i1 (ok_cpp (a.drop 2) [] false) (.nil rfl)
    have h2 := inv_alloc h1 (ok_cpp [s1.next] [] false) (.nil rfl)
    exact noLeak_heap (noLeak_make h2 (noLeak_alloc h1 (noLeak_alloc i1 n1 (by simp)) (by simp)) (by simp)) rfl
  | pair x y =>
    obtain ⟨i1, i2, i3, -, -⟩ := arrays_ok hi [x, y] (by intro z hz; apply ha'; cases x <;> cases y <;> simp_all [Op.args])
    have n1 := noLeak_arrays hi h [x, y]
    show NoLeak (s.pair x y)
    unfold State.pair
    generalize s.arrays [x, y] = r at *
    obtain ⟨s1, a⟩ := r
    have h1 : HeapInv (s1.alloc { kind := .cpp, points := a }) := inv_alloc i1 (ok_cpp _ [] false) (.nil rfl)
    exact noLeak_heap (noLeak_make h1 (noLeak_alloc i1 n1 (by simp)) (by simp)) rfl
  | sum l => exact absurd rfl (hs l)
  | union l => exact absurd rfl (hu l)
  | negation x =>
    show NoLeak (s.negation x)
    unfold State.negation
    split
    · exact h
    · rename_i c hc
      have h1 := inv_alloc hi (ok_cpp [c] [] false) (.nil rfl)
      exact noLeak_heap (noLeak_make h1 (noLeak_alloc hi h (by simp)) (by simp)) rfl
  | rays g =>
    obtain ⟨i1, i2, i3, -, -⟩ := arrays_ok hi g ha'
    have n1 := noLeak_arrays hi h g
    show NoLeak (s.rays g)
    unfold State.rays
    generalize s.arrays g = r at *
    obtain ⟨s1, a⟩ := r
    exact noLeak_heap (noLeak_make i1 n1 (by simp)) rfl
  | useRays x =>
    show NoLeak (s.useRays x)
    unfold State.useRays
    split
    · exact h
    rename_i c hc
    split_ifs with hl
    swap
    · exact h
    have h1 := noLeak_alloc hi h (c := { kind := .cpp, points := c.refs }) (by simp)
    have hxn := Nat.ne_of_lt (hi.lt hc)
    have hwrap := (hi.ok _ _ hc).wrap (Or.inr hl.1)
    have hkc : c.kind ≠ .cpp ∧ c.kind ≠ .block := by rcases hwrap with e | e <;> rw [e] <;> decide
    intro b cb hb hkb
    have hbx : b ≠ x := by
      rintro rfl
      simp only [Function.update_self, Option.some.injEq] at hb
      subst hb
      exact hkc.2 hkb
    rw [show (⟨Function.update (Function.update s.heap s.next (some { kind := .cpp, points := c.refs })) x (some { c with cpp := [s.next] }), s.next + 1, s.roots⟩ : State).heap b
      = (s.alloc { kind := .cpp, points := c.refs }).heap b from Function.update_of_ne hbx _ _] at hb
    obtain ⟨y, d, g1, g2, g3⟩ := h1 b cb hb hkb
    have hyx : y ≠ x := by
      rintro rfl
      rw [heap_alloc_old hi hc] at g1; cases g1
      rw [((hi.ok _ _ hc).py hkc.1).2] at g3; cases g3
    exact ⟨y, d, by rw [← g1]; exact Function.update_of_ne hyx _ _, g2, g3⟩
  | holder l => exact noLeak_make hi h (by simp)
  | get x y =>
    simp only
    split
    · split_ifs with hy
      · exact noLeak_heap h rfl
      · exact h
    · exact h
  | drop x => exact noLeak_heap h rfl
  | assign x l =>
    simp only
    split
    · split_ifs with hk
      · rename_i c hcx
        intro b cb hb hkb
        have hbx : b ≠ x := by
          rintro rfl
          simp only [Function.update_self, Option.some.injEq] at hb
          subst hb
          rcases hk with e | e <;> rw [e] at hkb <;> cases hkb
        simp only [ne_eq, hbx, not_false_eq_true, Function.update_of_ne] at hb
        obtain ⟨y, d, g1, g2, g3⟩ := h b cb hb hkb
        by_cases hyx : y = x
        · subst hyx
          rw [hcx] at g1; cases g1
          exact ⟨y, _, Function.update_self .., g2, g3⟩
        · exact ⟨y, d, by rw [← g1]; exact Function.update_of_ne hyx _ _, g2, g3⟩
      · exact h
    · exact h
  | collect x =>
    simp only
    split
    · split_ifs with hk
      · rename_i c hcx
        unfold State.release
        rw [hcx]
        intro b cb hb hkb
        simp only at hb ⊢
        split_ifs at hb with hn
        obtain ⟨y, d, g1, g2, g3⟩ := h b cb hb hkb
        refine ⟨y, d, ?_, g2, g3⟩
        rw [if_neg, g1]
        rintro (rfl | ⟨-, hy⟩)
        · rw [hcx] at g1; cases g1
          exact hn (Or.inr ⟨g2, g3⟩)
        · obtain ⟨cy, g4, g5⟩ := hi.blocks _ _ hcx _ hy
          rw [g1] at g4; cases g4
          rw [((hi.ok _ _ g1).py (by rw [g5]; decide)).2] at g3; cases g3
      · exact h
    · exact h

/-- Without sums, unions and intersections nothing is left behind: memory that C++ took is released with the object that took it. -/
theorem C123_freed {s : State} (h : RunsPlain s) : NoLeak s := by
  induction h with
  | start => intro b cb hb; cases hb
  | step op hr _ hs hu ih => exact noLeak_step (runs_inv hr.runs) ih hs hu

/-- What a destructor releases is still there, and no other object has it: nothing is released twice. -/
theorem C123_once {s : State} (h : Runs s) {x : ℕ} {c : Cell} (hc : s.heap x = some c) {b : ℕ} (hb : b ∈ c.blocks) :
    (∃ cb, s.heap b = some cb ∧ cb.kind = .block) ∧ ∀ y d, s.heap y = some d → b ∈ d.blocks → y = x :=
  ⟨(runs_inv h).blocks _ _ hc _ hb, fun _ _ hd hbd => (runs_inv h).apart _ _ _ _ _ hd hc hbd hb⟩

/-! ## A case -/

/-- `circle = ObscCircle(1.0); u = ObscUnion(circle); del circle`, with a garbage collection: the circle stays, because `items` keeps it. -/
def keptPart : List Op := [.simple, .union [1], .drop 1, .collect 1, .collect 0]

example : Runs (run .empty keptPart) ∧ Touched (run .empty keptPart) 0 ∧ ((run .empty keptPart).heap 0).isSome := by
  have r : Runs (run .empty keptPart) := by
    simp only [run, keptPart, List.foldl]
    exact .step _ (.step _ (.step _ (.step _ (.step _ .start trivial) trivial) trivial) trivial) trivial
  have e : (run .empty [.simple, .union [1]]).step (.drop 1) = listed [some { kind := .cpp }, some { kind := .library, cpp := [0] }, some { kind := .library, refs := [1] },
      some { kind := .block }, some { kind := .cpp, points := [0], blocks := [3] }, some { kind := .library, refs := [2], cpp := [4] }] [5] := by
    rw [union_made, listed_drop]; rfl
  have hh : ∀ x, x = 1 ∨ x = 0 → ∀ s : State, Held s x → s.step (.collect x) = s := by
    intro x _ s hx
    simp only [State.step]
    split_ifs
    · split
      · rw [if_neg (fun h => h.1 hx)]
      · rfl
    · rfl
  have k5 : Held (listed [some { kind := .cpp }, some { kind := .library, cpp := [0] }, some { kind := .library, refs := [1] },
      some { kind := .block }, some { kind := .cpp, points := [0], blocks := [3] }, some { kind := .library, refs := [2], cpp := [4] }] [5]) 5 := .root (by simp [listed])
  have k2 : Held _ 2 := k5.ref rfl (Or.inl (List.mem_singleton.2 rfl))
  have k1 : Held _ 1 := k2.ref rfl (Or.inl (List.mem_singleton.2 rfl))
  have k0 : Held _ 0 := k1.ref rfl (Or.inr (List.mem_singleton.2 rfl))
  have es : run .empty keptPart = listed [some { kind := .cpp }, some { kind := .library, cpp := [0] }, some { kind := .library, refs := [1] },
      some { kind := .block }, some { kind := .cpp, points := [0], blocks := [3] }, some { kind := .library, refs := [2], cpp := [4] }] [5] := by
    have : run .empty keptPart = (((run .empty [.simple, .union [1]]).step (.drop 1)).step (.collect 1)).step (.collect 0) := rfl
    rw [this, e, hh 1 (by simp) _ k1, hh 0 (by simp) _ k0]
  have t4 : Touched (run .empty keptPart) 4 := by
    rw [es]; exact (Touched.root (x := 5) (by simp [listed])).ref rfl (Or.inr (List.mem_singleton.2 rfl))
  have t0 : Touched (run .empty keptPart) 0 := by
    rw [es] at t4 ⊢; exact t4.ptr rfl (Or.inl (List.mem_singleton.2 rfl))
  exact ⟨r, t0, C123_safe_partial r 0 t0⟩

end Batoid.Props
