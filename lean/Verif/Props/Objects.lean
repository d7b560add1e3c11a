import Verif.Objects
import Verif.Props.Rays
import Verif.Props.Optics
import Verif.Props.Obscurations

/-!
# Equality and hashing (C68, C80, C81)
-/

namespace Batoid.Props
open Batoid.Objects

/-! ## Lemmas about containers -/

theorem pyAnd_true {a b : Except PyErr Bool} : pyAnd a b = .ok true ↔ a = .ok true ∧ b = .ok true := by
  rcases a with e | (_ | _) <;> simp [pyAnd]

theorem numEq_true {F : Type} [Arith F] {a b : F} : numEq a b = .ok true ↔ Arith.eq a b = true := by
  simp [numEq]

theorem allEq_num {F H : Type} [Arith F] (h : Hasher F H) : ∀ {a b : List F}, allEq a b = true → a.map h.num = b.map h.num
  | [], [], _ => rfl
  | [], _ :: _, e => by simp [allEq] at e
  | _ :: _, [], e => by simp [allEq] at e
  | x :: xs, y :: ys, e => by
    simp only [allEq, Bool.and_eq_true] at e
    simp only [List.map_cons, h.num_eq _ _ e.1, allEq_num h e.2]

theorem arrayEqual_num {F H : Type} [Arith F] (h : Hasher F H) {a b : List F} (e : arrayEqual a b = true) : a.map h.num = b.map h.num := by
  simp only [arrayEqual, Bool.and_eq_true] at e
  exact allEq_num h e.2

theorem arrayEqual2_num {F H : Type} [Arith F] (h : Hasher F H) : ∀ {a b : List (List F)}, arrayEqual2 a b = true →
    a.flatten.map h.num = b.flatten.map h.num
  | [], [], _ => rfl
  | [], _ :: _, e => by simp [arrayEqual2] at e
  | _ :: _, [], e => by simp [arrayEqual2] at e
  | x :: xs, y :: ys, e => by
    simp only [arrayEqual2, Bool.and_eq_true] at e
    simp only [List.flatten_cons, List.map_append, arrayEqual_num h e.1, arrayEqual2_num h e.2]

theorem npAllEq_num {F H : Type} [Arith F] (h : Hasher F H) {a b : List F} (ha : 2 ≤ a.length) (hb : 2 ≤ b.length)
    (e : npAllEq a b = .ok true) : a.map h.num = b.map h.num := by
  unfold npAllEq at e
  split at e
  · simp only [Except.ok.injEq] at e; exact allEq_num h e
  · split at e
    · simp at ha
    · simp at hb
    · cases e

/-! ## C68: equal objects hash equally -/

section hash
variable {F H : Type} [Arith F] (h : Hasher F H)

/-- **C68** for media. -/
theorem C68_medium (a b : MediumObj F) (e : a.eq b = .ok true) : a.hash h = b.hash h := by
  cases a <;> cases b <;>
    simp only [MediumObj.eq, tupleEq, pyAnd_true, numEq_true, Except.ok.injEq, Bool.and_eq_true, Bool.false_eq_true] at e
  · simp only [MediumObj.hash, h.num_eq _ _ e]
  · simp only [MediumObj.hash, arrayEqual_num h e.1, arrayEqual_num h e.2]
  · obtain ⟨e1, e2, e3, e4, e5, e6, -⟩ := e
    simp only [MediumObj.hash, List.map_cons, h.num_eq _ _ e1, h.num_eq _ _ e2, h.num_eq _ _ e3, h.num_eq _ _ e4, h.num_eq _ _ e5,
      h.num_eq _ _ e6]
  · obtain ⟨e1, e2, e3, e4, e5, e6, -⟩ := e
    simp only [MediumObj.hash, List.map_cons, h.num_eq _ _ e1, h.num_eq _ _ e2, h.num_eq _ _ e3, h.num_eq _ _ e4, h.num_eq _ _ e5,
      h.num_eq _ _ e6]
  · obtain ⟨e1, e2, e3⟩ := e
    simp only [MediumObj.hash, h.num_eq _ _ e1, h.num_eq _ _ e2, h.num_eq _ _ e3]

/-- **C68** for coatings. -/
theorem C68_coating (a b : CoatingObj F) (e : a.eq b = .ok true) : a.hash h = b.hash h := by
  simp only [CoatingObj.eq, pyAnd_true, numEq_true] at e
  simp only [CoatingObj.hash, h.num_eq _ _ e.1, h.num_eq _ _ e.2]

/-- **C68** for frames. -/
theorem C68_coordSys (a b : CoordSys F) (e : coordSysEq a b = .ok true) : coordSysHash h a = coordSysHash h b := by
  simp only [coordSysEq, Except.ok.injEq, Bool.and_eq_true] at e
  simp only [coordSysHash, arrayEqual_num h e.1, arrayEqual2_num h e.2]

/-- **C68** for transforms. -/
theorem C68_transform (a b : TransformObj F) (e : a.eq b = .ok true) : a.hash h = b.hash h := by
  simp only [TransformObj.eq, pyAnd_true] at e
  simp only [TransformObj.hash, C68_coordSys h _ _ e.1, C68_coordSys h _ _ e.2]

/-- **C68** for lattices. -/
theorem C68_lattice (a b : LatticeObj F) (e : a.eq b = .ok true) : a.hash h = b.hash h := by
  simp only [LatticeObj.eq, Except.ok.injEq, Bool.and_eq_true] at e
  simp only [LatticeObj.hash, arrayEqual_num h e.1.2, arrayEqual2_num h e.2]

mutual
/-- Every `nanpolicy` in the surface is spelled as documented: `'nan'` or `'zero'`. -/
def Documented : SurfaceObj F → Prop
  | .bicubic _ _ _ _ _ _ p => p = "nan".toList ∨ p = "zero".toList
  | .sum ss => AllDocumented ss
  | _ => True
/-- The same for a list. -/
def AllDocumented : List (SurfaceObj F) → Prop
  | [] => True
  | s :: ss => Documented s ∧ AllDocumented ss
end

theorem policy_eq {p q : List Char} (hp : p = "nan".toList ∨ p = "zero".toList) (hq : q = "nan".toList ∨ q = "zero".toList)
    (h : upper p = upper q) : p = q := by
  rcases hp with rfl | rfl <;> rcases hq with rfl | rfl <;> first | rfl | (exfalso; revert h; decide)

mutual
/-- **C68** for surfaces whose `nanpolicy` is spelled as documented. -/
theorem C68_surface_partial : ∀ (a b : SurfaceObj F), Documented a → Documented b → a.eq b = .ok true → a.hash h = b.hash h
  | .sum ss, b, da, db, e => by
    cases b <;> simp only [SurfaceObj.eq, Except.ok.injEq, Bool.false_eq_true] at e
    simp only [Documented] at da db
    simp only [SurfaceObj.hash, hashes_surface ss _ da db e]
  | .plane, b, da, db, e => by
    cases b <;> simp only [SurfaceObj.eq, Except.ok.injEq, Bool.false_eq_true] at e
    rfl
  | .tilted _ _, b, da, db, e => by
    cases b <;> simp only [SurfaceObj.eq, Except.ok.injEq, Bool.false_eq_true, pyAnd_true, numEq_true] at e
    simp only [SurfaceObj.hash, h.num_eq _ _ e.1, h.num_eq _ _ e.2]
  | .paraboloid _, b, da, db, e => by
    cases b <;> simp only [SurfaceObj.eq, Except.ok.injEq, Bool.false_eq_true, numEq_true] at e
    simp only [SurfaceObj.hash, h.num_eq _ _ e]
  | .sphere _, b, da, db, e => by
    cases b <;> simp only [SurfaceObj.eq, Except.ok.injEq, Bool.false_eq_true, numEq_true] at e
    simp only [SurfaceObj.hash, h.num_eq _ _ e]
  | .quadric _ _, b, da, db, e => by
    cases b <;> simp only [SurfaceObj.eq, Except.ok.injEq, Bool.false_eq_true, pyAnd_true, numEq_true] at e
    simp only [SurfaceObj.hash, h.num_eq _ _ e.1, h.num_eq _ _ e.2]
  | .asphere _ _ _ _, b, da, db, e => by
    cases b <;> simp only [SurfaceObj.eq, Except.ok.injEq, Bool.false_eq_true, pyAnd_true, numEq_true, decide_eq_true_eq] at e
    obtain ⟨e1, e2, e3, rfl⟩ := e
    simp only [SurfaceObj.hash, h.num_eq _ _ e1, h.num_eq _ _ e2, arrayEqual_num h e3]
  | .zernike _ _ _ _ _, b, da, db, e => by
    cases b <;> simp only [SurfaceObj.eq, Except.ok.injEq, Bool.false_eq_true, pyAnd_true, numEq_true] at e
    obtain ⟨e0, e1, e2, e3, e4⟩ := e
    simp only [SurfaceObj.hash, arrayEqual_num h e0, h.num_eq _ _ e1, h.num_eq _ _ e2, h.num_eq _ _ e3, h.num_eq _ _ e4]
  | .bicubic _ _ _ _ _ _ p, b, da, db, e => by
    cases b <;> simp only [SurfaceObj.eq, Except.ok.injEq, Bool.false_eq_true, Bool.and_eq_true, decide_eq_true_eq] at e
    obtain ⟨⟨⟨⟨⟨⟨e1, e2⟩, e3⟩, e4⟩, e5⟩, e6⟩, e7⟩ := e
    simp only [Documented] at da db
    simp only [SurfaceObj.hash, arrayEqual_num h e1, arrayEqual_num h e2, arrayEqual2_num h e3, arrayEqual2_num h e4, arrayEqual2_num h e5,
      arrayEqual2_num h e6, policy_eq da db e7]
theorem hashes_surface : ∀ (ss ss' : List (SurfaceObj F)), AllDocumented ss → AllDocumented ss' → SurfaceObj.itemsEq ss ss' = .ok true →
    SurfaceObj.hashes h ss = SurfaceObj.hashes h ss'
  | [], [], _, _, _ => rfl
  | [], _ :: _, _, _, e => by simp [SurfaceObj.itemsEq] at e
  | _ :: _, [], _, _, e => by simp [SurfaceObj.itemsEq] at e
  | s :: ss, s' :: ss', da, db, e => by
    simp only [SurfaceObj.itemsEq, pyAnd_true] at e
    simp only [AllDocumented] at da db
    simp only [SurfaceObj.hashes, C68_surface_partial s s' da.1 db.1 e.1, hashes_surface ss ss' da.2 db.2 e.2]
end

mutual
/-- Every polygon in the obscuration has at least two vertices. -/
def Proper : Obsc F → Prop
  | .polygon p => 2 ≤ p.length
  | .negation o => Proper o
  | .union os => AllProper os
  | .intersection os => AllProper os
  | _ => True
/-- The same for a list. -/
def AllProper : List (Obsc F) → Prop
  | [] => True
  | o :: os => Proper o ∧ AllProper os
end

mutual
/-- **C68** for obscurations whose polygons have at least two vertices. -/
theorem C68_obscuration_partial : ∀ (a b : Obsc F), Proper a → Proper b → ObscObj.eq a b = .ok true → ObscObj.hash h a = ObscObj.hash h b
  | .circle _ _ _, b, _, _, e => by
    cases b <;> simp only [ObscObj.eq, Except.ok.injEq, Bool.false_eq_true, pyAnd_true, numEq_true] at e
    obtain ⟨e1, e2, e3⟩ := e
    simp only [ObscObj.hash, h.num_eq _ _ e1, h.num_eq _ _ e2, h.num_eq _ _ e3]
  | .annulus _ _ _ _, b, _, _, e => by
    cases b <;> simp only [ObscObj.eq, Except.ok.injEq, Bool.false_eq_true, pyAnd_true, numEq_true] at e
    obtain ⟨e1, e2, e3, e4⟩ := e
    simp only [ObscObj.hash, h.num_eq _ _ e1, h.num_eq _ _ e2, h.num_eq _ _ e3, h.num_eq _ _ e4]
  | .rectangle _ _ _ _ _, b, _, _, e => by
    cases b <;> simp only [ObscObj.eq, Except.ok.injEq, Bool.false_eq_true, pyAnd_true, numEq_true] at e
    obtain ⟨e1, e2, e3, e4, e5⟩ := e
    simp only [ObscObj.hash, h.num_eq _ _ e1, h.num_eq _ _ e2, h.num_eq _ _ e3, h.num_eq _ _ e4, h.num_eq _ _ e5]
  | .ray _ _ _ _, b, _, _, e => by
    cases b <;> simp only [ObscObj.eq, Except.ok.injEq, Bool.false_eq_true, pyAnd_true, numEq_true] at e
    obtain ⟨e1, e2, e3, e4⟩ := e
    simp only [ObscObj.hash, h.num_eq _ _ e1, h.num_eq _ _ e2, h.num_eq _ _ e3, h.num_eq _ _ e4]
  | .polygon _, b, da, db, e => by
    cases b <;> simp only [ObscObj.eq, Except.ok.injEq, Bool.false_eq_true, pyAnd_true] at e
    simp only [Proper] at da db
    simp only [ObscObj.hash, npAllEq_num h (by simpa using da) (by simpa using db) e.1,
      npAllEq_num h (by simpa using da) (by simpa using db) e.2]
  | .negation o, b, da, db, e => by
    cases b <;> simp only [ObscObj.eq, Except.ok.injEq, Bool.false_eq_true] at e
    simp only [Proper] at da db
    simp only [ObscObj.hash, C68_obscuration_partial o _ da db e]
  | .union os, b, da, db, e => by
    cases b <;> simp only [ObscObj.eq, Except.ok.injEq, Bool.false_eq_true] at e
    split at e
    · simp only [Proper] at da db
      simp only [ObscObj.hash, hashes_obsc os _ da db e]
    · simp at e
  | .intersection os, b, da, db, e => by
    cases b <;> simp only [ObscObj.eq, Except.ok.injEq, Bool.false_eq_true] at e
    split at e
    · simp only [Proper] at da db
      simp only [ObscObj.hash, hashes_obsc os _ da db e]
    · simp at e
theorem hashes_obsc : ∀ (os os' : List (Obsc F)), AllProper os → AllProper os' → ObscObj.itemsEq os os' = .ok true →
    ObscObj.hashes h os = ObscObj.hashes h os'
  | [], [], _, _, _ => rfl
  | [], _ :: _, _, _, e => by simp [ObscObj.itemsEq] at e
  | _ :: _, [], _, _, e => by simp [ObscObj.itemsEq] at e
  | s :: ss, s' :: ss', da, db, e => by
    simp only [ObscObj.itemsEq, pyAnd_true] at e
    simp only [AllProper] at da db
    simp only [ObscObj.hashes, C68_obscuration_partial s s' da.1 db.1 e.1, hashes_obsc ss ss' da.2 db.2 e.2]
end

/-- Both conditions for an interface. -/
def OrderlyIface (a : IfaceObj F) : Prop :=
  Documented a.surface ∧ (∀ o, a.obscuration = some o → Proper o) ∧ ∀ s, a.kind = .screen s → Documented s

mutual
/-- Both conditions for an optic. -/
def Orderly : OpticObj F → Prop
  | .iface a => OrderlyIface a
  | .compound _ xs => AllOrderly xs
/-- The same for a list. -/
def AllOrderly : List (OpticObj F) → Prop
  | [] => True
  | o :: os => Orderly o ∧ AllOrderly os
end

theorem className_eq {a b : KindObj F} (hk : a.sameClass b = true) : a.className = b.className :=
  match a, b, hk with
  | .plain, .plain, _ => rfl
  | .refractive, .refractive, _ => rfl
  | .mirror, .mirror, _ => rfl
  | .detector, .detector, _ => rfl
  | .baffle, .baffle, _ => rfl
  | .screen _, .screen _, _ => rfl

theorem baseHash_eq {a b : IfaceObj F} (da : OrderlyIface a) (db : OrderlyIface b) (e : a.baseEq b = .ok true) :
    a.kind.sameClass b.kind = true ∧ a.baseHash h = b.baseHash h := by
  unfold IfaceObj.baseEq at e
  split at e
  · simp at e
  · rename_i hk
    simp only [pyAnd_true, Except.ok.injEq, decide_eq_true_eq] at e
    obtain ⟨e1, e2, e3, e4, e5, e6⟩ := e
    have hk' : a.kind.sameClass b.kind = true := by simpa using hk
    refine ⟨hk', ?_⟩
    have hc : a.kind.className = b.kind.className := className_eq hk'
    have ho : optObscHash h a.obscuration = optObscHash h b.obscuration := by
      cases ha : a.obscuration with
      | none =>
        cases hb : b.obscuration with
        | none => rfl
        | some _ => rw [ha, hb] at e2; simp [optObscEq] at e2
      | some o =>
        cases hb : b.obscuration with
        | none => rw [ha, hb] at e2; simp [optObscEq] at e2
        | some o' =>
          rw [ha, hb] at e2
          exact C68_obscuration_partial h o o' (da.2.1 o ha) (db.2.1 o' hb) e2
    unfold IfaceObj.baseHash
    rw [hc, C68_surface_partial h _ _ da.1 db.1 e1, ho, e3, C68_medium h _ _ e4, C68_medium h _ _ e5, C68_coordSys h _ _ e6]

theorem ifaceHash_eq {a b : IfaceObj F} (da : OrderlyIface a) (db : OrderlyIface b) (e : a.eq b = .ok true) : a.hash h = b.hash h := by
  unfold IfaceObj.eq at e
  unfold IfaceObj.hash
  split at e
  · rename_i s s' ha hb
    rw [pyAnd_true] at e
    rw [ha, hb]
    simp only [(baseHash_eq h da db e.1).2, C68_surface_partial h _ _ (da.2.2 s ha) (db.2.2 s' hb) e.2]
  · rename_i hn
    obtain ⟨h1, h2⟩ := baseHash_eq h da db e
    revert h1 hn
    cases a.kind <;> cases b.kind <;> simp [KindObj.sameClass, h2]

mutual
/-- **C68** for optics: interfaces of every class, lenses and compounds. -/
theorem C68_optic_partial : ∀ (a b : OpticObj F), Orderly a → Orderly b → a.eq b = .ok true → a.hash h = b.hash h
  | .iface a, b, da, db, e => by
    cases b <;> simp only [OpticObj.eq, Except.ok.injEq, Bool.false_eq_true] at e
    simp only [Orderly] at da db
    simp only [OpticObj.hash, ifaceHash_eq h da db e]
  | .compound a xs, .iface _, da, db, e => by simp [OpticObj.eq] at e
  | .compound a xs, .compound b ys, da, db, e => by
    simp only [OpticObj.eq] at e
    split at e
    · simp at e
    · rename_i hl
      simp only [pyAnd_true, Except.ok.injEq, decide_eq_true_eq] at e
      obtain ⟨e1, e2, e3, e4, e5⟩ := e
      simp only [Orderly] at da db
      have hl' : a.isLens = b.isLens := by simpa using hl
      simp only [OpticObj.hash, hl', hashes_optic xs _ da db e1, e2, C68_medium h _ _ e3, C68_medium h _ _ e4, C68_coordSys h _ _ e5]
theorem hashes_optic : ∀ (os os' : List (OpticObj F)), AllOrderly os → AllOrderly os' → OpticObj.itemsEq os os' = .ok true →
    OpticObj.hashes h os = OpticObj.hashes h os'
  | [], [], _, _, _ => rfl
  | [], _ :: _, _, _, e => by simp [OpticObj.itemsEq] at e
  | _ :: _, [], _, _, e => by simp [OpticObj.itemsEq] at e
  | s :: ss, s' :: ss', da, db, e => by
    simp only [OpticObj.itemsEq, pyAnd_true] at e
    simp only [AllOrderly] at da db
    simp only [OpticObj.hashes, C68_optic_partial s s' da.1 db.1 e.1, hashes_optic ss ss' da.2 db.2 e.2]
end

end hash

/-! ### Where it fails -/

/-- A `Bicubic` on the unit square. -/
def squareBicubic (p : List Char) : SurfaceObj Dbl :=
  .bicubic [.fin 0, .fin 1] [.fin 0, .fin 1] [[.fin 0, .fin 1], [.fin 1, .fin 2]] [[.fin 1, .fin 1], [.fin 1, .fin 1]]
    [[.fin 1, .fin 1], [.fin 1, .fin 1]] [[.fin 0, .fin 0], [.fin 0, .fin 0]] p

theorem dbl_refl (r : ℝ) : Arith.eq (Dbl.fin r) (Dbl.fin r) = true := by simp

/-- **C68** is false for `Bicubic`: `nanpolicy='nan'` and `nanpolicy='NAN'` compare equal, and their hashes differ as soon as `hash`
tells these two strings and different tuples apart. -/
theorem C68_bicubic_violated : (squareBicubic "nan".toList).eq (squareBicubic "NAN".toList) = .ok true ∧
    ∀ {H : Type} (h : Hasher Dbl H), Function.Injective h.str → Function.Injective h.tuple →
      (squareBicubic "nan".toList).hash h ≠ (squareBicubic "NAN".toList).hash h := by
  constructor
  · have hu : upper "nan".toList = upper "NAN".toList := by decide
    simp only [squareBicubic, SurfaceObj.eq, arrayEqual, arrayEqual2, allEq, dbl_refl, hu]
    simp
  · intro H h h1 h2 e
    have e' := h2 e
    simp only [List.cons.injEq, and_true, true_and] at e'
    have := h1 e'
    revert this
    decide

/-- **C68** is false for `ObscPolygon`: `np.all(self.xs == rhs.xs)` broadcasts, so a polygon with one vertex equals one that has the
vertex twice, and their hashes differ as soon as `hash` tells tuples apart. -/
theorem C68_polygon_violated : ObscObj.eq (.polygon [(Dbl.fin 1, Dbl.fin 2)]) (.polygon [(Dbl.fin 1, Dbl.fin 2), (Dbl.fin 1, Dbl.fin 2)]) =
      .ok true ∧
    ∀ {H : Type} (h : Hasher Dbl H), Function.Injective h.tuple →
      ObscObj.hash h (.polygon [(Dbl.fin 1, Dbl.fin 2)]) ≠ ObscObj.hash h (.polygon [(Dbl.fin 1, Dbl.fin 2), (Dbl.fin 1, Dbl.fin 2)]) := by
  constructor
  · simp [ObscObj.eq, npAllEq, pyAnd]
  · intro H h h2 e
    have e' := h2 e
    simp only [List.cons.injEq, and_true, true_and] at e'
    simpa using h2 e'.1

/-- The free hash: it tells apart everything that it may. -/
inductive FreeHash where
  | str (s : List Char)
  | num (x : Dbl)
  | int (i : ℤ)
  | none
  | tuple (l : List FreeHash)
  | ofHash (h : FreeHash)

/-- `a == b` of `Dbl` means `a = b`; NaN equals nothing. -/
theorem dbl_eq_eq {a b : Dbl} (h : Arith.eq a b = true) : a = b := by
  have ha : a ≠ .nan := by
    rintro rfl
    revert h
    cases b <;> simp
  exact (dbl_eq_iff ha).mp h

/-- A lawful hasher for exact numbers. -/
def freeHasher : Hasher Dbl FreeHash :=
  ⟨.str, .num, .int, .none, .tuple, .ofHash, fun _ _ h => by rw [dbl_eq_eq h]⟩

example : Function.Injective freeHasher.str ∧ Function.Injective freeHasher.tuple :=
  ⟨fun _ _ h => FreeHash.str.inj h, fun _ _ h => FreeHash.tuple.inj h⟩

/-- Two documented surfaces that compare equal. -/
example : Documented (SurfaceObj.sum [.sphere (Dbl.fin 2), squareBicubic "nan".toList]) ∧
    SurfaceObj.eq (.sum [.sphere (Dbl.fin 2), squareBicubic "nan".toList]) (.sum [.sphere (Dbl.fin 2), squareBicubic "nan".toList]) =
      .ok true := by
  refine ⟨⟨trivial, Or.inl rfl, trivial⟩, ?_⟩
  simp only [squareBicubic, SurfaceObj.eq, SurfaceObj.itemsEq, pyAnd_true, numEq_true, arrayEqual, arrayEqual2, allEq, dbl_refl]
  simp

/-- Two obscurations that compare equal. -/
example : Proper (.union [.circle (Dbl.fin 2) 0 0, .negation (.polygon [(Dbl.fin 0, Dbl.fin 0), (Dbl.fin 1, Dbl.fin 0), (Dbl.fin 0, Dbl.fin 1)])]) :=
  ⟨trivial, by simp [Proper], trivial⟩

/-! ## C80: equal objects behave equally -/

theorem allEq_eq : ∀ {a b : List Dbl}, allEq a b = true → a = b
  | [], [], _ => rfl
  | [], _ :: _, e => by simp [allEq] at e
  | _ :: _, [], e => by simp [allEq] at e
  | x :: xs, y :: ys, e => by
    simp only [allEq, Bool.and_eq_true] at e
    rw [dbl_eq_eq e.1, allEq_eq e.2]

theorem arrayEqual_eq {a b : List Dbl} (e : arrayEqual a b = true) : a = b := by
  simp only [arrayEqual, Bool.and_eq_true] at e
  exact allEq_eq e.2

theorem arrayEqual2_eq : ∀ {a b : List (List Dbl)}, arrayEqual2 a b = true → a = b
  | [], [], _ => rfl
  | [], _ :: _, e => by simp [arrayEqual2] at e
  | _ :: _, [], e => by simp [arrayEqual2] at e
  | x :: xs, y :: ys, e => by
    simp only [arrayEqual2, Bool.and_eq_true] at e
    rw [arrayEqual_eq e.1, arrayEqual2_eq e.2]

/-- Frames that compare equal are equal. -/
theorem coordSysEq_eq {a b : CoordSys Dbl} (e : coordSysEq a b = .ok true) : a = b := by
  simp only [coordSysEq, Except.ok.injEq, Bool.and_eq_true] at e
  have h1 := arrayEqual_eq e.1
  have h2 := arrayEqual2_eq e.2
  obtain ⟨⟨_, _, _⟩, ⟨_, _, _, _, _, _, _, _, _⟩⟩ := a
  obtain ⟨⟨_, _, _⟩, ⟨_, _, _, _, _, _, _, _, _⟩⟩ := b
  simp only [originList, rotRows, List.cons.injEq, and_true] at h1 h2
  obtain ⟨rfl, rfl, rfl⟩ := h1
  obtain ⟨⟨rfl, rfl, rfl⟩, ⟨rfl, rfl, rfl⟩, rfl, rfl, rfl⟩ := h2
  rfl

/-- Media that compare equal are equal. -/
theorem mediumEq_eq {a b : MediumObj Dbl} (e : a.eq b = .ok true) : a = b := by
  cases a <;> cases b <;>
    simp only [MediumObj.eq, tupleEq, pyAnd_true, numEq_true, Except.ok.injEq, Bool.and_eq_true, Bool.false_eq_true] at e
  · rw [dbl_eq_eq e]
  · rw [arrayEqual_eq e.1, arrayEqual_eq e.2]
  · obtain ⟨e1, e2, e3, e4, e5, e6, -⟩ := e
    rw [dbl_eq_eq e1, dbl_eq_eq e2, dbl_eq_eq e3, dbl_eq_eq e4, dbl_eq_eq e5, dbl_eq_eq e6]
  · obtain ⟨e1, e2, e3, e4, e5, e6, -⟩ := e
    rw [dbl_eq_eq e1, dbl_eq_eq e2, dbl_eq_eq e3, dbl_eq_eq e4, dbl_eq_eq e5, dbl_eq_eq e6]
  · obtain ⟨e1, e2, e3⟩ := e
    rw [dbl_eq_eq e1, dbl_eq_eq e2, dbl_eq_eq e3]

/-- **C80** for media: `a == b` gives the same refractive index at every wavelength. -/
theorem C80_medium (junk : Dbl) (a b : MediumObj Dbl) (e : a.eq b = .ok true) (w : Dbl) :
    (a.denote junk).getN w = (b.denote junk).getN w := by
  rw [mediumEq_eq e]

/-- **C80** for coatings. -/
theorem C80_coating (a b : CoatingObj Dbl) (e : a.eq b = .ok true) (w cosI : Dbl) :
    a.denote.getCoefs w cosI = b.denote.getCoefs w cosI := by
  simp only [CoatingObj.eq, pyAnd_true, numEq_true] at e
  simp only [CoatingObj.denote, dbl_eq_eq e.1, dbl_eq_eq e.2]

/-- **C80** for transforms: the same map of positions and velocities. -/
theorem C80_transform (a b : TransformObj Dbl) (e : a.eq b = .ok true) (r : V3 Dbl) :
    (CoordTransform.make a.fromSys a.toSys).forward r = (CoordTransform.make b.fromSys b.toSys).forward r ∧
      (CoordTransform.make a.fromSys a.toSys).reverse r = (CoordTransform.make b.fromSys b.toSys).reverse r := by
  simp only [TransformObj.eq, pyAnd_true] at e
  rw [coordSysEq_eq e.1, coordSysEq_eq e.2]
  exact ⟨rfl, rfl⟩

theorem table_upper (env : Env Dbl) (xs ys : List Dbl) (z zx zy zxy : List (List Dbl)) {p q : List Char} (h : upper p = upper q) :
    SurfaceObj.table env xs ys z zx zy zxy p = SurfaceObj.table env xs ys z zx zy zxy q := by
  simp only [SurfaceObj.table, h]

mutual
/-- **C80** for surfaces: `a == b` gives the same sag, the same normal and the same intersections (whatever galsim computes for a
Zernike polynomial), also when `nanpolicy` is spelled differently. -/
theorem C80_surface (env : Env Dbl) : ∀ (a b : SurfaceObj Dbl), a.eq b = .ok true → a.denote env = b.denote env
  | .sum ss, b, e => by
    cases b <;> simp only [SurfaceObj.eq, Except.ok.injEq, Bool.false_eq_true] at e
    simp only [SurfaceObj.denote, denotes_surface env ss _ e]
  | .plane, b, e => by
    cases b <;> simp only [SurfaceObj.eq, Except.ok.injEq, Bool.false_eq_true] at e
    rfl
  | .tilted _ _, b, e => by
    cases b <;> simp only [SurfaceObj.eq, Except.ok.injEq, Bool.false_eq_true, pyAnd_true, numEq_true] at e
    rw [dbl_eq_eq e.1, dbl_eq_eq e.2]
  | .paraboloid _, b, e => by
    cases b <;> simp only [SurfaceObj.eq, Except.ok.injEq, Bool.false_eq_true, numEq_true] at e
    rw [dbl_eq_eq e]
  | .sphere _, b, e => by
    cases b <;> simp only [SurfaceObj.eq, Except.ok.injEq, Bool.false_eq_true, numEq_true] at e
    rw [dbl_eq_eq e]
  | .quadric _ _, b, e => by
    cases b <;> simp only [SurfaceObj.eq, Except.ok.injEq, Bool.false_eq_true, pyAnd_true, numEq_true] at e
    rw [dbl_eq_eq e.1, dbl_eq_eq e.2]
  | .asphere _ _ _ _, b, e => by
    cases b <;> simp only [SurfaceObj.eq, Except.ok.injEq, Bool.false_eq_true, pyAnd_true, numEq_true, decide_eq_true_eq] at e
    obtain ⟨e1, e2, e3, rfl⟩ := e
    rw [dbl_eq_eq e1, dbl_eq_eq e2, arrayEqual_eq e3]
  | .zernike _ _ _ _ _, b, e => by
    cases b <;> simp only [SurfaceObj.eq, Except.ok.injEq, Bool.false_eq_true, pyAnd_true, numEq_true] at e
    obtain ⟨e0, e1, e2, e3, e4⟩ := e
    rw [arrayEqual_eq e0, dbl_eq_eq e1, dbl_eq_eq e2, dbl_eq_eq e3, dbl_eq_eq e4]
  | .bicubic _ _ _ _ _ _ p, b, e => by
    cases b <;> simp only [SurfaceObj.eq, Except.ok.injEq, Bool.false_eq_true, Bool.and_eq_true, decide_eq_true_eq] at e
    obtain ⟨⟨⟨⟨⟨⟨e1, e2⟩, e3⟩, e4⟩, e5⟩, e6⟩, e7⟩ := e
    rw [arrayEqual_eq e1, arrayEqual_eq e2, arrayEqual2_eq e3, arrayEqual2_eq e4, arrayEqual2_eq e5, arrayEqual2_eq e6]
    simp only [SurfaceObj.denote, table_upper env _ _ _ _ _ _ e7]
theorem denotes_surface (env : Env Dbl) : ∀ (ss ss' : List (SurfaceObj Dbl)), SurfaceObj.itemsEq ss ss' = .ok true →
    SurfaceObj.denotes env ss = SurfaceObj.denotes env ss'
  | [], [], _ => rfl
  | [], _ :: _, e => by simp [SurfaceObj.itemsEq] at e
  | _ :: _, [], e => by simp [SurfaceObj.itemsEq] at e
  | s :: ss, s' :: ss', e => by
    simp only [SurfaceObj.itemsEq, pyAnd_true] at e
    simp only [SurfaceObj.denotes, C80_surface env s s' e.1, denotes_surface env ss ss' e.2]
end

/-! ### Obscurations -/

theorem polyEdge_same (x y : Dbl) (c : Dbl × Dbl) (st : Dbl × Bool) : Obsc.polyEdge x y c c st = st := by
  have h1 : ∀ a : Dbl, Arith.min a a = a := fun a => by simp [Arith.min]
  have h2 : ∀ a : Dbl, Arith.max a a = a := fun a => by simp [Arith.max]
  have h3 : ∀ a b : Dbl, Arith.gt a b = true → Arith.le a b = false := by
    intro a b
    cases a <;> cases b <;> first | (intro h; rfl) | (intro h; cases h; done) | (simp [Arith.gt]; done)
  unfold Obsc.polyEdge
  rw [h1, h2]
  split
  · rename_i h
    simp [h3 _ _ h]
  · rfl

theorem polygonContains_same (x y : Dbl) (p : List (Dbl × Dbl)) (c : Dbl × Dbl) (h : ∀ v ∈ p, v = c) :
    Obsc.polygonContains p x y = false := by
  have hl : ∀ (l : List (Dbl × Dbl)) (st : Dbl × Bool), (∀ v ∈ l, v = c) → Obsc.polyLoop x y c l st = st := by
    intro l
    induction l with
    | nil => intro st _; rfl
    | cons v l ih =>
      intro st hv
      obtain rfl := hv v (by simp)
      rw [Obsc.polyLoop, polyEdge_same]
      exact ih st fun w hw => hv w (List.mem_cons_of_mem _ hw)
  cases p with
  | nil => rfl
  | cons v l =>
    obtain rfl := h v (by simp)
    unfold Obsc.polygonContains
    simp only
    rw [hl]
    intro w hw
    simp only [List.mem_append, List.mem_singleton] at hw
    rcases hw with hw | rfl
    · exact h w (List.mem_cons_of_mem _ hw)
    · rfl

theorem all_eq {x : Dbl} {b : List Dbl} (h : (b.all fun y => Arith.eq x y) = true) : ∀ y ∈ b, y = x := by
  intro y hy
  rw [List.all_eq_true] at h
  exact (dbl_eq_eq (h y hy)).symm

theorem polygonEq_cases {p q : List (Dbl × Dbl)} (e : ObscObj.eq (.polygon p) (.polygon q) = .ok true) :
    p = q ∨ ∃ c, (∀ v ∈ p, v = c) ∧ ∀ v ∈ q, v = c := by
  simp only [ObscObj.eq, pyAnd_true] at e
  obtain ⟨e1, e2⟩ := e
  unfold npAllEq at e1 e2
  by_cases hl : p.length = q.length
  · left
    simp only [List.length_map, hl, if_true, Except.ok.injEq] at e1 e2
    have h1 := allEq_eq e1
    have h2 := allEq_eq e2
    apply List.ext_getElem hl
    intro i hi hi'
    apply Prod.ext
    · have := congrArg (·[i]?) h1
      simpa [List.getElem?_eq_getElem hi, List.getElem?_eq_getElem hi'] using this
    · have := congrArg (·[i]?) h2
      simpa [List.getElem?_eq_getElem hi, List.getElem?_eq_getElem hi'] using this
  · right
    simp only [List.length_map, hl, if_false] at e1 e2
    rcases p with _ | ⟨a, _ | ⟨a', p⟩⟩
    · rcases q with _ | ⟨b, _ | ⟨b', q⟩⟩
      · simp at hl
      · exact ⟨b, by simp, by simp⟩
      · simp at e1
    · simp only [List.map_cons, List.map_nil, Except.ok.injEq] at e1 e2
      refine ⟨a, by simp, fun v hv => ?_⟩
      exact Prod.ext (all_eq e1 _ (List.mem_map_of_mem hv)) (all_eq e2 _ (List.mem_map_of_mem hv))
    · rcases q with _ | ⟨b, _ | ⟨b', q⟩⟩
      · simp at e1
      · simp only [List.map_cons, List.map_nil, Except.ok.injEq] at e1 e2
        refine ⟨b, fun v hv => ?_, by simp⟩
        have h1 : ∀ x ∈ a.1 :: a'.1 :: List.map Prod.fst p, x = b.1 := fun x hx => dbl_eq_eq ((List.all_eq_true.mp e1) x hx)
        have h2 : ∀ x ∈ a.2 :: a'.2 :: List.map Prod.snd p, x = b.2 := fun x hx => dbl_eq_eq ((List.all_eq_true.mp e2) x hx)
        exact Prod.ext (h1 _ (by simpa using List.mem_map_of_mem (f := Prod.fst) hv)) (h2 _ (by simpa using List.mem_map_of_mem (f := Prod.snd) hv))
      · simp at e1

mutual
/-- **C80** for obscurations: `a == b` clips the same points, also for polygons that are equal only after broadcasting. -/
theorem C80_obscuration : ∀ (a b : Obsc Dbl), ObscObj.eq a b = .ok true → ∀ x y, a.contains x y = b.contains x y
  | .circle _ _ _, b, e, x, y => by
    cases b <;> simp only [ObscObj.eq, Except.ok.injEq, Bool.false_eq_true, pyAnd_true, numEq_true] at e
    obtain ⟨e1, e2, e3⟩ := e
    rw [dbl_eq_eq e1, dbl_eq_eq e2, dbl_eq_eq e3]
  | .annulus _ _ _ _, b, e, x, y => by
    cases b <;> simp only [ObscObj.eq, Except.ok.injEq, Bool.false_eq_true, pyAnd_true, numEq_true] at e
    obtain ⟨e1, e2, e3, e4⟩ := e
    rw [dbl_eq_eq e1, dbl_eq_eq e2, dbl_eq_eq e3, dbl_eq_eq e4]
  | .rectangle _ _ _ _ _, b, e, x, y => by
    cases b <;> simp only [ObscObj.eq, Except.ok.injEq, Bool.false_eq_true, pyAnd_true, numEq_true] at e
    obtain ⟨e1, e2, e3, e4, e5⟩ := e
    rw [dbl_eq_eq e1, dbl_eq_eq e2, dbl_eq_eq e3, dbl_eq_eq e4, dbl_eq_eq e5]
  | .ray _ _ _ _, b, e, x, y => by
    cases b <;> simp only [ObscObj.eq, Except.ok.injEq, Bool.false_eq_true, pyAnd_true, numEq_true] at e
    obtain ⟨e1, e2, e3, e4⟩ := e
    rw [dbl_eq_eq e1, dbl_eq_eq e2, dbl_eq_eq e3, dbl_eq_eq e4]
  | .polygon p, b, e, x, y => by
    cases b with
    | polygon q =>
      rcases polygonEq_cases e with rfl | ⟨c, h1, h2⟩
      · rfl
      · simp only [Obsc.contains, polygonContains_same x y p c h1, polygonContains_same x y q c h2]
    | _ => simp [ObscObj.eq] at e
  | .negation o, b, e, x, y => by
    cases b <;> simp only [ObscObj.eq, Except.ok.injEq, Bool.false_eq_true] at e
    simp only [Obsc.contains, C80_obscuration o _ e x y]
  | .union os, b, e, x, y => by
    cases b <;> simp only [ObscObj.eq, Except.ok.injEq, Bool.false_eq_true] at e
    split at e
    · simp only [Obsc.contains, (items_contain os _ e x y false).1]
    · simp at e
  | .intersection os, b, e, x, y => by
    cases b <;> simp only [ObscObj.eq, Except.ok.injEq, Bool.false_eq_true] at e
    split at e
    · simp only [Obsc.contains, (items_contain os _ e x y true).2]
    · simp at e
theorem items_contain : ∀ (os os' : List (Obsc Dbl)), ObscObj.itemsEq os os' = .ok true → ∀ x y r,
    Obsc.unionContains os x y r = Obsc.unionContains os' x y r ∧ Obsc.interContains os x y r = Obsc.interContains os' x y r
  | [], [], _, _, _, _ => ⟨rfl, rfl⟩
  | [], _ :: _, e, _, _, _ => by simp [ObscObj.itemsEq] at e
  | _ :: _, [], e, _, _, _ => by simp [ObscObj.itemsEq] at e
  | s :: ss, s' :: ss', e, x, y, r => by
    simp only [ObscObj.itemsEq, pyAnd_true] at e
    simp only [Obsc.unionContains, Obsc.interContains, C80_obscuration s s' e.1 x y]
    exact ⟨(items_contain ss ss' e.2 x y _).1, (items_contain ss ss' e.2 x y _).2⟩
end

/-! ### Optics -/

theorem ifaceEq_trace (env : Env Dbl) {a b : IfaceObj Dbl} (e : a.eq b = .ok true) :
    a.name = b.name ∧ ∀ niter reverse rv, (a.denote env).trace niter reverse rv = (b.denote env).trace niter reverse rv := by
  have key : ∀ (hb : a.baseEq b = .ok true) (hk : a.kind.sameClass b.kind = true → a.kind.denote env = b.kind.denote env),
      a.name = b.name ∧ ∀ niter reverse rv, (a.denote env).trace niter reverse rv = (b.denote env).trace niter reverse rv := by
    intro hb hk
    unfold IfaceObj.baseEq at hb
    split at hb
    · simp at hb
    · rename_i hc
      simp only [pyAnd_true, Except.ok.injEq, decide_eq_true_eq] at hb
      obtain ⟨e1, e2, e3, e4, e5, e6⟩ := hb
      refine ⟨e3, fun niter reverse rv => ?_⟩
      have hk' := hk (by simpa using hc)
      have hi : (a.denote env).interact niter reverse rv = (b.denote env).interact niter reverse rv := by
        unfold Iface.interact
        simp only [IfaceObj.denote, hk', C80_surface env _ _ e1, mediumEq_eq e4, mediumEq_eq e5, coordSysEq_eq e6]
      unfold Iface.trace
      rw [hi]
      unfold Iface.applyObscuration
      simp only [IfaceObj.denote]
      cases ha : a.obscuration with
      | none =>
        cases hb : b.obscuration with
        | none => rfl
        | some _ => rw [ha, hb] at e2; simp [optObscEq] at e2
      | some o =>
        cases hb : b.obscuration with
        | none => rw [ha, hb] at e2; simp [optObscEq] at e2
        | some o' =>
          rw [ha, hb] at e2
          simp only [RayVec.obscure]
          congr 1
          refine List.map_congr_left fun ray _ => ?_
          simp only [Ray.obscure, C80_obscuration o o' e2]
  unfold IfaceObj.eq at e
  split at e
  · rename_i s s' ha hb
    rw [pyAnd_true] at e
    refine key e.1 fun _ => ?_
    rw [ha, hb]
    simp only [KindObj.denote, C80_surface env _ _ e.2]
  · rename_i hn
    refine key e ?_
    revert hn
    cases a.kind <;> cases b.kind <;> simp [KindObj.sameClass, KindObj.denote]

mutual
/-- `skip` has the same value everywhere in the two trees. -/
def SameSkips {F : Type} [Arith F] : OpticObj F → OpticObj F → Prop
  | .iface a, .iface b => a.skip = b.skip
  | .compound a xs, .compound b ys => a.skip = b.skip ∧ AllSameSkips xs ys
  | _, _ => False
/-- The same for the items. -/
def AllSameSkips {F : Type} [Arith F] : List (OpticObj F) → List (OpticObj F) → Prop
  | [], [] => True
  | o :: os, o' :: os' => SameSkips o o' ∧ AllSameSkips os os'
  | _, _ => False
end

theorem sameSkips_skip (env : Env Dbl) : ∀ (a b : OpticObj Dbl), SameSkips a b → (a.denote env).skip = (b.denote env).skip
  | .iface _, .iface _, h => by simp only [SameSkips] at h; exact h
  | .compound _ _, .compound _ _, h => by simp only [SameSkips] at h; exact h.1
  | .iface _, .compound _ _, h => by simp [SameSkips] at h
  | .compound _ _, .iface _, h => by simp [SameSkips] at h

mutual
/-- **C80** for optics with the same `skip` flags: `a == b` traces every ray vector to the same result in both directions, and
`traceFull` gives the same records.  Coatings and stop surfaces, which `==` ignores, do not matter. -/
theorem C80_optic_partial (env : Env Dbl) (niter : ℕ) : ∀ (a b : OpticObj Dbl), a.eq b = .ok true → SameSkips a b → ∀ reverse rv,
    (a.denote env).trace niter reverse rv = (b.denote env).trace niter reverse rv ∧
      (a.denote env).traceFull niter reverse rv = (b.denote env).traceFull niter reverse rv
  | .iface a, b, e, hs, reverse, rv => by
    cases b <;> simp only [OpticObj.eq, Except.ok.injEq, Bool.false_eq_true] at e
    obtain ⟨h1, h2⟩ := ifaceEq_trace env e
    simp only [SameSkips] at hs
    rename_i b
    have hn : (a.denote env).name = (b.denote env).name := h1
    have hk : (a.denote env).skip = (b.denote env).skip := hs
    simp only [OpticObj.denote, Optic.trace, Optic.traceFull, h2, hn, hk, and_self]
  | .compound a xs, .iface _, e, _, _, _ => by simp [OpticObj.eq] at e
  | .compound a xs, .compound b ys, e, hs, reverse, rv => by
    simp only [OpticObj.eq] at e
    split at e
    · simp at e
    · simp only [pyAnd_true, Except.ok.injEq, decide_eq_true_eq] at e
      simp only [SameSkips] at hs
      obtain ⟨h1, h2, h3, h4⟩ := items_trace env niter xs ys e.1 hs.2
      have hk : (a.denote env).skip = (b.denote env).skip := hs.1
      simp only [OpticObj.denote, Optic.trace, Optic.traceFull, h1, h2, h3, h4, hk, and_self]
theorem items_trace (env : Env Dbl) (niter : ℕ) : ∀ (os os' : List (OpticObj Dbl)), OpticObj.itemsEq os os' = .ok true → AllSameSkips os os' →
    (∀ rv, Optic.traceItems niter (OpticObj.denotes env os) rv = Optic.traceItems niter (OpticObj.denotes env os') rv) ∧
    (∀ rv, Optic.traceItemsRev niter (OpticObj.denotes env os) rv = Optic.traceItemsRev niter (OpticObj.denotes env os') rv) ∧
    (∀ s, Optic.fullItems niter (OpticObj.denotes env os) s = Optic.fullItems niter (OpticObj.denotes env os') s) ∧
    ∀ s, Optic.fullItemsRev niter (OpticObj.denotes env os) s = Optic.fullItemsRev niter (OpticObj.denotes env os') s
  | [], [], _, _ => ⟨fun _ => rfl, fun _ => rfl, fun _ => rfl, fun _ => rfl⟩
  | [], _ :: _, e, _ => by simp [OpticObj.itemsEq] at e
  | _ :: _, [], e, _ => by simp [OpticObj.itemsEq] at e
  | o :: os, o' :: os', e, hs => by
    simp only [OpticObj.itemsEq, pyAnd_true] at e
    simp only [AllSameSkips] at hs
    have ht := C80_optic_partial env niter o o' e.1 hs.1
    have hk := sameSkips_skip env o o' hs.1
    obtain ⟨h1, h2, h3, h4⟩ := items_trace env niter os os' e.2 hs.2
    refine ⟨fun rv => ?_, fun rv => ?_, fun s => ?_, fun s => ?_⟩
    · simp only [OpticObj.denotes, Optic.traceItems, h1, hk, ht]
    · simp only [OpticObj.denotes, Optic.traceItemsRev, h2, hk, ht]
    · simp only [OpticObj.denotes, Optic.fullItems, h3, ht]
    · simp only [OpticObj.denotes, Optic.fullItemsRev, h4, ht]
end

/-! ### What `==` ignores -/

/-- An interface object with a plane and standard attributes. -/
def flatObj (nm : Name) (z : ℝ) (skip : Bool) : OpticObj Dbl :=
  .iface ⟨.baffle, nm, .plane, none, (⟨⟨0, 0, z⟩, M3.one⟩ : CoordSys ℝ).fin, .const (.fin 1), .const (.fin 1), skip, some ⟨.fin 0, .fin 1⟩,
    some ⟨.fin 0, .fin 1⟩, none⟩

/-- A compound of one baffle. -/
def boxObj (skip : Bool) : OpticObj Dbl :=
  .compound ⟨false, "box".toList, (⟨⟨0, 0, 0⟩, M3.one⟩ : CoordSys ℝ).fin, .const (.fin 1), .const (.fin 1), false, none⟩ [flatObj "flat".toList 5 skip]

theorem arrayEqual_refl {F : Type} [Arith F] {a : List F} (h : ∀ x ∈ a, Arith.eq x x = true) : arrayEqual a a = true := by
  have : allEq a a = true := by
    induction a with
    | nil => rfl
    | cons x xs ih =>
      simp only [allEq, Bool.and_eq_true]
      exact ⟨h x (by simp), ih fun y hy => h y (List.mem_cons_of_mem _ hy)⟩
  simp [arrayEqual, this]

theorem arrayEqual2_refl {F : Type} [Arith F] : ∀ {a : List (List F)}, (∀ x ∈ a.flatten, Arith.eq x x = true) → arrayEqual2 a a = true
  | [], _ => rfl
  | x :: xs, h => by
    simp only [arrayEqual2, Bool.and_eq_true]
    simp only [List.flatten_cons, List.mem_append] at h
    exact ⟨arrayEqual_refl fun y hy => h y (Or.inl hy), arrayEqual2_refl fun y hy => h y (Or.inr hy)⟩

/-- A number that is not NaN. -/
theorem eq_self {x : Dbl} (h : x ≠ .nan) : Arith.eq x x = true := (dbl_eq_iff h).mpr rfl

theorem coordSysEq_refl {F : Type} [Arith F] {a : CoordSys F} (h : ∀ x ∈ originList a ++ (rotRows a).flatten, Arith.eq x x = true) :
    coordSysEq a a = .ok true := by
  simp only [coordSysEq, Except.ok.injEq, Bool.and_eq_true]
  simp only [List.mem_append] at h
  exact ⟨arrayEqual_refl fun x hx => h x (Or.inl hx), arrayEqual2_refl fun x hx => h x (Or.inr hx)⟩

theorem coordSysEq_fin (c : CoordSys ℝ) : coordSysEq c.fin c.fin = .ok true := by
  apply coordSysEq_refl
  intro x hx
  apply eq_self
  rintro rfl
  simp [originList, rotRows, CoordSys.fin, M3.fin, M3.map] at hx

/-- **C80** is false for optics without the condition on `skip`: two compounds that compare equal, one of which passes its rays on
untouched while the other moves every ray to its baffle. -/
theorem C80_skip_violated (env : Env Dbl) (niter : ℕ) : (boxObj true).eq (boxObj false) = .ok true ∧
    ∀ rv : RayVec Dbl, ((boxObj true).denote env).trace niter false rv = rv ∧
      (((boxObj false).denote env).trace niter false rv).coordSys = (⟨⟨0, 0, 5⟩, M3.one⟩ : CoordSys ℝ).fin := by
  constructor
  · simp only [boxObj, flatObj, OpticObj.eq, OpticObj.itemsEq, IfaceObj.eq, IfaceObj.baseEq, KindObj.sameClass, SurfaceObj.eq, optObscEq,
      MediumObj.eq, coordSysEq_fin, pyAnd_true, numEq_true, dbl_refl]
    simp [pyAnd, numEq]
  · intro rv
    exact ⟨rfl, rfl⟩

/-! ## C81: `==` is an equivalence relation -/

/-- The laws of `==` on floats other than reflexivity (which NaN breaks). -/
structure EqLaws (F : Type) [Arith F] : Prop where
  symm : ∀ a b : F, Arith.eq a b = Arith.eq b a
  trans : ∀ a b c : F, Arith.eq a b = true → Arith.eq b c = true → Arith.eq a c = true

theorem dbl_eqLaws : EqLaws Dbl where
  symm a b := by
    cases a <;> cases b <;> first | rfl | simp [eq_comm]
  trans a b c h1 h2 := by rw [dbl_eq_eq h1]; exact h2

section symm
variable {F : Type} [Arith F]

theorem numEq_symm (law : EqLaws F) (a b : F) : numEq a b = numEq b a := by rw [numEq, numEq, law.symm]

theorem allEq_symm (law : EqLaws F) : ∀ a b : List F, allEq a b = allEq b a
  | [], [] => rfl
  | [], _ :: _ => rfl
  | _ :: _, [] => rfl
  | x :: xs, y :: ys => by simp only [allEq, law.symm x y, allEq_symm law xs ys]

theorem arrayEqual_symm (law : EqLaws F) (a b : List F) : arrayEqual a b = arrayEqual b a := by
  simp only [arrayEqual, allEq_symm law a b, eq_comm]

theorem arrayEqual2_symm (law : EqLaws F) : ∀ a b : List (List F), arrayEqual2 a b = arrayEqual2 b a
  | [], [] => rfl
  | [], _ :: _ => rfl
  | _ :: _, [] => rfl
  | x :: xs, y :: ys => by simp only [arrayEqual2, arrayEqual_symm law x y, arrayEqual2_symm law xs ys]

theorem npAllEq_symm (law : EqLaws F) (a b : List F) : npAllEq a b = npAllEq b a := by
  unfold npAllEq
  by_cases h : a.length = b.length
  · simp [h, allEq_symm law a b]
  · have h' : ¬ b.length = a.length := fun e => h e.symm
    simp only [h, h', if_false]
    rcases a with _ | ⟨x, _ | ⟨x', a⟩⟩ <;> rcases b with _ | ⟨y, _ | ⟨y', b⟩⟩ <;> simp_all [law.symm]

theorem coordSysEq_symm (law : EqLaws F) (a b : CoordSys F) : coordSysEq a b = coordSysEq b a := by
  simp only [coordSysEq, arrayEqual_symm law, arrayEqual2_symm law]

/-- **C81**, symmetry for media. -/
theorem C81_medium_symm (law : EqLaws F) (a b : MediumObj F) : a.eq b = b.eq a := by
  cases a <;> cases b <;> first | rfl | simp only [MediumObj.eq, tupleEq, numEq_symm law, arrayEqual_symm law]

mutual
/-- **C81**, symmetry for surfaces. -/
theorem C81_surface_symm (law : EqLaws F) : ∀ a b : SurfaceObj F, a.eq b = b.eq a
  | .sum ss, b => by
    cases b with
    | sum ss' => simp only [SurfaceObj.eq, surfaces_symm law ss ss']
    | _ => rfl
  | .plane, b => by cases b <;> rfl
  | .tilted a a', b => by
    cases b with
    | tilted b b' => simp only [SurfaceObj.eq, numEq_symm law a b, numEq_symm law a' b']
    | _ => rfl
  | .paraboloid a, b => by
    cases b with
    | paraboloid b => simp only [SurfaceObj.eq, numEq_symm law a b]
    | _ => rfl
  | .sphere a, b => by
    cases b with
    | sphere b => simp only [SurfaceObj.eq, numEq_symm law a b]
    | _ => rfl
  | .quadric a a', b => by
    cases b with
    | quadric b b' => simp only [SurfaceObj.eq, numEq_symm law a b, numEq_symm law a' b']
    | _ => rfl
  | .asphere a a' c i, b => by
    cases b with
    | asphere b b' c' i' => simp only [SurfaceObj.eq, numEq_symm law a b, numEq_symm law a' b', arrayEqual_symm law c c', eq_comm]
    | _ => rfl
  | .zernike c p q r s, b => by
    cases b with
    | zernike c' p' q' r' s' =>
      simp only [SurfaceObj.eq, numEq_symm law p p', numEq_symm law q q', numEq_symm law r r', numEq_symm law s s', arrayEqual_symm law c c']
    | _ => rfl
  | .bicubic a1 a2 a3 a4 a5 a6 p, b => by
    cases b with
    | bicubic b1 b2 b3 b4 b5 b6 q =>
      simp only [SurfaceObj.eq, arrayEqual_symm law a1 b1, arrayEqual_symm law a2 b2, arrayEqual2_symm law a3 b3, arrayEqual2_symm law a4 b4,
        arrayEqual2_symm law a5 b5, arrayEqual2_symm law a6 b6, eq_comm]
    | _ => rfl
theorem surfaces_symm (law : EqLaws F) : ∀ a b : List (SurfaceObj F), SurfaceObj.itemsEq a b = SurfaceObj.itemsEq b a
  | [], [] => rfl
  | [], _ :: _ => rfl
  | _ :: _, [] => rfl
  | s :: ss, s' :: ss' => by simp only [SurfaceObj.itemsEq, C81_surface_symm law s s', surfaces_symm law ss ss']
end

mutual
/-- **C81**, symmetry for obscurations; a comparison that raises does so in both orders. -/
theorem C81_obscuration_symm (law : EqLaws F) : ∀ a b : Obsc F, ObscObj.eq a b = ObscObj.eq b a
  | .circle p q r, b => by
    cases b with
    | circle p' q' r' => simp only [ObscObj.eq, numEq_symm law p p', numEq_symm law q q', numEq_symm law r r']
    | _ => rfl
  | .annulus p q r s, b => by
    cases b with
    | annulus p' q' r' s' => simp only [ObscObj.eq, numEq_symm law p p', numEq_symm law q q', numEq_symm law r r', numEq_symm law s s']
    | _ => rfl
  | .rectangle p q r s t, b => by
    cases b with
    | rectangle p' q' r' s' t' =>
      simp only [ObscObj.eq, numEq_symm law p p', numEq_symm law q q', numEq_symm law r r', numEq_symm law s s', numEq_symm law t t']
    | _ => rfl
  | .ray p q r s, b => by
    cases b with
    | ray p' q' r' s' => simp only [ObscObj.eq, numEq_symm law p p', numEq_symm law q q', numEq_symm law r r', numEq_symm law s s']
    | _ => rfl
  | .polygon p, b => by
    cases b with
    | polygon q => simp only [ObscObj.eq, npAllEq_symm law (p.map Prod.fst), npAllEq_symm law (p.map Prod.snd)]
    | _ => rfl
  | .negation o, b => by
    cases b with
    | negation o' => simp only [ObscObj.eq, C81_obscuration_symm law o o']
    | _ => rfl
  | .union os, b => by
    cases b with
    | union os' => simp only [ObscObj.eq, obscs_symm law os os', eq_comm]
    | _ => rfl
  | .intersection os, b => by
    cases b with
    | intersection os' => simp only [ObscObj.eq, obscs_symm law os os', eq_comm]
    | _ => rfl
theorem obscs_symm (law : EqLaws F) : ∀ a b : List (Obsc F), ObscObj.itemsEq a b = ObscObj.itemsEq b a
  | [], [] => rfl
  | [], _ :: _ => rfl
  | _ :: _, [] => rfl
  | s :: ss, s' :: ss' => by simp only [ObscObj.itemsEq, C81_obscuration_symm law s s', obscs_symm law ss ss']
end

theorem optObsc_symm (law : EqLaws F) (a b : Option (Obsc F)) : optObscEq a b = optObscEq b a := by
  cases a <;> cases b <;> first | rfl | exact C81_obscuration_symm law _ _

theorem sameClass_symm (a b : KindObj F) : a.sameClass b = b.sameClass a := by cases a <;> cases b <;> rfl

theorem baseEq_symm (law : EqLaws F) (a b : IfaceObj F) : a.baseEq b = b.baseEq a := by
  unfold IfaceObj.baseEq
  rw [sameClass_symm a.kind, C81_surface_symm law a.surface, optObsc_symm law a.obscuration, C81_medium_symm law a.inMedium,
    C81_medium_symm law a.outMedium, coordSysEq_symm law a.coordSys, decide_eq_decide.mpr (eq_comm (a := a.name))]

mutual
/-- **C81**, symmetry for optics. -/
theorem C81_optic_symm (law : EqLaws F) : ∀ a b : OpticObj F, a.eq b = b.eq a
  | .iface a, .iface b => by
    simp only [OpticObj.eq]
    unfold IfaceObj.eq
    cases ha : a.kind <;> cases hb : b.kind <;> simp only [baseEq_symm law a b]
    rw [C81_surface_symm law]
  | .iface _, .compound _ _ => rfl
  | .compound _ _, .iface _ => rfl
  | .compound a xs, .compound b ys => by
    simp only [OpticObj.eq]
    rw [optics_symm law xs ys, C81_medium_symm law a.inMedium, C81_medium_symm law a.outMedium, coordSysEq_symm law a.coordSys,
      decide_eq_decide.mpr (eq_comm (a := a.name)), bne_comm]
theorem optics_symm (law : EqLaws F) : ∀ a b : List (OpticObj F), OpticObj.itemsEq a b = OpticObj.itemsEq b a
  | [], [] => rfl
  | [], _ :: _ => rfl
  | _ :: _, [] => rfl
  | s :: ss, s' :: ss' => by simp only [OpticObj.itemsEq, C81_optic_symm law s s', optics_symm law ss ss']
end

end symm

section refl
variable {F : Type}

/-- The numbers in a medium. -/
def mediumNumbers : MediumObj F → List F
  | .const n => [n]
  | .table w n => w ++ n
  | .sellmeier a b c d e f => [a, b, c, d, e, f]
  | .sumita a b c d e f => [a, b, c, d, e, f]
  | .air p t h => [p, t, h]

mutual
/-- The numbers in a surface. -/
def surfaceNumbers : SurfaceObj F → List F
  | .plane => []
  | .tilted a b => [a, b]
  | .paraboloid R => [R]
  | .sphere R => [R]
  | .quadric R k => [R, k]
  | .asphere R k c _ => R :: k :: c
  | .zernike c o i x y => o :: i :: x :: y :: c
  | .bicubic xs ys z zx zy zxy _ => xs ++ ys ++ z.flatten ++ zx.flatten ++ zy.flatten ++ zxy.flatten
  | .sum ss => surfacesNumbers ss
/-- The numbers in a list of surfaces. -/
def surfacesNumbers : List (SurfaceObj F) → List F
  | [] => []
  | s :: ss => surfaceNumbers s ++ surfacesNumbers ss
end

mutual
/-- The numbers in an obscuration. -/
def obscNumbers : Obsc F → List F
  | .circle r x y => [r, x, y]
  | .annulus i o x y => [i, o, x, y]
  | .rectangle w h x y t => [w, h, x, y, t]
  | .ray w t x y => [w, t, x, y]
  | .polygon p => p.map Prod.fst ++ p.map Prod.snd
  | .negation o => obscNumbers o
  | .union os => obscsNumbers os
  | .intersection os => obscsNumbers os
/-- The numbers in a list of obscurations. -/
def obscsNumbers : List (Obsc F) → List F
  | [] => []
  | o :: os => obscNumbers o ++ obscsNumbers os
end

/-- The numbers in a frame. -/
def frameNumbers (c : CoordSys F) : List F := originList c ++ (rotRows c).flatten

/-- The numbers of an interface that `==` looks at. -/
def ifaceNumbers (a : IfaceObj F) : List F :=
  surfaceNumbers a.surface ++ (match a.obscuration with | none => [] | some o => obscNumbers o) ++ mediumNumbers a.inMedium ++
    mediumNumbers a.outMedium ++ frameNumbers a.coordSys ++ (match a.kind with | .screen s => surfaceNumbers s | _ => [])

mutual
/-- The numbers of an optic that `==` looks at. -/
def opticNumbers : OpticObj F → List F
  | .iface a => ifaceNumbers a
  | .compound a xs => opticsNumbers xs ++ mediumNumbers a.inMedium ++ mediumNumbers a.outMedium ++ frameNumbers a.coordSys
/-- The numbers in a list of optics. -/
def opticsNumbers : List (OpticObj F) → List F
  | [] => []
  | o :: os => opticNumbers o ++ opticsNumbers os
end

variable [Arith F]

/-- No number in the list is NaN. -/
def NaNFree (l : List F) : Prop := ∀ x ∈ l, Arith.eq x x = true

theorem nanFree_append {a b : List F} : NaNFree (a ++ b) ↔ NaNFree a ∧ NaNFree b := by
  unfold NaNFree
  simp only [List.mem_append, or_imp, forall_and]

theorem nanFree_cons {x : F} {b : List F} : NaNFree (x :: b) ↔ Arith.eq x x = true ∧ NaNFree b := by
  simp [NaNFree]

theorem nanFree_nil : NaNFree ([] : List F) ↔ True := by simp [NaNFree]

/-- **C81**, reflexivity for media without NaN. -/
theorem C81_medium_refl (a : MediumObj F) (h : NaNFree (mediumNumbers a)) : a.eq a = .ok true := by
  cases a <;> simp only [mediumNumbers, nanFree_cons, nanFree_append, nanFree_nil, and_true] at h <;>
    simp only [MediumObj.eq, tupleEq, pyAnd_true, numEq_true, Except.ok.injEq, Bool.and_eq_true]
  · exact h
  · exact ⟨arrayEqual_refl h.1, arrayEqual_refl h.2⟩
  · simpa using h
  · simpa using h
  · exact h

mutual
/-- **C81**, reflexivity for surfaces without NaN. -/
theorem C81_surface_refl : ∀ a : SurfaceObj F, NaNFree (surfaceNumbers a) → a.eq a = .ok true
  | .sum ss, h => by
    simp only [surfaceNumbers] at h
    simp only [SurfaceObj.eq, surfaces_refl ss h]
  | .plane, _ => rfl
  | .tilted _ _, h => by
    simp only [surfaceNumbers, nanFree_cons, nanFree_nil, and_true] at h
    simp only [SurfaceObj.eq, pyAnd_true, numEq_true]
    exact h
  | .paraboloid _, h => by
    simp only [surfaceNumbers, nanFree_cons, nanFree_nil, and_true] at h
    simp only [SurfaceObj.eq, numEq_true]
    exact h
  | .sphere _, h => by
    simp only [surfaceNumbers, nanFree_cons, nanFree_nil, and_true] at h
    simp only [SurfaceObj.eq, numEq_true]
    exact h
  | .quadric _ _, h => by
    simp only [surfaceNumbers, nanFree_cons, nanFree_nil, and_true] at h
    simp only [SurfaceObj.eq, pyAnd_true, numEq_true]
    exact h
  | .asphere _ _ _ _, h => by
    simp only [surfaceNumbers, nanFree_cons] at h
    simp only [SurfaceObj.eq, pyAnd_true, numEq_true, decide_true]
    exact ⟨h.1, h.2.1, by rw [arrayEqual_refl h.2.2], trivial⟩
  | .zernike _ _ _ _ _, h => by
    simp only [surfaceNumbers, nanFree_cons] at h
    simp only [SurfaceObj.eq, pyAnd_true, numEq_true]
    exact ⟨by rw [arrayEqual_refl h.2.2.2.2], h.1, h.2.1, h.2.2.1, h.2.2.2.1⟩
  | .bicubic _ _ _ _ _ _ _, h => by
    simp only [surfaceNumbers, nanFree_append] at h
    obtain ⟨⟨⟨⟨⟨h1, h2⟩, h3⟩, h4⟩, h5⟩, h6⟩ := h
    simp only [SurfaceObj.eq, arrayEqual_refl h1, arrayEqual_refl h2, arrayEqual2_refl h3, arrayEqual2_refl h4, arrayEqual2_refl h5,
      arrayEqual2_refl h6, decide_true, Bool.and_self]
theorem surfaces_refl : ∀ a : List (SurfaceObj F), NaNFree (surfacesNumbers a) → SurfaceObj.itemsEq a a = .ok true
  | [], _ => rfl
  | s :: ss, h => by
    simp only [surfacesNumbers, nanFree_append] at h
    simp only [SurfaceObj.itemsEq, C81_surface_refl s h.1, surfaces_refl ss h.2, pyAnd]
end

theorem npAllEq_refl {a : List F} (h : NaNFree a) : npAllEq a a = .ok true := by
  have := arrayEqual_refl h
  simp only [arrayEqual, Bool.and_eq_true] at this
  simp [npAllEq, this.2]

mutual
/-- **C81**, reflexivity for obscurations without NaN. -/
theorem C81_obscuration_refl : ∀ a : Obsc F, NaNFree (obscNumbers a) → ObscObj.eq a a = .ok true
  | .circle _ _ _, h => by
    simp only [obscNumbers, nanFree_cons, nanFree_nil, and_true] at h
    simp only [ObscObj.eq, pyAnd_true, numEq_true]
    exact h
  | .annulus _ _ _ _, h => by
    simp only [obscNumbers, nanFree_cons, nanFree_nil, and_true] at h
    simp only [ObscObj.eq, pyAnd_true, numEq_true]
    exact h
  | .rectangle _ _ _ _ _, h => by
    simp only [obscNumbers, nanFree_cons, nanFree_nil, and_true] at h
    simp only [ObscObj.eq, pyAnd_true, numEq_true]
    exact h
  | .ray _ _ _ _, h => by
    simp only [obscNumbers, nanFree_cons, nanFree_nil, and_true] at h
    simp only [ObscObj.eq, pyAnd_true, numEq_true]
    exact h
  | .polygon p, h => by
    simp only [obscNumbers, nanFree_append] at h
    simp only [ObscObj.eq, pyAnd_true]
    exact ⟨npAllEq_refl h.1, npAllEq_refl h.2⟩
  | .negation o, h => by
    simp only [obscNumbers] at h
    simp only [ObscObj.eq, C81_obscuration_refl o h]
  | .union os, h => by
    simp only [obscNumbers] at h
    simp only [ObscObj.eq, obscs_refl os h, if_true]
  | .intersection os, h => by
    simp only [obscNumbers] at h
    simp only [ObscObj.eq, obscs_refl os h, if_true]
theorem obscs_refl : ∀ a : List (Obsc F), NaNFree (obscsNumbers a) → ObscObj.itemsEq a a = .ok true
  | [], _ => rfl
  | s :: ss, h => by
    simp only [obscsNumbers, nanFree_append] at h
    simp only [ObscObj.itemsEq, C81_obscuration_refl s h.1, obscs_refl ss h.2, pyAnd]
end

theorem frame_refl {c : CoordSys F} (h : NaNFree (frameNumbers c)) : coordSysEq c c = .ok true := coordSysEq_refl h

theorem sameClass_refl (a : KindObj F) : a.sameClass a = true := by cases a <;> rfl

mutual
/-- **C81**, reflexivity for optics without NaN. -/
theorem C81_optic_refl : ∀ a : OpticObj F, NaNFree (opticNumbers a) → a.eq a = .ok true
  | .iface a, h => by
    simp only [opticNumbers, ifaceNumbers, nanFree_append] at h
    obtain ⟨⟨⟨⟨⟨h1, h2⟩, h3⟩, h4⟩, h5⟩, h6⟩ := h
    have hb : a.baseEq a = .ok true := by
      unfold IfaceObj.baseEq
      have ho : optObscEq a.obscuration a.obscuration = .ok true := by
        cases ha : a.obscuration with
        | none => rfl
        | some o => rw [ha] at h2; exact C81_obscuration_refl o h2
      simp only [sameClass_refl, Bool.not_true, Bool.false_eq_true, if_false, C81_surface_refl _ h1, ho, C81_medium_refl _ h3,
        C81_medium_refl _ h4, frame_refl h5, decide_true, pyAnd]
    simp only [OpticObj.eq]
    unfold IfaceObj.eq
    cases hk : a.kind <;> simp only [hb]
    rw [hk] at h6
    simp only [C81_surface_refl _ h6, pyAnd]
  | .compound a xs, h => by
    simp only [opticNumbers, nanFree_append] at h
    obtain ⟨⟨⟨h1, h2⟩, h3⟩, h4⟩ := h
    simp only [OpticObj.eq, bne_self_eq_false, Bool.false_eq_true, if_false, optics_refl xs h1, C81_medium_refl _ h2, C81_medium_refl _ h3,
      frame_refl h4, decide_true, pyAnd]
theorem optics_refl : ∀ a : List (OpticObj F), NaNFree (opticsNumbers a) → OpticObj.itemsEq a a = .ok true
  | [], _ => rfl
  | s :: ss, h => by
    simp only [opticsNumbers, nanFree_append] at h
    simp only [OpticObj.itemsEq, C81_optic_refl s h.1, optics_refl ss h.2, pyAnd]
end

end refl

section trans
variable {F : Type} [Arith F]

theorem allEq_trans (law : EqLaws F) : ∀ {a b c : List F}, allEq a b = true → allEq b c = true → allEq a c = true
  | [], [], [], _, _ => rfl
  | [], _ :: _, _, e, _ => by simp [allEq] at e
  | _ :: _, [], _, e, _ => by simp [allEq] at e
  | _, [], _ :: _, _, e => by simp [allEq] at e
  | _, _ :: _, [], _, e => by simp [allEq] at e
  | x :: xs, y :: ys, z :: zs, e, e' => by
    simp only [allEq, Bool.and_eq_true] at e e' ⊢
    exact ⟨law.trans _ _ _ e.1 e'.1, allEq_trans law e.2 e'.2⟩

theorem arrayEqual_trans (law : EqLaws F) {a b c : List F} (e : arrayEqual a b = true) (e' : arrayEqual b c = true) : arrayEqual a c = true := by
  simp only [arrayEqual, Bool.and_eq_true, decide_eq_true_eq] at e e' ⊢
  exact ⟨e.1.trans e'.1, allEq_trans law e.2 e'.2⟩

theorem arrayEqual2_trans (law : EqLaws F) : ∀ {a b c : List (List F)}, arrayEqual2 a b = true → arrayEqual2 b c = true → arrayEqual2 a c = true
  | [], [], [], _, _ => rfl
  | [], _ :: _, _, e, _ => by simp [arrayEqual2] at e
  | _ :: _, [], _, e, _ => by simp [arrayEqual2] at e
  | _, [], _ :: _, _, e => by simp [arrayEqual2] at e
  | _, _ :: _, [], _, e => by simp [arrayEqual2] at e
  | x :: xs, y :: ys, z :: zs, e, e' => by
    simp only [arrayEqual2, Bool.and_eq_true] at e e' ⊢
    exact ⟨arrayEqual_trans law e.1 e'.1, arrayEqual2_trans law e.2 e'.2⟩

theorem npAllEq_proper {a b : List F} (ha : 2 ≤ a.length) (hb : 2 ≤ b.length) : npAllEq a b = .ok true ↔ arrayEqual a b = true := by
  unfold npAllEq arrayEqual
  split
  · rename_i h; simp [h]
  · rename_i h
    split
    · simp at ha
    · simp at hb
    · simp [h]

theorem coordSysEq_trans (law : EqLaws F) {a b c : CoordSys F} (e : coordSysEq a b = .ok true) (e' : coordSysEq b c = .ok true) :
    coordSysEq a c = .ok true := by
  simp only [coordSysEq, Except.ok.injEq, Bool.and_eq_true] at e e' ⊢
  exact ⟨arrayEqual_trans law e.1 e'.1, arrayEqual2_trans law e.2 e'.2⟩

/-- **C81**, transitivity for media. -/
theorem C81_medium_trans (law : EqLaws F) (a b c : MediumObj F) (e : a.eq b = .ok true) (e' : b.eq c = .ok true) : a.eq c = .ok true := by
  cases a <;> cases b <;>
    simp only [MediumObj.eq, tupleEq, pyAnd_true, numEq_true, Except.ok.injEq, Bool.and_eq_true, Bool.false_eq_true] at e <;>
    cases c <;>
    simp only [MediumObj.eq, tupleEq, pyAnd_true, numEq_true, Except.ok.injEq, Bool.and_eq_true, Bool.false_eq_true] at e' ⊢
  · exact law.trans _ _ _ e e'
  · exact ⟨arrayEqual_trans law e.1 e'.1, arrayEqual_trans law e.2 e'.2⟩
  · obtain ⟨e1, e2, e3, e4, e5, e6, -⟩ := e
    obtain ⟨f1, f2, f3, f4, f5, f6, -⟩ := e'
    exact ⟨law.trans _ _ _ e1 f1, law.trans _ _ _ e2 f2, law.trans _ _ _ e3 f3, law.trans _ _ _ e4 f4, law.trans _ _ _ e5 f5,
      law.trans _ _ _ e6 f6, trivial⟩
  · obtain ⟨e1, e2, e3, e4, e5, e6, -⟩ := e
    obtain ⟨f1, f2, f3, f4, f5, f6, -⟩ := e'
    exact ⟨law.trans _ _ _ e1 f1, law.trans _ _ _ e2 f2, law.trans _ _ _ e3 f3, law.trans _ _ _ e4 f4, law.trans _ _ _ e5 f5,
      law.trans _ _ _ e6 f6, trivial⟩
  · exact ⟨law.trans _ _ _ e.1 e'.1, law.trans _ _ _ e.2.1 e'.2.1, law.trans _ _ _ e.2.2 e'.2.2⟩

mutual
/-- **C81**, transitivity for surfaces. -/
theorem C81_surface_trans (law : EqLaws F) : ∀ a b c : SurfaceObj F, a.eq b = .ok true → b.eq c = .ok true → a.eq c = .ok true
  | .sum ss, b, c, e, e' => by
    cases b <;> simp only [SurfaceObj.eq, Except.ok.injEq, Bool.false_eq_true] at e
    cases c <;> simp only [SurfaceObj.eq, Except.ok.injEq, Bool.false_eq_true] at e' ⊢
    exact surfaces_trans law ss _ _ e e'
  | .plane, b, c, e, e' => by
    cases b <;> simp only [SurfaceObj.eq, Except.ok.injEq, Bool.false_eq_true] at e
    exact e'
  | .tilted _ _, b, c, e, e' => by
    cases b <;> simp only [SurfaceObj.eq, Except.ok.injEq, Bool.false_eq_true, pyAnd_true, numEq_true] at e
    cases c <;> simp only [SurfaceObj.eq, Except.ok.injEq, Bool.false_eq_true, pyAnd_true, numEq_true] at e' ⊢
    exact ⟨law.trans _ _ _ e.1 e'.1, law.trans _ _ _ e.2 e'.2⟩
  | .paraboloid _, b, c, e, e' => by
    cases b <;> simp only [SurfaceObj.eq, Except.ok.injEq, Bool.false_eq_true, numEq_true] at e
    cases c <;> simp only [SurfaceObj.eq, Except.ok.injEq, Bool.false_eq_true, numEq_true] at e' ⊢
    exact law.trans _ _ _ e e'
  | .sphere _, b, c, e, e' => by
    cases b <;> simp only [SurfaceObj.eq, Except.ok.injEq, Bool.false_eq_true, numEq_true] at e
    cases c <;> simp only [SurfaceObj.eq, Except.ok.injEq, Bool.false_eq_true, numEq_true] at e' ⊢
    exact law.trans _ _ _ e e'
  | .quadric _ _, b, c, e, e' => by
    cases b <;> simp only [SurfaceObj.eq, Except.ok.injEq, Bool.false_eq_true, pyAnd_true, numEq_true] at e
    cases c <;> simp only [SurfaceObj.eq, Except.ok.injEq, Bool.false_eq_true, pyAnd_true, numEq_true] at e' ⊢
    exact ⟨law.trans _ _ _ e.1 e'.1, law.trans _ _ _ e.2 e'.2⟩
  | .asphere _ _ _ _, b, c, e, e' => by
    cases b <;> simp only [SurfaceObj.eq, Except.ok.injEq, Bool.false_eq_true, pyAnd_true, numEq_true, decide_eq_true_eq] at e
    cases c <;> simp only [SurfaceObj.eq, Except.ok.injEq, Bool.false_eq_true, pyAnd_true, numEq_true, decide_eq_true_eq] at e' ⊢
    exact ⟨law.trans _ _ _ e.1 e'.1, law.trans _ _ _ e.2.1 e'.2.1, arrayEqual_trans law e.2.2.1 e'.2.2.1, e.2.2.2.trans e'.2.2.2⟩
  | .zernike _ _ _ _ _, b, c, e, e' => by
    cases b <;> simp only [SurfaceObj.eq, Except.ok.injEq, Bool.false_eq_true, pyAnd_true, numEq_true] at e
    cases c <;> simp only [SurfaceObj.eq, Except.ok.injEq, Bool.false_eq_true, pyAnd_true, numEq_true] at e' ⊢
    exact ⟨arrayEqual_trans law e.1 e'.1, law.trans _ _ _ e.2.1 e'.2.1, law.trans _ _ _ e.2.2.1 e'.2.2.1, law.trans _ _ _ e.2.2.2.1 e'.2.2.2.1,
      law.trans _ _ _ e.2.2.2.2 e'.2.2.2.2⟩
  | .bicubic _ _ _ _ _ _ _, b, c, e, e' => by
    cases b <;> simp only [SurfaceObj.eq, Except.ok.injEq, Bool.false_eq_true, Bool.and_eq_true, decide_eq_true_eq] at e
    cases c <;> simp only [SurfaceObj.eq, Except.ok.injEq, Bool.false_eq_true, Bool.and_eq_true, decide_eq_true_eq] at e' ⊢
    obtain ⟨⟨⟨⟨⟨⟨e1, e2⟩, e3⟩, e4⟩, e5⟩, e6⟩, e7⟩ := e
    obtain ⟨⟨⟨⟨⟨⟨f1, f2⟩, f3⟩, f4⟩, f5⟩, f6⟩, f7⟩ := e'
    exact ⟨⟨⟨⟨⟨⟨arrayEqual_trans law e1 f1, arrayEqual_trans law e2 f2⟩, arrayEqual2_trans law e3 f3⟩, arrayEqual2_trans law e4 f4⟩,
      arrayEqual2_trans law e5 f5⟩, arrayEqual2_trans law e6 f6⟩, e7.trans f7⟩
theorem surfaces_trans (law : EqLaws F) : ∀ a b c : List (SurfaceObj F), SurfaceObj.itemsEq a b = .ok true →
    SurfaceObj.itemsEq b c = .ok true → SurfaceObj.itemsEq a c = .ok true
  | [], [], c, _, e' => e'
  | [], _ :: _, _, e, _ => by simp [SurfaceObj.itemsEq] at e
  | _ :: _, [], _, e, _ => by simp [SurfaceObj.itemsEq] at e
  | _ :: _, _ :: _, [], _, e => by simp [SurfaceObj.itemsEq] at e
  | s :: ss, s' :: ss', s'' :: ss'', e, e' => by
    simp only [SurfaceObj.itemsEq, pyAnd_true] at e e' ⊢
    exact ⟨C81_surface_trans law s s' s'' e.1 e'.1, surfaces_trans law ss ss' ss'' e.2 e'.2⟩
end

mutual
/-- **C81**, transitivity for obscurations whose polygons have at least two vertices. -/
theorem C81_obscuration_trans_partial (law : EqLaws F) : ∀ a b c : Obsc F, Proper a → Proper b → Proper c → ObscObj.eq a b = .ok true →
    ObscObj.eq b c = .ok true → ObscObj.eq a c = .ok true
  | .circle _ _ _, b, c, _, _, _, e, e' => by
    cases b <;> simp only [ObscObj.eq, Except.ok.injEq, Bool.false_eq_true, pyAnd_true, numEq_true] at e
    cases c <;> simp only [ObscObj.eq, Except.ok.injEq, Bool.false_eq_true, pyAnd_true, numEq_true] at e' ⊢
    exact ⟨law.trans _ _ _ e.1 e'.1, law.trans _ _ _ e.2.1 e'.2.1, law.trans _ _ _ e.2.2 e'.2.2⟩
  | .annulus _ _ _ _, b, c, _, _, _, e, e' => by
    cases b <;> simp only [ObscObj.eq, Except.ok.injEq, Bool.false_eq_true, pyAnd_true, numEq_true] at e
    cases c <;> simp only [ObscObj.eq, Except.ok.injEq, Bool.false_eq_true, pyAnd_true, numEq_true] at e' ⊢
    exact ⟨law.trans _ _ _ e.1 e'.1, law.trans _ _ _ e.2.1 e'.2.1, law.trans _ _ _ e.2.2.1 e'.2.2.1, law.trans _ _ _ e.2.2.2 e'.2.2.2⟩
  | .rectangle _ _ _ _ _, b, c, _, _, _, e, e' => by
    cases b <;> simp only [ObscObj.eq, Except.ok.injEq, Bool.false_eq_true, pyAnd_true, numEq_true] at e
    cases c <;> simp only [ObscObj.eq, Except.ok.injEq, Bool.false_eq_true, pyAnd_true, numEq_true] at e' ⊢
    exact ⟨law.trans _ _ _ e.1 e'.1, law.trans _ _ _ e.2.1 e'.2.1, law.trans _ _ _ e.2.2.1 e'.2.2.1, law.trans _ _ _ e.2.2.2.1 e'.2.2.2.1,
      law.trans _ _ _ e.2.2.2.2 e'.2.2.2.2⟩
  | .ray _ _ _ _, b, c, _, _, _, e, e' => by
    cases b <;> simp only [ObscObj.eq, Except.ok.injEq, Bool.false_eq_true, pyAnd_true, numEq_true] at e
    cases c <;> simp only [ObscObj.eq, Except.ok.injEq, Bool.false_eq_true, pyAnd_true, numEq_true] at e' ⊢
    exact ⟨law.trans _ _ _ e.1 e'.1, law.trans _ _ _ e.2.1 e'.2.1, law.trans _ _ _ e.2.2.1 e'.2.2.1, law.trans _ _ _ e.2.2.2 e'.2.2.2⟩
  | .polygon _, b, c, da, db, dc, e, e' => by
    cases b <;> simp only [ObscObj.eq, Except.ok.injEq, Bool.false_eq_true, pyAnd_true] at e
    cases c <;> simp only [ObscObj.eq, Except.ok.injEq, Bool.false_eq_true, pyAnd_true] at e' ⊢
    simp only [Proper] at da db dc
    rw [npAllEq_proper (by simpa using da) (by simpa using db), npAllEq_proper (by simpa using da) (by simpa using db)] at e
    rw [npAllEq_proper (by simpa using db) (by simpa using dc), npAllEq_proper (by simpa using db) (by simpa using dc)] at e'
    rw [npAllEq_proper (by simpa using da) (by simpa using dc), npAllEq_proper (by simpa using da) (by simpa using dc)]
    exact ⟨arrayEqual_trans law e.1 e'.1, arrayEqual_trans law e.2 e'.2⟩
  | .negation o, b, c, da, db, dc, e, e' => by
    cases b <;> simp only [ObscObj.eq, Except.ok.injEq, Bool.false_eq_true] at e
    cases c <;> simp only [ObscObj.eq, Except.ok.injEq, Bool.false_eq_true] at e' ⊢
    simp only [Proper] at da db dc
    exact C81_obscuration_trans_partial law o _ _ da db dc e e'
  | .union os, b, c, da, db, dc, e, e' => by
    cases b <;> simp only [ObscObj.eq, Except.ok.injEq, Bool.false_eq_true] at e
    cases c <;> simp only [ObscObj.eq, Except.ok.injEq, Bool.false_eq_true] at e' ⊢
    simp only [Proper] at da db dc
    split at e
    · rename_i h1
      split at e'
      · rename_i h2
        rw [if_pos (h1.trans h2)]
        exact obscs_trans law os _ _ da db dc e e'
      · simp at e'
    · simp at e
  | .intersection os, b, c, da, db, dc, e, e' => by
    cases b <;> simp only [ObscObj.eq, Except.ok.injEq, Bool.false_eq_true] at e
    cases c <;> simp only [ObscObj.eq, Except.ok.injEq, Bool.false_eq_true] at e' ⊢
    simp only [Proper] at da db dc
    split at e
    · rename_i h1
      split at e'
      · rename_i h2
        rw [if_pos (h1.trans h2)]
        exact obscs_trans law os _ _ da db dc e e'
      · simp at e'
    · simp at e
theorem obscs_trans (law : EqLaws F) : ∀ a b c : List (Obsc F), AllProper a → AllProper b → AllProper c → ObscObj.itemsEq a b = .ok true →
    ObscObj.itemsEq b c = .ok true → ObscObj.itemsEq a c = .ok true
  | [], [], c, _, _, _, _, e' => e'
  | [], _ :: _, _, _, _, _, e, _ => by simp [ObscObj.itemsEq] at e
  | _ :: _, [], _, _, _, _, e, _ => by simp [ObscObj.itemsEq] at e
  | _ :: _, _ :: _, [], _, _, _, _, e => by simp [ObscObj.itemsEq] at e
  | s :: ss, s' :: ss', s'' :: ss'', da, db, dc, e, e' => by
    simp only [ObscObj.itemsEq, pyAnd_true] at e e' ⊢
    simp only [AllProper] at da db dc
    exact ⟨C81_obscuration_trans_partial law s s' s'' da.1 db.1 dc.1 e.1 e'.1, obscs_trans law ss ss' ss'' da.2 db.2 dc.2 e.2 e'.2⟩
end

theorem sameClass_trans {a b c : KindObj F} (h : a.sameClass b = true) (h' : b.sameClass c = true) : a.sameClass c = true := by
  cases a <;> cases b <;> simp only [KindObj.sameClass, Bool.false_eq_true] at h <;> cases c <;>
    first | rfl | exact h'

theorem baseEq_iff (a b : IfaceObj F) : a.baseEq b = .ok true ↔ a.kind.sameClass b.kind = true ∧ a.surface.eq b.surface = .ok true ∧
    optObscEq a.obscuration b.obscuration = .ok true ∧ a.name = b.name ∧ a.inMedium.eq b.inMedium = .ok true ∧
    a.outMedium.eq b.outMedium = .ok true ∧ coordSysEq a.coordSys b.coordSys = .ok true := by
  unfold IfaceObj.baseEq
  split
  · rename_i h
    have : a.kind.sameClass b.kind = false := by simpa using h
    simp [this]
  · rename_i h
    have : a.kind.sameClass b.kind = true := by simpa using h
    simp only [pyAnd_true, Except.ok.injEq, decide_eq_true_eq, this, true_and]

theorem baseEq_trans (law : EqLaws F) {a b c : IfaceObj F} (da : OrderlyIface a) (db : OrderlyIface b) (dc : OrderlyIface c)
    (e : a.baseEq b = .ok true) (e' : b.baseEq c = .ok true) : a.baseEq c = .ok true := by
  rw [baseEq_iff] at e e' ⊢
  obtain ⟨e0, e1, e2, e3, e4, e5, e6⟩ := e
  obtain ⟨f0, f1, f2, f3, f4, f5, f6⟩ := e'
  refine ⟨sameClass_trans e0 f0, C81_surface_trans law _ _ _ e1 f1, ?_, e3.trans f3, C81_medium_trans law _ _ _ e4 f4,
    C81_medium_trans law _ _ _ e5 f5, coordSysEq_trans law e6 f6⟩
  have h1 := da.2.1
  have h2 := db.2.1
  have h3 := dc.2.1
  revert e2 f2 h1 h2 h3
  rcases a.obscuration with _ | o <;> rcases b.obscuration with _ | o' <;> rcases c.obscuration with _ | o'' <;>
    simp only [optObscEq, Except.ok.injEq, Bool.false_eq_true, false_imp_iff, true_imp_iff, imp_true_iff, imp_self, Option.some.injEq, forall_eq']
  exact fun e2 f2 h1 h2 h3 => C81_obscuration_trans_partial law o o' o'' h1 h2 h3 e2 f2

theorem ifaceEq_trans (law : EqLaws F) {a b c : IfaceObj F} (da : OrderlyIface a) (db : OrderlyIface b) (dc : OrderlyIface c)
    (e : a.eq b = .ok true) (e' : b.eq c = .ok true) : a.eq c = .ok true := by
  have key : ∀ {a b : IfaceObj F}, a.eq b = .ok true → a.baseEq b = .ok true ∧ ∀ s, a.kind = .screen s → ∃ s', b.kind = .screen s' ∧ s.eq s' = .ok true := by
    intro a b e
    unfold IfaceObj.eq at e
    split at e
    · rename_i s s' h1 h2
      rw [pyAnd_true] at e
      refine ⟨e.1, fun t ht => ⟨s', h2, ?_⟩⟩
      rw [h1] at ht
      cases ht
      exact e.2
    · rename_i hn
      refine ⟨e, fun s hs => ?_⟩
      have hc := ((baseEq_iff a b).mp e).1
      rw [hs] at hc
      cases hb : b.kind <;> rw [hb] at hc <;> simp only [KindObj.sameClass, Bool.false_eq_true] at hc
      exact (hn s _ hs hb).elim
  obtain ⟨h1, h2⟩ := key e
  obtain ⟨h3, h4⟩ := key e'
  have hb := baseEq_trans law da db dc h1 h3
  unfold IfaceObj.eq
  split
  · rename_i s s'' hs hs''
    obtain ⟨s', hs', he⟩ := h2 s hs
    obtain ⟨t, ht, he'⟩ := h4 s' hs'
    rw [hs''] at ht
    cases ht
    rw [pyAnd_true]
    exact ⟨hb, C81_surface_trans law _ _ _ he he'⟩
  · exact hb

mutual
/-- **C81**, transitivity for optics. -/
theorem C81_optic_trans_partial (law : EqLaws F) : ∀ a b c : OpticObj F, Orderly a → Orderly b → Orderly c → a.eq b = .ok true →
    b.eq c = .ok true → a.eq c = .ok true
  | .iface a, .iface b, .iface c, da, db, dc, e, e' => by
    simp only [Orderly] at da db dc
    exact ifaceEq_trans law da db dc e e'
  | .iface _, .compound _ _, _, _, _, _, e, _ => by simp [OpticObj.eq] at e
  | .compound _ _, .iface _, _, _, _, _, e, _ => by simp [OpticObj.eq] at e
  | _, .iface _, .compound _ _, _, _, _, _, e => by simp [OpticObj.eq] at e
  | _, .compound _ _, .iface _, _, _, _, _, e => by simp [OpticObj.eq] at e
  | .compound a xs, .compound b ys, .compound c zs, da, db, dc, e, e' => by
    simp only [Orderly] at da db dc
    simp only [OpticObj.eq] at e e' ⊢
    split at e
    · simp at e
    · rename_i h1
      split at e'
      · simp at e'
      · rename_i h2
        simp only [pyAnd_true, Except.ok.injEq, decide_eq_true_eq] at e e'
        have h3 : ¬ (a.isLens != c.isLens) = true := by
          simp only [bne_iff_ne, ne_eq, not_not] at h1 h2 ⊢
          exact h1.trans h2
        rw [if_neg h3]
        simp only [pyAnd_true, Except.ok.injEq, decide_eq_true_eq]
        exact ⟨optics_trans law xs ys zs da db dc e.1 e'.1, e.2.1.trans e'.2.1, C81_medium_trans law _ _ _ e.2.2.1 e'.2.2.1,
          C81_medium_trans law _ _ _ e.2.2.2.1 e'.2.2.2.1, coordSysEq_trans law e.2.2.2.2 e'.2.2.2.2⟩
theorem optics_trans (law : EqLaws F) : ∀ a b c : List (OpticObj F), AllOrderly a → AllOrderly b → AllOrderly c →
    OpticObj.itemsEq a b = .ok true → OpticObj.itemsEq b c = .ok true → OpticObj.itemsEq a c = .ok true
  | [], [], c, _, _, _, _, e' => e'
  | [], _ :: _, _, _, _, _, e, _ => by simp [OpticObj.itemsEq] at e
  | _ :: _, [], _, _, _, _, e, _ => by simp [OpticObj.itemsEq] at e
  | _ :: _, _ :: _, [], _, _, _, _, e => by simp [OpticObj.itemsEq] at e
  | s :: ss, s' :: ss', s'' :: ss'', da, db, dc, e, e' => by
    simp only [OpticObj.itemsEq, pyAnd_true] at e e' ⊢
    simp only [AllOrderly] at da db dc
    exact ⟨C81_optic_trans_partial law s s' s'' da.1 db.1 dc.1 e.1 e'.1, optics_trans law ss ss' ss'' da.2 db.2 dc.2 e.2 e'.2⟩
end

end trans

/-- **C81** fails for degenerate polygons: `b == a` and `a == c`, but comparing `b` with `c` raises. -/
theorem C81_polygon_violated : ∃ a b c : Obsc Dbl, ObscObj.eq b a = .ok true ∧ ObscObj.eq a c = .ok true ∧
    ObscObj.eq b c = .error .valueError := by
  refine ⟨.polygon [(.fin 1, .fin 2)], .polygon [(.fin 1, .fin 2), (.fin 1, .fin 2)], .polygon [(.fin 1, .fin 2), (.fin 1, .fin 2), (.fin 1, .fin 2)],
    ?_, ?_, ?_⟩ <;> simp [ObscObj.eq, npAllEq, pyAnd]

/-! ## C82: the order of the arguments of `ObscUnion` and `ObscIntersection` -/

section order
variable {F : Type} [Arith F] (repr : Obsc F → List Char)

theorem sort_perm (l : List (Obsc F)) : (ObscObj.sortItems repr l).Perm l := List.mergeSort_perm _ _

theorem sort_sorted (l : List (Obsc F)) : (ObscObj.sortItems repr l).Pairwise fun a b => repr a ≤ repr b := by
  have := List.pairwise_mergeSort (le := fun a b => decide (repr a ≤ repr b)) (by simpa using fun a b c h1 h2 => le_trans h1 h2)
    (by simpa using fun a b => le_total (repr a) (repr b)) l
  simpa [ObscObj.sortItems] using this

/-- **C82**: if `repr` tells the items apart, the order of the arguments does not matter: the same object results, so it compares
and hashes the same. -/
theorem C82_order_partial {l l' : List (Obsc F)} (hp : l.Perm l') (hr : ∀ a ∈ l, ∀ b ∈ l, repr a = repr b → a = b) :
    ObscObj.mkUnion repr l = ObscObj.mkUnion repr l' ∧ ObscObj.mkIntersection repr l = ObscObj.mkIntersection repr l' := by
  have h : ObscObj.sortItems repr l = ObscObj.sortItems repr l' := by
    refine List.Perm.eq_of_pairwise (le := fun a b => repr a ≤ repr b) ?_ (sort_sorted repr l) (sort_sorted repr l')
      (((sort_perm repr l).trans hp).trans (sort_perm repr l').symm)
    intro a b ha hb h1 h2
    exact hr a ((sort_perm repr l).mem_iff.mp ha) b (hp.mem_iff.mpr ((sort_perm repr l').mem_iff.mp hb)) (le_antisymm h1 h2)
  exact ⟨by rw [ObscObj.mkUnion, ObscObj.mkUnion, h], by rw [ObscObj.mkIntersection, ObscObj.mkIntersection, h]⟩

/-- **C82**: sorting does not change what is clipped, whatever `repr` does. -/
theorem C82_contains (l : List (Obsc F)) (x y : F) :
    (ObscObj.mkUnion repr l).contains x y = (Obsc.union l).contains x y ∧
      (ObscObj.mkIntersection repr l).contains x y = (Obsc.intersection l).contains x y := by
  constructor
  · rw [Bool.eq_iff_iff]
    simp only [ObscObj.mkUnion, Obsc.contains, unionContains_iff, (sort_perm repr l).mem_iff]
  · rw [Bool.eq_iff_iff]
    simp only [ObscObj.mkIntersection, Obsc.contains, interContains_iff, (sort_perm repr l).mem_iff]

/-- **C82**: a pickled and restored object has its items in the same order (`__setstate__` sorts the sorted list again). -/
theorem C82_restore (l : List (Obsc F)) :
    ObscObj.mkUnion repr (ObscObj.sortItems repr l) = ObscObj.mkUnion repr l ∧
      ObscObj.mkIntersection repr (ObscObj.sortItems repr l) = ObscObj.mkIntersection repr l := by
  have h : ObscObj.sortItems repr (ObscObj.sortItems repr l) = ObscObj.sortItems repr l := by
    have := sort_sorted repr l
    conv_lhs => rw [ObscObj.sortItems]
    exact List.mergeSort_of_pairwise (by simpa using this)
  exact ⟨by rw [ObscObj.mkUnion, h]; rfl, by rw [ObscObj.mkIntersection, h]; rfl⟩

/-- **C82** fails when two items have the same `repr` (numpy prints the vertices of a polygon with eight digits): then the
unions of the two in either order are equal only if the items are. -/
theorem C82_tie_violated {a b : Obsc F} (hr : repr a = repr b) :
    ObscObj.eq (ObscObj.mkUnion repr [a, b]) (ObscObj.mkUnion repr [b, a]) = .ok true ↔
      ObscObj.eq a b = .ok true ∧ ObscObj.eq b a = .ok true := by
  have h1 : ObscObj.sortItems repr [a, b] = [a, b] := List.mergeSort_of_pairwise (by simp [hr])
  have h2 : ObscObj.sortItems repr [b, a] = [b, a] := List.mergeSort_of_pairwise (by simp [hr])
  simp only [ObscObj.mkUnion, h1, h2, ObscObj.eq, ObscObj.itemsEq, pyAnd_true, List.length_cons, List.length_nil, if_true, and_true]

end order

/-- Two different circles given in either order. -/
example : ObscObj.mkUnion (fun o => match o with | .circle _ _ _ => ['c'] | _ => ['n']) [.circle (Dbl.fin 1) 0 0, .negation (.circle (Dbl.fin 1) 0 0)] =
    ObscObj.mkUnion (fun o => match o with | .circle _ _ _ => ['c'] | _ => ['n']) [.negation (.circle (Dbl.fin 1) 0 0), .circle (Dbl.fin 1) 0 0] := by
  refine (C82_order_partial _ (List.Perm.swap _ _ []) ?_).1
  intro a ha b hb
  simp only [List.mem_cons, List.not_mem_nil, or_false] at ha hb
  rcases ha with rfl | rfl <;> rcases hb with rfl | rfl <;> simp

/-- A box is equal to itself and to one with another `skip`. -/
example : SameSkips (boxObj true) (boxObj true) ∧ (boxObj true).eq (boxObj true) = .ok true := by
  refine ⟨⟨rfl, rfl, trivial⟩, ?_⟩
  simp only [boxObj, flatObj, OpticObj.eq, OpticObj.itemsEq, IfaceObj.eq, IfaceObj.baseEq, KindObj.sameClass, SurfaceObj.eq, optObscEq,
    MediumObj.eq, coordSysEq_fin]
  simp [pyAnd, numEq]

/-- **C24** for the Python object: `imin` counts from the coefficients that are not given, as C24_sag says. -/
theorem C24_object {F : Type} [Arith F] (env : Env F) (R k : F) (cs : List F) (imin : ℤ) (hi : 0 < imin) :
    ∃ padded, Surface.asphereCtor imin cs = .ok padded ∧ (SurfaceObj.asphere R k cs imin).denote env = Surface.asphere R k padded := by
  unfold Surface.asphereCtor
  rw [if_neg (by omega)]
  by_cases h : imin = 1
  · exact ⟨cs, by simp [h], by simp [SurfaceObj.denote, h]⟩
  · exact ⟨_, if_pos h, by simp [SurfaceObj.denote, h]⟩

/-- With the default `imin=2` the first coefficient multiplies the second power of r². -/
example (env : Env Dbl) : (SurfaceObj.asphere (Dbl.fin 3) 0 [Dbl.fin 7] 2).denote env = Surface.asphere (Dbl.fin 3) 0 [Dbl.fin 0, Dbl.fin 7] := by
  obtain ⟨p, h1, h2⟩ := C24_object env (Dbl.fin 3) 0 [Dbl.fin 7] 2 (by norm_num)
  rw [h2]
  simp [Surface.asphereCtor] at h1
  rw [← h1]

end Batoid.Props
