import Verif.Unwind
import Verif.Props.Trace

/-!
# C127: what a call that raises has done

The specification vocabulary: `movedTo` (numbers and label both updated), `torn` (numbers updated, label not), the interfaces in the order
in which light meets them (`visits`), and the rays after some of them.
-/

namespace Batoid.Props
open Batoid Act

variable {F : Type} [Arith F]

/-! ### Vocabulary -/

/-- The rays with the numbers of the target system and its label. -/
def movedTo (c : CoordSys F) (k : CoordTransform F → Ray F → Ray F) (rv : RayVec F) : RayVec F :=
  ⟨rv.rays.map (k (CoordTransform.make rv.coordSys c)), c⟩

/-- The rays with the numbers of the target system but the label of the system they were in. -/
def torn (c : CoordSys F) (k : CoordTransform F → Ray F → Ray F) (rv : RayVec F) : RayVec F :=
  ⟨rv.rays.map (k (CoordTransform.make rv.coordSys c)), rv.coordSys⟩

/-- The system a call names: the argument, by default the system of the rays. -/
def namedSys (cs : Arg (CoordSys F)) (rv : RayVec F) : Except PyErr (CoordSys F) :=
  match cs with
  | .absent => .ok rv.coordSys
  | .given c => .ok c
  | .wrong e => .error e

/-- Nobody interrupts the program. -/
def Quiet (s : Running F) : Prop := s.fuse = none

/-! ### Single statements -/

omit [Arith F] in
theorem bind_run {α β : Type} (x : Act F α) (f : α → Act F β) (s : Running F) :
    (x >>= f) s = match x s with
      | (s', .ok a) => f a s'
      | (s', .error e) => (s', .error e) := rfl

omit [Arith F] in
theorem tick_none (rv : RayVec F) : (tick : Act F Unit) ⟨rv, none⟩ = (⟨rv, none⟩, .ok ()) := rfl
omit [Arith F] in
theorem tick_zero (rv : RayVec F) : (tick : Act F Unit) ⟨rv, some 0⟩ = (⟨rv, some 0⟩, .error .interrupt) := rfl
omit [Arith F] in
theorem tick_succ (rv : RayVec F) (k : ℕ) : (tick : Act F Unit) ⟨rv, some (k + 1)⟩ = (⟨rv, some k⟩, .ok ()) := rfl

omit [Arith F] in
/-- Either the next statement begins, and nothing has changed, or the program is interrupted, and nothing has changed. -/
theorem tick_cases (s : Running F) :
    (∃ s', tick s = (s', .ok ()) ∧ s'.rv = s.rv ∧ (s.fuse = none → s'.fuse = none)) ∨
      (tick s = (s, .error .interrupt) ∧ s.fuse ≠ none) := by
  obtain ⟨rv, fuse⟩ := s
  rcases fuse with - | k
  · exact Or.inl ⟨_, rfl, rfl, fun _ => rfl⟩
  · rcases k with - | k
    · exact Or.inr ⟨rfl, by simp⟩
    · exact Or.inl ⟨_, rfl, rfl, by simp⟩

/-! ### The wrappers -/

/-- A call with kernel `k` towards `cs` ends in one of four ways. -/
inductive Ended (cs : Arg (CoordSys F)) (args : Except PyErr (CoordTransform F → Ray F → Ray F)) (s : Running F) :
    Running F × Except Exc Unit → Prop
  /-- It returns, and everything is done. -/
  | done (c k f) (hc : namedSys cs s.rv = .ok c) (hk : args = .ok k) (hf : s.fuse = none → f = none) :
      Ended cs args s (⟨movedTo c k s.rv, f⟩, .ok ())
  /-- An argument is wrong, and nothing is done. -/
  | raised (e f) (he : namedSys cs s.rv = .error e ∨ args = .error e) (hf : s.fuse = none → f = none) :
      Ended cs args s (⟨s.rv, f⟩, .error (.err e))
  /-- It is interrupted, and nothing is done. -/
  | early (f) (hs : s.fuse ≠ none) : Ended cs args s (⟨s.rv, f⟩, .error .interrupt)
  /-- It is interrupted between the C++ call and the assignment of the label. -/
  | midway (c k f) (hs : s.fuse ≠ none) (hc : namedSys cs s.rv = .ok c) (hk : args = .ok k) :
      Ended cs args s (⟨torn c k s.rv, f⟩, .error .interrupt)

theorem wrapper_ended (cs : Arg (CoordSys F)) (args : Except PyErr (CoordTransform F → Ray F → Ray F)) (s : Running F) :
    Ended cs args s (wrapper cs args s) := by
  obtain ⟨rv, fuse⟩ := s
  have hbad : ∀ e, namedSys cs rv = .error e → cs = .wrong e := by
    intro e h; cases cs <;> simp_all [namedSys]
  rcases hn : namedSys cs rv with e | c
  · have := hbad e hn
    subst this
    rcases fuse with - | k
    · exact .raised e none (Or.inl hn) (fun _ => rfl)
    · rcases k with - | - | k
      · exact .early _ (by simp)
      · exact .early _ (by simp)
      · exact .raised e _ (Or.inl hn) (by simp)
  · obtain ⟨hrun⟩ : Nonempty (∀ f, wrapper cs args ⟨rv, f⟩ =
        (tick >>= fun _ => tick >>= fun _ => tick >>= fun _ => eval args >>= fun k =>
          change (fun r => ⟨r.rays.map (k (CoordTransform.make rv.coordSys c)), r.coordSys⟩) >>= fun _ => tick >>= fun _ =>
            change fun r => ⟨r.rays, c⟩) ⟨rv, f⟩) := by
      refine ⟨fun f => ?_⟩
      rcases cs with - | c' | e
      · obtain rfl : rv.coordSys = c := by simpa [namedSys] using hn
        rcases f with - | - | - | f <;> rfl
      · obtain rfl : c' = c := by simpa [namedSys] using hn
        rcases f with - | - | - | f <;> rfl
      · simp [namedSys] at hn
    rw [hrun]
    rcases args with e | k
    · rcases fuse with - | - | - | - | f
      · exact .raised e none (Or.inr rfl) (fun _ => rfl)
      · exact .early _ (by simp)
      · exact .early _ (by simp)
      · exact .early _ (by simp)
      · exact .raised e _ (Or.inr rfl) (by simp)
    · rcases fuse with - | - | - | - | - | f
      · exact .done c k none hn rfl (fun _ => rfl)
      · exact .early _ (by simp)
      · exact .early _ (by simp)
      · exact .early _ (by simp)
      · exact .midway c k _ (by simp) hn rfl
      · exact .done c k _ hn rfl (by simp)

/-! ### Wrong arguments -/

/-- A required argument that is not of the class expected. -/
def Lacking {α : Type} (a : Arg α) : Prop := ∀ x, a ≠ .given x
/-- An optional argument that is neither `None` nor of the class expected. -/
def Faulty {α : Type} (a : Arg α) : Prop := ∃ e, a = .wrong e
/-- The optional argument as the model of the kernels takes it. -/
def TakenAs {α : Type} : Arg α → Option α → Prop
  | .absent, none => True
  | .given a, some b => a = b
  | _, _ => False

/-- A call has raised, and the rays are what they were. -/
def RaisedUntouched {α : Type} (rv : RayVec F) (r : Running F × Except Exc α) : Prop :=
  ∃ e, r = (⟨rv, none⟩, .error (.err e))

theorem C127_intersect (s : Arg (Surface F)) (cs : Arg (CoordSys F)) (co : Arg (Coating F)) (niter : ℕ) (rv : RayVec F) :
    (∃ s' cs' co', s = .given s' ∧ TakenAs cs cs' ∧ TakenAs co co' ∧
      intersectAct s cs co niter ⟨rv, none⟩ = (⟨rv.intersect s' cs' co' niter, none⟩, .ok ())) ∨
    ((Lacking s ∨ Faulty cs ∨ Faulty co) ∧ RaisedUntouched rv (intersectAct s cs co niter ⟨rv, none⟩)) := by
  rcases s with - | s | es
  · refine Or.inr ⟨Or.inl (by intro x; simp), ?_⟩
    rcases cs with - | c | ec <;> rcases co with - | k | ek <;> exact ⟨_, rfl⟩
  · rcases cs with - | c | ec <;> rcases co with - | k | ek
    · exact Or.inl ⟨s, none, none, rfl, trivial, trivial, rfl⟩
    · exact Or.inl ⟨s, none, some k, rfl, trivial, rfl, rfl⟩
    · exact Or.inr ⟨Or.inr (Or.inr ⟨_, rfl⟩), ⟨_, rfl⟩⟩
    · exact Or.inl ⟨s, some c, none, rfl, rfl, trivial, rfl⟩
    · exact Or.inl ⟨s, some c, some k, rfl, rfl, rfl, rfl⟩
    · exact Or.inr ⟨Or.inr (Or.inr ⟨_, rfl⟩), ⟨_, rfl⟩⟩
    all_goals exact Or.inr ⟨Or.inr (Or.inl ⟨_, rfl⟩), ⟨_, rfl⟩⟩
  · refine Or.inr ⟨Or.inl (by intro x; simp), ?_⟩
    rcases cs with - | c | ec <;> rcases co with - | k | ek <;> exact ⟨_, rfl⟩

theorem C127_reflect (s : Arg (Surface F)) (cs : Arg (CoordSys F)) (co : Arg (Coating F)) (niter : ℕ) (rv : RayVec F) :
    (∃ s' cs' co', s = .given s' ∧ TakenAs cs cs' ∧ TakenAs co co' ∧
      reflectAct s cs co niter ⟨rv, none⟩ = (⟨rv.reflect s' cs' co' niter, none⟩, .ok ())) ∨
    ((Lacking s ∨ Faulty cs ∨ Faulty co) ∧ RaisedUntouched rv (reflectAct s cs co niter ⟨rv, none⟩)) := by
  rcases s with - | s | es
  · refine Or.inr ⟨Or.inl (by intro x; simp), ?_⟩
    rcases cs with - | c | ec <;> rcases co with - | k | ek <;> exact ⟨_, rfl⟩
  · rcases cs with - | c | ec <;> rcases co with - | k | ek
    · exact Or.inl ⟨s, none, none, rfl, trivial, trivial, rfl⟩
    · exact Or.inl ⟨s, none, some k, rfl, trivial, rfl, rfl⟩
    · exact Or.inr ⟨Or.inr (Or.inr ⟨_, rfl⟩), ⟨_, rfl⟩⟩
    · exact Or.inl ⟨s, some c, none, rfl, rfl, trivial, rfl⟩
    · exact Or.inl ⟨s, some c, some k, rfl, rfl, rfl, rfl⟩
    · exact Or.inr ⟨Or.inr (Or.inr ⟨_, rfl⟩), ⟨_, rfl⟩⟩
    all_goals exact Or.inr ⟨Or.inr (Or.inl ⟨_, rfl⟩), ⟨_, rfl⟩⟩
  · refine Or.inr ⟨Or.inl (by intro x; simp), ?_⟩
    rcases cs with - | c | ec <;> rcases co with - | k | ek <;> exact ⟨_, rfl⟩

theorem C127_refract (s : Arg (Surface F)) (m1 m2 : Arg (Medium F)) (cs : Arg (CoordSys F)) (co : Arg (Coating F)) (niter : ℕ)
    (rv : RayVec F) :
    (∃ s' n1 n2 cs' co', s = .given s' ∧ m1 = .given n1 ∧ m2 = .given n2 ∧ TakenAs cs cs' ∧ TakenAs co co' ∧
      refractAct s m1 m2 cs co niter ⟨rv, none⟩ = (⟨rv.refract s' n1 n2 cs' co' niter, none⟩, .ok ())) ∨
    ((Lacking s ∨ Lacking m1 ∨ Lacking m2 ∨ Faulty cs ∨ Faulty co) ∧
      RaisedUntouched rv (refractAct s m1 m2 cs co niter ⟨rv, none⟩)) := by
  rcases s with - | s | es
  · refine Or.inr ⟨Or.inl (by intro x; simp), ?_⟩
    rcases cs with - | c | ec <;> rcases co with - | k | ek <;> exact ⟨_, rfl⟩
  · rcases m1 with - | n1 | e1
    · refine Or.inr ⟨Or.inr (Or.inl (by intro x; simp)), ?_⟩
      rcases cs with - | c | ec <;> rcases co with - | k | ek <;> exact ⟨_, rfl⟩
    · rcases m2 with - | n2 | e2
      · refine Or.inr ⟨Or.inr (Or.inr (Or.inl (by intro x; simp))), ?_⟩
        rcases cs with - | c | ec <;> rcases co with - | k | ek <;> exact ⟨_, rfl⟩
      · rcases cs with - | c | ec <;> rcases co with - | k | ek
        · exact Or.inl ⟨s, n1, n2, none, none, rfl, rfl, rfl, trivial, trivial, rfl⟩
        · exact Or.inl ⟨s, n1, n2, none, some k, rfl, rfl, rfl, trivial, rfl, rfl⟩
        · exact Or.inr ⟨Or.inr (Or.inr (Or.inr (Or.inr ⟨_, rfl⟩))), ⟨_, rfl⟩⟩
        · exact Or.inl ⟨s, n1, n2, some c, none, rfl, rfl, rfl, rfl, trivial, rfl⟩
        · exact Or.inl ⟨s, n1, n2, some c, some k, rfl, rfl, rfl, rfl, rfl, rfl⟩
        · exact Or.inr ⟨Or.inr (Or.inr (Or.inr (Or.inr ⟨_, rfl⟩))), ⟨_, rfl⟩⟩
        all_goals exact Or.inr ⟨Or.inr (Or.inr (Or.inr (Or.inl ⟨_, rfl⟩))), ⟨_, rfl⟩⟩
      · refine Or.inr ⟨Or.inr (Or.inr (Or.inl (by intro x; simp))), ?_⟩
        rcases cs with - | c | ec <;> rcases co with - | k | ek <;> exact ⟨_, rfl⟩
    · refine Or.inr ⟨Or.inr (Or.inl (by intro x; simp)), ?_⟩
      rcases cs with - | c | ec <;> rcases co with - | k | ek <;> exact ⟨_, rfl⟩
  · refine Or.inr ⟨Or.inl (by intro x; simp), ?_⟩
    rcases cs with - | c | ec <;> rcases co with - | k | ek <;> exact ⟨_, rfl⟩

theorem C127_refractScreen (s sc : Arg (Surface F)) (cs : Arg (CoordSys F)) (niter : ℕ) (rv : RayVec F) :
    (∃ s' sc' cs', s = .given s' ∧ sc = .given sc' ∧ TakenAs cs cs' ∧
      refractScreenAct s sc cs niter ⟨rv, none⟩ = (⟨rv.refractScreen s' sc' cs' niter, none⟩, .ok ())) ∨
    ((Lacking s ∨ Lacking sc ∨ Faulty cs) ∧ RaisedUntouched rv (refractScreenAct s sc cs niter ⟨rv, none⟩)) := by
  rcases s with - | s | es
  · refine Or.inr ⟨Or.inl (by intro x; simp), ?_⟩
    rcases cs with - | c | ec <;> exact ⟨_, rfl⟩
  · rcases sc with - | sc | esc
    · refine Or.inr ⟨Or.inr (Or.inl (by intro x; simp)), ?_⟩
      rcases cs with - | c | ec <;> exact ⟨_, rfl⟩
    · rcases cs with - | c | ec
      · exact Or.inl ⟨s, sc, none, rfl, rfl, trivial, rfl⟩
      · exact Or.inl ⟨s, sc, some c, rfl, rfl, rfl, rfl⟩
      · exact Or.inr ⟨Or.inr (Or.inr ⟨_, rfl⟩), ⟨_, rfl⟩⟩
    · refine Or.inr ⟨Or.inr (Or.inl (by intro x; simp)), ?_⟩
      rcases cs with - | c | ec <;> exact ⟨_, rfl⟩
  · refine Or.inr ⟨Or.inl (by intro x; simp), ?_⟩
    rcases cs with - | c | ec <;> exact ⟨_, rfl⟩

theorem C127_rSplit (s : Arg (Surface F)) (m1 m2 : Arg (Medium F)) (co : Arg (Coating F)) (cs : Arg (CoordSys F)) (niter : ℕ)
    (rv : RayVec F) :
    (∃ s' n1 n2 co' cs', s = .given s' ∧ m1 = .given n1 ∧ m2 = .given n2 ∧ co = .given co' ∧ TakenAs cs cs' ∧
      rSplitAct s m1 m2 co cs niter ⟨rv, none⟩ =
        (⟨(rv.rSplit s' n1 n2 co' cs' niter).1, none⟩, .ok (rv.rSplit s' n1 n2 co' cs' niter).2)) ∨
    ((Lacking s ∨ Lacking m1 ∨ Lacking m2 ∨ Lacking co ∨ Faulty cs) ∧
      RaisedUntouched rv (rSplitAct s m1 m2 co cs niter ⟨rv, none⟩)) := by
  rcases s with - | s | es
  · refine Or.inr ⟨Or.inl (by intro x; simp), ?_⟩
    rcases cs with - | c | ec <;> exact ⟨_, rfl⟩
  · rcases m1 with - | n1 | e1
    · refine Or.inr ⟨Or.inr (Or.inl (by intro x; simp)), ?_⟩
      rcases cs with - | c | ec <;> exact ⟨_, rfl⟩
    · rcases m2 with - | n2 | e2
      · refine Or.inr ⟨Or.inr (Or.inr (Or.inl (by intro x; simp))), ?_⟩
        rcases cs with - | c | ec <;> exact ⟨_, rfl⟩
      · rcases co with - | k | ek
        · refine Or.inr ⟨Or.inr (Or.inr (Or.inr (Or.inl (by intro x; simp)))), ?_⟩
          rcases cs with - | c | ec <;> exact ⟨_, rfl⟩
        · rcases cs with - | c | ec
          · exact Or.inl ⟨s, n1, n2, k, none, rfl, rfl, rfl, rfl, trivial, rfl⟩
          · exact Or.inl ⟨s, n1, n2, k, some c, rfl, rfl, rfl, rfl, rfl, rfl⟩
          · exact Or.inr ⟨Or.inr (Or.inr (Or.inr (Or.inr ⟨_, rfl⟩))), ⟨_, rfl⟩⟩
        · refine Or.inr ⟨Or.inr (Or.inr (Or.inr (Or.inl (by intro x; simp)))), ?_⟩
          rcases cs with - | c | ec <;> exact ⟨_, rfl⟩
      · refine Or.inr ⟨Or.inr (Or.inr (Or.inl (by intro x; simp))), ?_⟩
        rcases cs with - | c | ec <;> exact ⟨_, rfl⟩
    · refine Or.inr ⟨Or.inr (Or.inl (by intro x; simp)), ?_⟩
      rcases cs with - | c | ec <;> exact ⟨_, rfl⟩
  · refine Or.inr ⟨Or.inl (by intro x; simp), ?_⟩
    rcases cs with - | c | ec <;> exact ⟨_, rfl⟩

theorem C127_obscure (o : Arg (Obsc F)) (rv : RayVec F) :
    (∃ o', o = .given o' ∧ obscureAct o ⟨rv, none⟩ = (⟨rv.obscure o', none⟩, .ok ())) ∨
      (Lacking o ∧ RaisedUntouched rv (obscureAct o ⟨rv, none⟩)) := by
  rcases o with - | o | e
  · exact Or.inr ⟨by intro x; simp, ⟨_, rfl⟩⟩
  · exact Or.inl ⟨o, rfl, rfl⟩
  · exact Or.inr ⟨by intro x; simp, ⟨_, rfl⟩⟩

theorem C127_toCoordSys (cs : Arg (CoordSys F)) (rv : RayVec F) :
    (∃ c, cs = .given c ∧ toCoordSysAct cs ⟨rv, none⟩ = (⟨rv.toCoordSys c, none⟩, .ok ())) ∨
      (Lacking cs ∧ RaisedUntouched rv (toCoordSysAct cs ⟨rv, none⟩)) := by
  rcases cs with - | c | e
  · exact Or.inr ⟨by intro x; simp, ⟨_, rfl⟩⟩
  · exact Or.inl ⟨c, rfl, rfl⟩
  · exact Or.inr ⟨by intro x; simp, ⟨_, rfl⟩⟩

/-- `batoid.refract` with a medium and no surface, and with a surface and no second medium. -/
example (rv : RayVec F) (m : Medium F) : RaisedUntouched rv (refractAct .absent (.given m) (.given m) .absent .absent 1 ⟨rv, none⟩) := by
  rcases C127_refract .absent (.given m) (.given m) .absent .absent 1 rv with ⟨s', _, _, _, _, h, _⟩ | h
  · simp at h
  · exact h.2
example (rv : RayVec F) (s : Surface F) (m : Medium F) :
    RaisedUntouched rv (refractAct (.given s) (.given m) (.wrong .attributeError) .absent .absent 1 ⟨rv, none⟩) := by
  rcases C127_refract (.given s) (.given m) (.wrong .attributeError) .absent .absent 1 rv with ⟨_, _, _, _, _, _, _, h, _⟩ | h
  · simp at h
  · exact h.2

/-! ### Interrupted traces -/

/-- The rays at an interface whose interaction has been computed but whose label has not been set. -/
def tornAt (d : Iface F) (niter : ℕ) (rev : Bool) (rv : RayVec F) : RayVec F :=
  ⟨(d.interact niter rev rv).rays, rv.coordSys⟩

/-- The rays an interrupt can leave at an interface: before it, with new numbers and the old label, or after the interaction and before the
obscuration. -/
def StopsAt (d : Iface F) (niter : ℕ) (rev : Bool) (a b : RayVec F) : Prop :=
  b = a ∨ b = tornAt d niter rev a ∨ b = d.interact niter rev a

/-- The interfaces in the order in which a trace meets them. -/
def meetingOrder (rev : Bool) (o : Optic F) : List (Iface F) := if rev then (visits o).reverse else visits o

/-- The rays after these interfaces. -/
def afterAll (niter : ℕ) (rev : Bool) (ds : List (Iface F)) (rv : RayVec F) : RayVec F :=
  ds.foldl (fun rv d => d.trace niter rev rv) rv

/-- The rays an interrupt can leave on the way through these interfaces. -/
def StopsWithin (niter : ℕ) (rev : Bool) (ds : List (Iface F)) (a b : RayVec F) : Prop :=
  b = afterAll niter rev ds a ∨
    ∃ pre d post, ds = pre ++ d :: post ∧ StopsAt d niter rev (afterAll niter rev pre a) b

/-- A computation that returns with `f` done, or is interrupted with rays related by `P` to the rays before. -/
def Does (x : Act F Unit) (f : RayVec F → RayVec F) (P : RayVec F → RayVec F → Prop) : Prop :=
  ∀ s, (∃ fu, x s = (⟨f s.rv, fu⟩, .ok ()) ∧ (s.fuse = none → fu = none)) ∨
    (∃ b fu, x s = (⟨b, fu⟩, .error .interrupt) ∧ s.fuse ≠ none ∧ P s.rv b)

omit [Arith F] in
theorem does_tick : Does (tick : Act F Unit) id (fun a b => b = a) := by
  rintro ⟨rv, - | - | k⟩
  · exact Or.inl ⟨_, rfl, fun _ => rfl⟩
  · exact Or.inr ⟨_, _, rfl, by simp, rfl⟩
  · exact Or.inl ⟨_, rfl, by simp⟩

omit [Arith F] in
theorem does_pure : Does (pure () : Act F Unit) id (fun _ _ => False) := fun s => Or.inl ⟨s.fuse, rfl, id⟩

omit [Arith F] in
theorem Does.seq {x y : Act F Unit} {f g P Q} (hx : Does x f P) (hy : Does y g Q) :
    Does (x >>= fun _ => y) (fun rv => g (f rv)) (fun a b => P a b ∨ Q (f a) b) := by
  intro s
  rcases hx s with ⟨fu, h, hq⟩ | ⟨b, fu, h, hq, hp⟩
  · rw [bind_run, h]
    rcases hy ⟨f s.rv, fu⟩ with ⟨fu', h', hq'⟩ | ⟨b, fu', h', hq', hp'⟩
    · exact Or.inl ⟨fu', h', fun h0 => hq' (hq h0)⟩
    · exact Or.inr ⟨b, fu', h', fun h0 => hq' (hq h0), Or.inr hp'⟩
  · rw [bind_run, h]
    exact Or.inr ⟨b, fu, rfl, hq, Or.inl hp⟩

omit [Arith F] in
theorem Does.mono {x : Act F Unit} {f g P Q} (hx : Does x f P) (hf : ∀ rv, f rv = g rv) (hP : ∀ a b, P a b → Q a b) : Does x g Q := by
  intro s
  rcases hx s with ⟨fu, h, hq⟩ | ⟨b, fu, h, hq, hp⟩
  · exact Or.inl ⟨fu, by rw [h, hf], hq⟩
  · exact Or.inr ⟨b, fu, h, hq, hP _ _ hp⟩

theorem does_wrapper (c : CoordSys F) (k : CoordTransform F → Ray F → Ray F) :
    Does (wrapper (.given c) (.ok k)) (movedTo c k) (fun a b => b = a ∨ b = torn c k a) := by
  intro s
  have h := wrapper_ended (.given c) (.ok k) s
  generalize wrapper (.given c) (.ok k) s = r at h
  cases h with
  | done c' k' f hc hk hf => cases hc; cases hk; exact Or.inl ⟨f, rfl, hf⟩
  | raised e f he hf => simp [namedSys] at he
  | early f hs => exact Or.inr ⟨_, f, rfl, hs, Or.inl rfl⟩
  | midway c' k' f hs hc hk => cases hc; cases hk; exact Or.inr ⟨_, f, rfl, hs, Or.inr rfl⟩

theorem does_interact (d : Iface F) (niter : ℕ) (rev : Bool) :
    Does (d.interactAct niter rev) (d.interact niter rev) (fun a b => b = a ∨ b = tornAt d niter rev a) := by
  unfold Iface.interactAct tornAt Iface.interact
  rcases d.kind <;> cases rev <;> exact does_wrapper _ _

theorem does_obscuration (d : Iface F) : Does d.obscurationAct d.applyObscuration (fun a b => b = a) := by
  unfold Iface.obscurationAct Iface.applyObscuration
  rcases d.obscuration with - | o
  · exact (does_tick.seq does_pure).mono (fun _ => rfl) (by simp)
  · refine (does_tick.seq (?_ : Does (obscureAct (.given o)) (fun rv => rv.obscure o) (fun a b => b = a))).mono (fun _ => rfl) (by simp)
    rintro ⟨rv, - | - | k⟩
    · exact Or.inl ⟨_, rfl, fun _ => rfl⟩
    · exact Or.inr ⟨_, _, rfl, by simp, rfl⟩
    · exact Or.inl ⟨_, rfl, by simp⟩

theorem does_iface (d : Iface F) (niter : ℕ) (rev : Bool) :
    Does (d.traceAct niter rev) (d.trace niter rev) (StopsAt d niter rev) := by
  refine (does_tick.seq ((does_interact d niter rev).seq (does_obscuration d))).mono (fun _ => rfl) ?_
  rintro a b (h | h | h)
  · exact Or.inl h
  · exact h.imp_right Or.inl
  · exact Or.inr (Or.inr h)

theorem StopsWithin.left {niter : ℕ} {rev : Bool} {ds es : List (Iface F)} {a b : RayVec F} (h : StopsWithin niter rev ds a b) :
    StopsWithin niter rev (ds ++ es) a b := by
  rcases h with rfl | ⟨pre, d, post, rfl, h⟩
  · rcases es with - | ⟨e, es⟩
    · exact Or.inl (by simp)
    · exact Or.inr ⟨ds, e, es, rfl, Or.inl rfl⟩
  · exact Or.inr ⟨pre, d, post ++ es, by simp, h⟩

theorem StopsWithin.right {niter : ℕ} {rev : Bool} {ds es : List (Iface F)} {a b : RayVec F}
    (h : StopsWithin niter rev es (afterAll niter rev ds a) b) : StopsWithin niter rev (ds ++ es) a b := by
  rcases h with rfl | ⟨pre, d, post, rfl, h⟩
  · exact Or.inl (by simp [afterAll])
  · exact Or.inr ⟨ds ++ pre, d, post, by simp, by simpa [afterAll] using h⟩

theorem StopsWithin.start {niter : ℕ} {rev : Bool} {ds : List (Iface F)} (a : RayVec F) : StopsWithin niter rev ds a a := by
  rcases ds with - | ⟨d, ds⟩
  · exact Or.inl rfl
  · exact Or.inr ⟨[], d, ds, rfl, Or.inl rfl⟩

mutual
theorem does_trace_fwd (niter : ℕ) : ∀ o : Optic F,
    Does (o.traceAct niter false) (o.trace niter false) (StopsWithin niter false (visits o))
  | .iface d => by
    simp only [Optic.traceAct, Optic.trace, visits]
    exact (does_iface d niter false).mono (fun _ => rfl) fun a b h => Or.inr ⟨[], d, [], rfl, h⟩
  | .compound _ items => by
    simp only [Optic.traceAct, Optic.trace, visits, Bool.false_eq_true, if_false]
    exact does_traceItems niter items
theorem does_traceItems (niter : ℕ) : ∀ os : List (Optic F),
    Does (Optic.traceItemsAct niter os) (Optic.traceItems niter os) (StopsWithin niter false (visitsItems os))
  | [] => by
    simp only [Optic.traceItemsAct]
    exact does_pure.mono (fun _ => rfl) (by simp)
  | o :: os => by
    simp only [Optic.traceItemsAct, visitsItems]
    by_cases hs : o.skip = true
    · simp only [hs, if_true, List.nil_append]
      refine (does_tick.seq (does_traceItems niter os)).mono (fun rv => by simp [Optic.traceItems, hs]) ?_
      rintro a b (rfl | h)
      · exact StopsWithin.start _
      · exact h
    · simp only [hs, Bool.false_eq_true, if_false]
      refine (does_tick.seq ((does_trace_fwd niter o).seq (does_traceItems niter os))).mono
        (fun rv => by simp [Optic.traceItems, hs]) ?_
      rintro a b (rfl | h | h)
      · exact StopsWithin.start _
      · exact h.left
      · refine StopsWithin.right ?_
        rw [id_eq, trace_visits] at h
        exact h
end

mutual
theorem does_trace_rev (niter : ℕ) : ∀ o : Optic F,
    Does (o.traceAct niter true) (o.trace niter true) (StopsWithin niter true (visits o).reverse)
  | .iface d => by
    simp only [Optic.traceAct, Optic.trace, visits]
    exact (does_iface d niter true).mono (fun _ => rfl) fun a b h => Or.inr ⟨[], d, [], rfl, h⟩
  | .compound _ items => by
    simp only [Optic.traceAct, Optic.trace, visits, if_true]
    exact does_traceItemsRev niter items
theorem does_traceItemsRev (niter : ℕ) : ∀ os : List (Optic F),
    Does (Optic.traceItemsRevAct niter os) (Optic.traceItemsRev niter os) (StopsWithin niter true (visitsItems os).reverse)
  | [] => by
    simp only [Optic.traceItemsRevAct]
    exact does_pure.mono (fun _ => rfl) (by simp)
  | o :: os => by
    simp only [Optic.traceItemsRevAct, visitsItems]
    by_cases hs : o.skip = true
    · simp only [hs, if_true, List.nil_append]
      refine ((does_traceItemsRev niter os).seq (does_tick.seq does_pure)).mono (fun rv => by simp [Optic.traceItemsRev, hs]) ?_
      rintro a b (h | h | h)
      · exact h
      · rw [h, traceItemsRev_visits]; exact Or.inl rfl
      · exact h.elim
    · simp only [hs, Bool.false_eq_true, if_false, List.reverse_append]
      refine ((does_traceItemsRev niter os).seq (does_tick.seq (does_trace_rev niter o))).mono
        (fun rv => by simp [Optic.traceItemsRev, hs]) ?_
      rintro a b (h | h | h)
      · exact h.left
      · refine StopsWithin.left ?_
        rw [h, traceItemsRev_visits]; exact Or.inl rfl
      · refine StopsWithin.right ?_
        rw [id_eq, traceItemsRev_visits] at h
        exact h
end

/-- C127: a trace that nobody interrupts returns, and has done what `trace` does. -/
theorem C127_trace (niter : ℕ) (rev : Bool) (o : Optic F) (rv : RayVec F) :
    o.traceAct niter rev ⟨rv, none⟩ = (⟨o.trace niter rev rv, none⟩, .ok ()) := by
  have h : ∃ P, Does (o.traceAct niter rev) (o.trace niter rev) P := by
    cases rev
    · exact ⟨_, does_trace_fwd niter o⟩
    · exact ⟨_, does_trace_rev niter o⟩
  obtain ⟨P, h⟩ := h
  rcases h ⟨rv, none⟩ with ⟨fu, h, hq⟩ | ⟨b, fu, h, hq, hp⟩
  · rw [h, hq rfl]
  · exact absurd rfl hq

/-- C127: an interrupted trace either still returns with everything done, or leaves the rays at one of the interfaces, in the order of the
trace: all interfaces before it are done, none after it has been touched, and at this one nothing has been done, or the numbers have been
changed and the label has not, or everything but the obscuration has been done. -/
theorem C127_interrupt_partial (niter : ℕ) (rev : Bool) (o : Optic F) (rv : RayVec F) (n : ℕ) :
    (∃ fu, o.traceAct niter rev ⟨rv, some n⟩ = (⟨o.trace niter rev rv, fu⟩, .ok ())) ∨
    (∃ b fu, o.traceAct niter rev ⟨rv, some n⟩ = (⟨b, fu⟩, .error .interrupt) ∧
      StopsWithin niter rev (meetingOrder rev o) rv b) := by
  cases rev
  · rcases does_trace_fwd niter o ⟨rv, some n⟩ with ⟨fu, h, -⟩ | ⟨b, fu, h, -, hp⟩
    · exact Or.inl ⟨fu, h⟩
    · exact Or.inr ⟨b, fu, h, by simpa [meetingOrder] using hp⟩
  · rcases does_trace_rev niter o ⟨rv, some n⟩ with ⟨fu, h, -⟩ | ⟨b, fu, h, -, hp⟩
    · exact Or.inl ⟨fu, h⟩
    · exact Or.inr ⟨b, fu, h, by simpa [meetingOrder] using hp⟩

/-! ### Explicit paths -/

/-- The loop over a path gets from one place in it to another: every name on the way is found, and its interface has been passed. -/
inductive Walked (niter : ℕ) (o : Optic F) (path : List Name) :
    List Name → Bool → RayVec F → List Name → Bool → RayVec F → Prop
  | here (l back rv) : Walked niter o path l back rv l back rv
  | step {nm rest back rv item rv' l back' rv''} (hi : o.getItem nm = .ok item)
      (hs : Optic.pathStep niter item back (Optic.nextBack path nm rest back) rv = .ok rv')
      (hw : Walked niter o path rest (Optic.nextBack path nm rest back) rv' l back' rv'') :
      Walked niter o path (nm :: rest) back rv l back' rv''

theorem does_turn (d : Iface F) (niter : ℕ) : ∃ P, Does (d.turnAct niter) (d.turn niter) P :=
  ⟨_, (does_tick.seq ((does_wrapper _ _).seq (does_obscuration d))).mono (Q := fun _ _ => True) (fun _ => rfl) (fun _ _ _ => trivial)⟩

omit [Arith F] in
theorem Does.quiet {x : Act F Unit} {f P} (h : Does x f P) (rv : RayVec F) : x ⟨rv, none⟩ = (⟨f rv, none⟩, .ok ()) := by
  rcases h ⟨rv, none⟩ with ⟨fu, h, hq⟩ | ⟨b, fu, h, hq, hp⟩
  · rw [h, hq rfl]
  · exact absurd rfl hq

theorem pathStep_quiet (niter : ℕ) (item : Optic F) (back back' : Bool) (rv : RayVec F) :
    (∃ rv', Optic.pathStep niter item back back' rv = .ok rv' ∧ item.pathStepAct niter back back' ⟨rv, none⟩ = (⟨rv', none⟩, .ok ())) ∨
    (∃ nm items, item = .compound nm items ∧ Optic.pathStep niter item back back' rv = .error .attributeError ∧
      item.pathStepAct niter back back' ⟨rv, none⟩ = (⟨rv, none⟩, .error (.err .attributeError))) := by
  unfold Optic.pathStepAct Optic.pathStep
  by_cases hb : back = back'
  · simp only [if_pos hb]
    exact Or.inl ⟨_, rfl, C127_trace niter back item rv⟩
  · simp only [if_neg hb]
    rcases item with d | ⟨nm, items⟩
    · obtain ⟨P, h⟩ := does_turn d niter
      exact Or.inl ⟨_, rfl, h.quiet rv⟩
    · exact Or.inr ⟨nm, items, rfl, rfl, rfl⟩

theorem pathLoop_quiet (niter : ℕ) (o : Optic F) (path : List Name) : ∀ (l : List Name) (back : Bool) (rv : RayVec F),
    (∃ rv', Optic.pathLoop niter o path l back rv = .ok rv' ∧
      o.pathLoopAct niter path l back ⟨rv, none⟩ = (⟨rv', none⟩, .ok ())) ∨
    (∃ e before nm rest back' b, l = before ++ nm :: rest ∧ Walked niter o path l back rv (nm :: rest) back' b ∧
      (o.getItem nm = .error e ∨ e = .attributeError ∧ ∃ m items, o.getItem nm = .ok (.compound m items)) ∧
      Optic.pathLoop niter o path l back rv = .error e ∧
      o.pathLoopAct niter path l back ⟨rv, none⟩ = (⟨b, none⟩, .error (.err e)))
  | [], back, rv => Or.inl ⟨rv, rfl, rfl⟩
  | nm :: rest, back, rv => by
    rcases hi : o.getItem nm with e | item
    · refine Or.inr ⟨e, [], nm, rest, back, rv, rfl, .here _ _ _, Or.inl hi, ?_, ?_⟩
      · simp only [Optic.pathLoop, hi]; rfl
      · simp only [Optic.pathLoopAct, hi]; rfl
    · have hact : o.pathLoopAct niter path (nm :: rest) back ⟨rv, none⟩ =
          (item.pathStepAct niter back (Optic.nextBack path nm rest back) >>= fun _ =>
            o.pathLoopAct niter path rest (Optic.nextBack path nm rest back)) ⟨rv, none⟩ := by
        simp only [Optic.pathLoopAct, hi]; rfl
      have hmod : Optic.pathLoop niter o path (nm :: rest) back rv =
          (Optic.pathStep niter item back (Optic.nextBack path nm rest back) rv >>= fun rv' =>
            Optic.pathLoop niter o path rest (Optic.nextBack path nm rest back) rv') := by
        simp only [Optic.pathLoop, hi]; rfl
      rw [hact, hmod, bind_run]
      rcases pathStep_quiet niter item back (Optic.nextBack path nm rest back) rv with ⟨rv', h1, h2⟩ | ⟨m, items, rfl, h1, h2⟩
      · rw [h1, h2]
        rcases pathLoop_quiet niter o path rest (Optic.nextBack path nm rest back) rv' with
          ⟨rv'', h3, h4⟩ | ⟨e, before, nm', rest', back', b, hl, hw, he, h3, h4⟩
        · exact Or.inl ⟨rv'', h3, h4⟩
        · exact Or.inr ⟨e, nm :: before, nm', rest', back', b, by rw [hl]; rfl, .step hi h1 hw, he, h3, h4⟩
      · rw [h1, h2]
        exact Or.inr ⟨_, [], nm, rest, back, rv, rfl, .here _ _ _, Or.inr ⟨rfl, m, items, hi⟩, rfl, rfl⟩

/-- C127: a trace along a path that nobody interrupts returns with what `trace(path=...)` does, or raises at a name that is not found or that
names a compound where light turns round; the rays have then passed the names before that one. -/
theorem C127_path (niter : ℕ) (o : Optic F) (path : List Name) (rv : RayVec F) :
    (∃ rv', o.tracePath niter path rv = .ok rv' ∧ o.tracePathAct niter path ⟨rv, none⟩ = (⟨rv', none⟩, .ok ())) ∨
    (∃ e before nm rest back b, path = before ++ nm :: rest ∧ Walked niter o path path false rv (nm :: rest) back b ∧
      (o.getItem nm = .error e ∨ e = .attributeError ∧ ∃ m items, o.getItem nm = .ok (.compound m items)) ∧
      o.tracePath niter path rv = .error e ∧ o.tracePathAct niter path ⟨rv, none⟩ = (⟨b, none⟩, .error (.err e))) :=
  pathLoop_quiet niter o path path false rv

/-- C127: a path of names of interfaces, all found, is followed to the end. -/
theorem C127_path_known (niter : ℕ) (o : Optic F) (path : List Name) (rv : RayVec F)
    (hk : ∀ nm ∈ path, ∃ d, o.getItem nm = .ok (.iface d)) :
    ∃ rv', o.tracePath niter path rv = .ok rv' ∧ o.tracePathAct niter path ⟨rv, none⟩ = (⟨rv', none⟩, .ok ()) := by
  rcases C127_path niter o path rv with h | ⟨e, before, nm, rest, back, b, hp, -, he, -⟩
  · exact h
  · obtain ⟨d, hd⟩ := hk nm (by rw [hp]; simp)
    rcases he with h | ⟨-, m, items, h⟩
    · rw [hd] at h; cases h
    · rw [hd] at h; cases h

/-- C127, the part that holds of paths: when the first name is not found the call raises and the rays are what they were. -/
theorem C127_path_partial (niter : ℕ) (o : Optic F) (nm : Name) (rest : List Name) (rv : RayVec F) (e : PyErr)
    (he : o.getItem nm = .error e) : RaisedUntouched rv (o.tracePathAct niter (nm :: rest) ⟨rv, none⟩) := by
  refine ⟨e, ?_⟩
  simp only [Optic.tracePathAct, Optic.pathLoopAct, he]
  rfl

/-! ### What goes wrong -/

/-- The telescope of the example: two flat detectors one metre apart. -/
noncomputable def demoPair : Optic Dbl := demoComp "T" [.iface (demoFlat "A" 1), .iface (demoFlat "B" 2)]

theorem demoPair_A : demoPair.getItem "A".toList = .ok (.iface (demoFlat "A" 1)) := rfl

theorem demoPair_typo : demoPair.getItem "BB".toList = .error .valueError := rfl

/-- C127 fails for paths: a path with a misspelt second name raises after the rays have been traced to the first surface, whatever the rays. -/
theorem C127_path_violated : ∃ (o : Optic Dbl) (path : List Name), ∀ rv : RayVec Dbl, rv.coordSys = (CoordSys.std ℝ).fin →
    ∃ b, o.tracePathAct 5 path ⟨rv, none⟩ = (⟨b, none⟩, .error (.err .valueError)) ∧ b.coordSys ≠ rv.coordSys := by
  refine ⟨demoPair, ["A".toList, "BB".toList], fun rv hrv => ⟨(demoFlat "A" 1).trace 5 false rv, ?_, ?_⟩⟩
  · have hback : Optic.nextBack ["A".toList, "BB".toList] "A".toList ["BB".toList] false = false := rfl
    have hstep : (Optic.iface (demoFlat "A" 1)).pathStepAct 5 false false ⟨rv, none⟩ =
        (⟨(demoFlat "A" 1).trace 5 false rv, none⟩, .ok ()) := C127_trace 5 false (.iface (demoFlat "A" 1)) rv
    rw [Optic.tracePathAct, Optic.pathLoopAct, bind_run, tick_none, demoPair_A, hback]
    change ((Optic.iface (demoFlat "A" 1)).pathStepAct 5 false false >>= fun _ =>
      demoPair.pathLoopAct 5 ["A".toList, "BB".toList] ["BB".toList] false) ⟨rv, none⟩ = _
    rw [bind_run, hstep]
    simp only [Optic.pathLoopAct, demoPair_typo]
    rfl
  · rw [(C18_trace_frame_and_order _ 5 false _).1, hrv]
    exact demo_frame_ne (y := 1) (z := 0) (by norm_num)

/-- C127 fails for interrupts, at every interface and for all rays: stopping the program after the C++ call has returned leaves the numbers of
the new system with the label of the old one. -/
theorem C127_interrupt_violated (d : Iface F) (niter : ℕ) (rev : Bool) (rv : RayVec F) :
    ∃ n fu, d.traceAct niter rev ⟨rv, some n⟩ = (⟨tornAt d niter rev rv, fu⟩, .error .interrupt) := by
  refine ⟨4, some 0, ?_⟩
  unfold Iface.traceAct Iface.interactAct tornAt Iface.interact
  rcases d.kind <;> cases rev <;> rfl

/-- `toCoordSys` only describes the same rays in another system, but interrupted it moves them: a ray at the origin that is expressed in the
system at (0, 0, 1) is left at (0, 0, -1) of the system it was in. -/
theorem C127_relabel_violated (ray : Ray Dbl) (hr : ray.r = (⟨0, 0, 0⟩ : V3 ℝ).fin) :
    ∃ n fu ray', toCoordSysAct (.given (CoordSys.mk ⟨0, 0, 1⟩ M3.one : CoordSys ℝ).fin) ⟨⟨[ray], (CoordSys.std ℝ).fin⟩, some n⟩ =
      (⟨⟨[ray'], (CoordSys.std ℝ).fin⟩, fu⟩, .error .interrupt) ∧ ray'.r = (⟨0, 0, -1⟩ : V3 ℝ).fin := by
  refine ⟨2, some 0, _, rfl, ?_⟩
  simp only [Ray.forward, hr]
  rw [CoordTransform.forward_fin]
  congr 1
  ext <;> simp [CoordTransform.forward, CoordTransform.make, CoordSys.std, M3.tr, M3.mul, M3.mulVec, M3.one]

/-- A path along both detectors is followed to the end. -/
example (rv : RayVec Dbl) : ∃ rv', demoPair.tracePathAct 5 ["A".toList, "B".toList] ⟨rv, none⟩ = (⟨rv', none⟩, .ok ()) := by
  obtain ⟨rv', -, h⟩ := C127_path_known 5 demoPair ["A".toList, "B".toList] rv (by
    intro nm h
    simp only [List.mem_cons, List.not_mem_nil, or_false] at h
    rcases h with rfl | rfl
    · exact ⟨_, demoPair_A⟩
    · exact ⟨demoFlat "B" 2, rfl⟩)
  exact ⟨rv', h⟩

/-- A path with a misspelt first name does nothing. -/
example (rv : RayVec Dbl) : RaisedUntouched rv (demoPair.tracePathAct 5 ["BB".toList, "A".toList] ⟨rv, none⟩) :=
  C127_path_partial 5 demoPair _ _ rv _ demoPair_typo

/-- An interrupt after four statements of a trace of the two detectors leaves the rays before the first. -/
example (rv : RayVec Dbl) : ∃ fu, demoPair.traceAct 5 false ⟨rv, some 4⟩ = (⟨rv, fu⟩, .error .interrupt) := ⟨_, rfl⟩
/-- An interrupt after five statements finds the numbers of the first and the label from before. -/
example (rv : RayVec Dbl) :
    ∃ fu, demoPair.traceAct 5 false ⟨rv, some 5⟩ = (⟨tornAt (demoFlat "A" 1) 5 false rv, fu⟩, .error .interrupt) := ⟨_, rfl⟩
/-- An interrupt after six statements finds the rays between the detectors. -/
example (rv : RayVec Dbl) :
    ∃ fu, demoPair.traceAct 5 false ⟨rv, some 6⟩ = (⟨(demoFlat "A" 1).trace 5 false rv, fu⟩, .error .interrupt) := ⟨_, rfl⟩

end Batoid.Props
