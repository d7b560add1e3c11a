import Verif.Props.SplitEnds
import Mathlib.Data.List.Nodup
import Mathlib.Data.List.Perm.Basic

/-!
# Property C110: `traceSplit` returns every way through the optic, each of them once

Specification vocabulary.  Light is in one of the gaps between the interfaces of the optic taken in order (the nesting of
compounds does not matter), going forward or back.  At the next interface it is either refracted or reflected; the bright rays
go on.  A *route* is the list of these events until the light leaves in front or behind.
-/

namespace Batoid.Props
open Batoid

section spec
variable {F : Type} [Arith F]

mutual
/-- All interfaces of an optic, in order. -/
def flat {F : Type} : Optic F → List (Iface F)
  | .iface d => [d]
  | .compound _ items => flats items
def flats {F : Type} : List (Optic F) → List (Iface F)
  | [] => []
  | o :: os => flat o ++ flats os
end

/-- A ray that is followed further: not vignetted and at least as bright as asked for. -/
def bright (m : F) (ray : Ray F) : Bool := !ray.vignetted && Arith.ge ray.flux m

/-- What becomes of rays at an interface reached forward or (`back`) in reverse when they are reflected (`refl`) or refracted:
some of them must go on. -/
def Leg (niter : ℕ) (m : F) (d : Iface F) (back refl : Bool) (rv rv' : RayVec F) : Prop :=
  ∃ s out, d.rSplit niter back rv = .ok s ∧ (if refl then s.2 else s.1) = some out ∧
    rv' = ⟨(d.applyObscuration out).rays.filter (bright m), (d.applyObscuration out).coordSys⟩ ∧ rv'.rays ≠ []

/-- The events of a route: names of the interfaces met, and whether the light was reflected there. -/
abbrev Events := List (Name × Bool)

/-- `Route niter m before after back rv w behind rv'`: rays `rv` in the gap behind the interfaces `before` (nearest first) and in
front of the interfaces `after`, going forward or back, undergo the events `w` and leave the optic (behind it, if they go
back to where light comes from) as the rays `rv'`.  Light turns round when it is reflected by anything but a mirror. -/
inductive Route (niter : ℕ) (m : F) :
    List (Iface F) → List (Iface F) → Bool → RayVec F → Events → Bool → RayVec F → Prop
  | front (l : List (Iface F)) (rv : RayVec F) : Route niter m l [] false rv [] false rv
  | behind (r : List (Iface F)) (rv : RayVec F) : Route niter m [] r true rv [] true rv
  | pass {l r : List (Iface F)} {d : Iface F} {refl : Bool} {rv rv1 rv2 : RayVec F} {w : Events} {s : Bool}
      (h : Leg niter m d false refl rv rv1) (hk : refl = d.isMirror) (hr : Route niter m (d :: l) r false rv1 w s rv2) :
      Route niter m l (d :: r) false rv ((d.name, refl) :: w) s rv2
  | turn {l r : List (Iface F)} {d : Iface F} {refl : Bool} {rv rv1 rv2 : RayVec F} {w : Events} {s : Bool}
      (h : Leg niter m d false refl rv rv1) (hk : refl ≠ d.isMirror) (hr : Route niter m l (d :: r) true rv1 w s rv2) :
      Route niter m l (d :: r) false rv ((d.name, refl) :: w) s rv2
  | passBack {l r : List (Iface F)} {d : Iface F} {refl : Bool} {rv rv1 rv2 : RayVec F} {w : Events} {s : Bool}
      (h : Leg niter m d true refl rv rv1) (hk : refl = d.isMirror) (hr : Route niter m l (d :: r) true rv1 w s rv2) :
      Route niter m (d :: l) r true rv ((d.name, refl) :: w) s rv2
  | turnBack {l r : List (Iface F)} {d : Iface F} {refl : Bool} {rv rv1 rv2 : RayVec F} {w : Events} {s : Bool}
      (h : Leg niter m d true refl rv rv1) (hk : refl ≠ d.isMirror) (hr : Route niter m (d :: l) r false rv1 w s rv2) :
      Route niter m (d :: l) r true rv ((d.name, refl) :: w) s rv2

/-- A way through: its events, the side where it ends, and the rays at the end with their `path` attribute. -/
structure Way (F : Type) where
  events : Events
  behind : Bool
  beam : Beam F

/-- The `path` attribute after the interfaces `ns`. -/
def pathAfter : Option (List Name) → List Name → Option (List Name)
  | p, [] => p
  | p, nm :: ns => pathAfter (some (p.getD [] ++ [nm])) ns

/-- Beams that left in front, and behind. -/
def inFront {F : Type} (E : List (Way F)) : List (Beam F) := (E.filter (fun e => !e.behind)).map (·.beam)
def inBack {F : Type} (E : List (Way F)) : List (Beam F) := (E.filter (fun e => e.behind)).map (·.beam)

/-- `f` and `r` list the ends of all routes (given by `S`) of rays with the path attribute `p`, each once, in some order. -/
def Lists {F : Type} (S : Events → Bool → RayVec F → Prop) (p : Option (List Name)) (f r : List (Beam F)) : Prop :=
  ∃ E : List (Way F), E.Nodup ∧
    (∀ e, e ∈ E ↔ S e.events e.behind e.beam.rv ∧ e.beam.path = pathAfter p (e.events.map Prod.fst)) ∧
    f.Perm (inFront E) ∧ r.Perm (inBack E)

end spec

/-! ## Routes -/

section routes
variable {F : Type} [Arith F] {niter : ℕ} {m : F}

theorem leg_det {d : Iface F} {back refl : Bool} {rv a b : RayVec F} (ha : Leg niter m d back refl rv a)
    (hb : Leg niter m d back refl rv b) : a = b := by
  obtain ⟨s, o, h1, h2, h3, -⟩ := ha
  obtain ⟨s', o', h1', h2', h3', -⟩ := hb
  rw [h1] at h1'
  cases h1'
  rw [h2] at h2'
  cases h2'
  rw [h3, h3']

/-- A route that is the beginning of another one is that route. -/
theorem route_prefix {l r : List (Iface F)} {back : Bool} {rv : RayVec F} {w1 : Events} {s1 : Bool} {rv1 : RayVec F}
    (h1 : Route niter m l r back rv w1 s1 rv1) : ∀ {w2 w : Events} {s : Bool} {rv2 : RayVec F},
    Route niter m l r back rv w s rv2 → w = w1 ++ w2 → w2 = [] ∧ s = s1 ∧ rv2 = rv1 := by
  induction h1 with
  | front l rv => intro w2 w s rv2 h e; cases h; simp_all
  | behind r rv => intro w2 w s rv2 h e; cases h; simp_all
  | pass h hk hr ih =>
    intro w2 w s rv2 h' e
    subst e
    cases h' with
    | pass g gk gr => rw [leg_det g h] at gr; exact ih gr rfl
    | turn g gk gr => exact absurd hk gk
  | turn h hk hr ih =>
    intro w2 w s rv2 h' e
    subst e
    cases h' with
    | pass g gk gr => exact absurd gk hk
    | turn g gk gr => rw [leg_det g h] at gr; exact ih gr rfl
  | passBack h hk hr ih =>
    intro w2 w s rv2 h' e
    subst e
    cases h' with
    | passBack g gk gr => rw [leg_det g h] at gr; exact ih gr rfl
    | turnBack g gk gr => exact absurd hk gk
  | turnBack h hk hr ih =>
    intro w2 w s rv2 h' e
    subst e
    cases h' with
    | passBack g gk gr => exact absurd gk hk
    | turnBack g gk gr => rw [leg_det g h] at gr; exact ih gr rfl

/-- Joining a route through a part with one through the whole from there on. -/
theorem route_join {l1 r1 : List (Iface F)} {back : Bool} {rv : RayVec F} {w1 : Events} {s1 : Bool} {rv1 : RayVec F}
    (h1 : Route niter m l1 r1 back rv w1 s1 rv1) : ∀ {l r : List (Iface F)} {w2 : Events} {s : Bool} {rv2 : RayVec F},
    Route niter m (if s1 then l else (l1.reverse ++ r1).reverse ++ l) (if s1 then (l1.reverse ++ r1) ++ r else r) s1 rv1 w2 s rv2 →
    Route niter m (l1 ++ l) (r1 ++ r) back rv (w1 ++ w2) s rv2 := by
  induction h1 with
  | front l1 rv => intro l r w2 s rv2 h; simpa using h
  | behind r1 rv => intro l r w2 s rv2 h; simpa using h
  | pass h hk hr ih =>
    intro l r w2 s rv2 h'
    refine .pass h hk (ih ?_)
    simpa using h'
  | turn h hk hr ih =>
    intro l r w2 s rv2 h'
    refine .turn h hk (ih ?_)
    simpa using h'
  | passBack h hk hr ih =>
    intro l r w2 s rv2 h'
    refine .passBack h hk (ih ?_)
    simpa using h'
  | turnBack h hk hr ih =>
    intro l r w2 s rv2 h'
    refine .turnBack h hk (ih ?_)
    simpa using h'

/-- Every route through the whole that starts in a part first leaves that part. -/
theorem route_split : ∀ (w : Events) {l1 r1 l r : List (Iface F)} {back : Bool} {rv : RayVec F} {s : Bool} {rv2 : RayVec F},
    Route niter m (l1 ++ l) (r1 ++ r) back rv w s rv2 →
    ∃ w1 s1 rv1 w2, w = w1 ++ w2 ∧ Route niter m l1 r1 back rv w1 s1 rv1 ∧
      Route niter m (if s1 then l else (l1.reverse ++ r1).reverse ++ l) (if s1 then (l1.reverse ++ r1) ++ r else r) s1 rv1 w2 s rv2 := by
  intro w
  induction w with
  | nil =>
    intro l1 r1 l r back rv s rv2 h
    cases back with
    | false =>
      cases r1 with
      | nil => exact ⟨[], false, rv, [], rfl, .front _ _, by simpa using h⟩
      | cons d r1 =>
        rw [List.cons_append] at h
        generalize l1 ++ l = X at h
        cases h
    | true =>
      cases l1 with
      | nil => exact ⟨[], true, rv, [], rfl, .behind _ _, by simpa using h⟩
      | cons d l1 =>
        rw [List.cons_append] at h
        generalize r1 ++ r = Y at h
        cases h
  | cons x w ih =>
    intro l1 r1 l r back rv s rv2 h
    cases back with
    | false =>
      cases r1 with
      | nil => exact ⟨[], false, rv, x :: w, rfl, .front _ _, by simpa using h⟩
      | cons d r1 =>
        rw [List.cons_append] at h
        generalize hX : l1 ++ l = X at h
        cases h with
        | pass g gk gr =>
          obtain ⟨w1, s1, rv1, w2, e, h1, h2⟩ := ih (l1 := d :: l1) (by subst hX; exact gr)
          subst e
          exact ⟨_, s1, rv1, w2, rfl, .pass g gk h1, by simpa using h2⟩
        | turn g gk gr =>
          obtain ⟨w1, s1, rv1, w2, e, h1, h2⟩ := ih (r1 := d :: r1) (by subst hX; exact gr)
          subst e
          exact ⟨_, s1, rv1, w2, rfl, .turn g gk h1, by simpa using h2⟩
    | true =>
      cases l1 with
      | nil => exact ⟨[], true, rv, x :: w, rfl, .behind _ _, by simpa using h⟩
      | cons d l1 =>
        rw [List.cons_append] at h
        generalize hX : r1 ++ r = X at h
        cases h with
        | passBack g gk gr =>
          obtain ⟨w1, s1, rv1, w2, e, h1, h2⟩ := ih (r1 := d :: r1) (by subst hX; exact gr)
          subst e
          exact ⟨_, s1, rv1, w2, rfl, .passBack g gk h1, by simpa using h2⟩
        | turnBack g gk gr =>
          obtain ⟨w1, s1, rv1, w2, e, h1, h2⟩ := ih (l1 := d :: l1) (by subst hX; exact gr)
          subst e
          exact ⟨_, s1, rv1, w2, rfl, .turnBack g gk h1, by simpa using h2⟩

theorem pathAfter_append : ∀ (ns ms : List Name) (p : Option (List Name)),
    pathAfter p (ns ++ ms) = pathAfter (pathAfter p ns) ms
  | [], _, _ => rfl
  | _ :: ns, ms, _ => pathAfter_append ns ms _

theorem pathAfter_cons : ∀ (ns : List Name) (nm : Name) (p : Option (List Name)),
    pathAfter p (nm :: ns) = some (p.getD [] ++ nm :: ns)
  | [], nm, p => rfl
  | n' :: ns, nm, p => by
    rw [pathAfter, pathAfter_cons ns n']
    simp

end routes

/-! ## Lists of ways -/

section lists
variable {F : Type}

theorem inFront_append (A B : List (Way F)) : inFront (A ++ B) = inFront A ++ inFront B := by simp [inFront]
theorem inBack_append (A B : List (Way F)) : inBack (A ++ B) = inBack A ++ inBack B := by simp [inBack]

/-- The way that begins with the events `w`. -/
def Way.after (w : Events) (e : Way F) : Way F := { e with events := w ++ e.events }

theorem inFront_after (w : Events) (E : List (Way F)) : inFront (E.map (Way.after w)) = inFront E := by
  induction E with
  | nil => rfl
  | cons e E ih =>
    have h1 : inFront ((e :: E).map (Way.after w)) = inFront [Way.after w e] ++ inFront (E.map (Way.after w)) := by
      rw [← inFront_append]; rfl
    have h2 : inFront (e :: E) = inFront [e] ++ inFront E := by rw [← inFront_append]; rfl
    rw [h1, h2, ih]
    congr 1
    cases h : e.behind <;> simp [inFront, Way.after, h]

theorem inBack_after (w : Events) (E : List (Way F)) : inBack (E.map (Way.after w)) = inBack E := by
  induction E with
  | nil => rfl
  | cons e E ih =>
    have h1 : inBack ((e :: E).map (Way.after w)) = inBack [Way.after w e] ++ inBack (E.map (Way.after w)) := by
      rw [← inBack_append]; rfl
    have h2 : inBack (e :: E) = inBack [e] ++ inBack E := by rw [← inBack_append]; rfl
    rw [h1, h2, ih]
    congr 1
    cases h : e.behind <;> simp [inBack, Way.after, h]

theorem inFront_flatMap {α : Type} (L : List α) (D : α → List (Way F)) :
    inFront (L.flatMap D) = L.flatMap (fun a => inFront (D a)) := by
  induction L with
  | nil => rfl
  | cons a L ih => simp only [List.flatMap_cons, inFront_append, ih]

theorem inBack_flatMap {α : Type} (L : List α) (D : α → List (Way F)) :
    inBack (L.flatMap D) = L.flatMap (fun a => inBack (D a)) := by
  induction L with
  | nil => rfl
  | cons a L ih => simp only [List.flatMap_cons, inBack_append, ih]

/-- Going through the ways that end in front and then through those that end behind is going through all. -/
theorem sides_perm {β : Type} (E : List (Way F)) (g : Bool → Beam F → List β) :
    ((inFront E).flatMap (g false) ++ (inBack E).flatMap (g true)).Perm (E.flatMap (fun e => g e.behind e.beam)) := by
  induction E with
  | nil => exact .refl _
  | cons e E ih =>
    have h1 : inFront (e :: E) = inFront [e] ++ inFront E := by rw [← inFront_append]; rfl
    have h2 : inBack (e :: E) = inBack [e] ++ inBack E := by rw [← inBack_append]; rfl
    rw [h1, h2]
    cases h : e.behind with
    | false =>
      have a : inFront [e] = [e.beam] := by simp [inFront, h]
      have b : inBack [e] = [] := by simp [inBack, h]
      rw [a, b]
      simp only [List.cons_append, List.nil_append, List.flatMap_cons, h, List.append_assoc]
      exact ih.append_left _
    | true =>
      have a : inFront [e] = [] := by simp [inFront, h]
      have b : inBack [e] = [e.beam] := by simp [inBack, h]
      rw [a, b]
      simp only [List.cons_append, List.nil_append, List.flatMap_cons, h]
      refine (List.perm_append_comm_assoc _ _ _).trans ?_
      exact ih.append_left _

/-- Two complete lists of ways agree up to order. -/
theorem lists_unique {S : Events → Bool → RayVec F → Prop} {p : Option (List Name)} {E E' : List (Way F)}
    (h1 : E.Nodup) (h1' : E'.Nodup)
    (h2 : ∀ e, e ∈ E ↔ S e.events e.behind e.beam.rv ∧ e.beam.path = pathAfter p (e.events.map Prod.fst))
    (h2' : ∀ e, e ∈ E' ↔ S e.events e.behind e.beam.rv ∧ e.beam.path = pathAfter p (e.events.map Prod.fst)) :
    E.Perm E' := (List.perm_ext_iff_of_nodup h1 h1').2 (fun e => by rw [h2, h2'])

/-- `E` lists the ways given by `S` without repetition. -/
def Complete (S : Events → Bool → RayVec F → Prop) (p : Option (List Name)) (E : List (Way F)) : Prop :=
  E.Nodup ∧ ∀ e, e ∈ E ↔ S e.events e.behind e.beam.rv ∧ e.beam.path = pathAfter p (e.events.map Prod.fst)

theorem Way.ext' {e e' : Way F} (h1 : e.events = e'.events) (h2 : e.behind = e'.behind) (h3 : e.beam.rv = e'.beam.rv)
    (h4 : e.beam.path = e'.beam.path) : e = e' := by
  obtain ⟨a, b, c, d⟩ := e
  obtain ⟨a', b', c', d'⟩ := e'
  simp only at h1 h2 h3 h4
  subst h1 h2 h3 h4
  rfl

/-- The ways through the whole are those through a part, each followed by those from there on. -/
theorem ways_bind {S S1 : Events → Bool → RayVec F → Prop} {T : Bool → RayVec F → Events → Bool → RayVec F → Prop}
    {p : Option (List Name)} {E1 : List (Way F)} {D : Bool → Beam F → List (Way F)}
    (hS : ∀ w s rv, S w s rv ↔ ∃ w1 s1 rv1 w2, w = w1 ++ w2 ∧ S1 w1 s1 rv1 ∧ T s1 rv1 w2 s rv)
    (hpre : ∀ {w1 s1 rv1 w2 s rv}, S1 w1 s1 rv1 → S1 (w1 ++ w2) s rv → w2 = [] ∧ s = s1 ∧ rv = rv1)
    (h1 : Complete S1 p E1)
    (hD : ∀ e ∈ E1, Complete (T e.behind e.beam.rv) e.beam.path (D e.behind e.beam)) :
    Complete S p (E1.flatMap (fun e => (D e.behind e.beam).map (Way.after e.events))) := by
  constructor
  · rw [List.nodup_flatMap]
    refine ⟨fun e he => ?_, ?_⟩
    · refine (hD e he).1.map ?_
      intro a b hab
      have h1 := congrArg Way.events hab
      have h2 := congrArg Way.behind hab
      have h3 := congrArg (fun e => e.beam.rv) hab
      have h4 := congrArg (fun e => e.beam.path) hab
      exact Way.ext' (List.append_cancel_left h1) h2 h3 h4
    · refine h1.1.pairwise_of_forall_ne ?_
      intro e he e' he' hne x hx hx'
      rw [List.mem_map] at hx hx'
      obtain ⟨y, hy, rfl⟩ := hx
      obtain ⟨y', hy', hyy⟩ := hx'
      have hev : e'.events ++ y'.events = e.events ++ y.events := congrArg Way.events hyy
      apply hne
      obtain ⟨a1, a2⟩ := (h1.2 e).1 he
      obtain ⟨b1, b2⟩ := (h1.2 e').1 he'
      rcases List.append_eq_append_iff.1 hev with ⟨a, ha, -⟩ | ⟨a, ha, -⟩
      · rw [ha] at a1
        obtain ⟨c1, c2, c3⟩ := hpre b1 a1
        subst c1
        rw [List.append_nil] at ha
        exact Way.ext' ha c2 c3 (by rw [a2, b2, ha])
      · rw [ha] at b1
        obtain ⟨c1, c2, c3⟩ := hpre a1 b1
        subst c1
        rw [List.append_nil] at ha
        exact Way.ext' ha.symm c2.symm c3.symm (by rw [a2, b2, ha])
  · intro e
    rw [List.mem_flatMap, hS]
    constructor
    · rintro ⟨e1, he1, hx⟩
      rw [List.mem_map] at hx
      obtain ⟨y, hy, rfl⟩ := hx
      obtain ⟨a1, a2⟩ := (h1.2 e1).1 he1
      obtain ⟨b1, b2⟩ := ((hD e1 he1).2 y).1 hy
      refine ⟨⟨e1.events, e1.behind, e1.beam.rv, y.events, rfl, a1, b1⟩, ?_⟩
      show y.beam.path = pathAfter p ((e1.events ++ y.events).map Prod.fst)
      rw [List.map_append, pathAfter_append, ← a2, b2]
    · rintro ⟨⟨w1, s1, rv1, w2, hw, a1, b1⟩, hp⟩
      have he1 : (⟨w1, s1, ⟨rv1, pathAfter p (w1.map Prod.fst)⟩⟩ : Way F) ∈ E1 := (h1.2 _).2 ⟨a1, rfl⟩
      refine ⟨_, he1, ?_⟩
      rw [List.mem_map]
      refine ⟨⟨w2, e.behind, e.beam⟩, ((hD _ he1).2 _).2 ⟨b1, ?_⟩, ?_⟩
      · rw [hp, hw, List.map_append, pathAfter_append]
      · exact Way.ext' hw.symm rfl rfl rfl

end lists

/-! ## The work loop -/

section loop
variable {F : Type} [Arith F] {niter : ℕ} {m : F}

theorem flats_append : ∀ (a b : List (Optic F)), flats (a ++ b) = flats a ++ flats b
  | [], _ => rfl
  | o :: a, b => by rw [List.cons_append, flats, flats, flats_append a b, List.append_assoc]

/-- Routes that enter an optic. -/
def Entry (niter : ℕ) (m : F) (o : Optic F) (back : Bool) (rv : RayVec F) : Events → Bool → RayVec F → Prop :=
  Route niter m (if back then (flat o).reverse else []) (if back then [] else flat o) back rv

/-- Routes from the boundary before the `g`-th item of a compound. -/
def FromGap (niter : ℕ) (m : F) (items : List (Optic F)) (g : ℕ) (back : Bool) (rv : RayVec F) : Events → Bool → RayVec F → Prop :=
  Route niter m (flats (items.take g)).reverse (flats (items.drop g)) back rv

/-- The boundary from which a job starts. -/
def jobGap (job : Optic.Job F) : ℕ := if job.back then job.index + 1 else job.index

theorem gap_split {items : List (Optic F)} {i : ℕ} {o : Optic F} (ho : items[i]? = some o) (back : Bool) (rv : RayVec F)
    (w : Events) (s : Bool) (rv2 : RayVec F) :
    FromGap niter m items (if back then i + 1 else i) back rv w s rv2 ↔ ∃ w1 s1 rv1 w2, w = w1 ++ w2 ∧
      Entry niter m o back rv w1 s1 rv1 ∧ FromGap niter m items (if s1 then i else i + 1) s1 rv1 w2 s rv2 := by
  obtain ⟨hi, ho'⟩ := List.getElem?_eq_some_iff.1 ho
  have ht : flats (items.take (i + 1)) = flats (items.take i) ++ flat o := by
    rw [List.take_succ_eq_append_getElem hi, flats_append, ho', flats, flats, List.append_nil]
  have hd : flats (items.drop i) = flat o ++ flats (items.drop (i + 1)) := by
    rw [List.drop_eq_getElem_cons hi, ho', flats]
  cases back with
  | false =>
    constructor
    · intro h
      unfold FromGap at h
      rw [if_neg (by simp), hd] at h
      obtain ⟨w1, s1, rv1, w2, e, h1, h2⟩ := route_split w (l1 := []) h
      refine ⟨w1, s1, rv1, w2, e, by simpa [Entry] using h1, ?_⟩
      cases s1 <;> simpa [FromGap, ht, hd] using h2
    · rintro ⟨w1, s1, rv1, w2, rfl, h1, h2⟩
      unfold FromGap
      rw [if_neg (by simp), hd]
      refine route_join (l1 := []) (r1 := flat o) (s1 := s1) (rv1 := rv1) (by simpa [Entry] using h1) ?_
      cases s1 <;> simpa [FromGap, ht, hd] using h2
  | true =>
    constructor
    · intro h
      unfold FromGap at h
      rw [if_pos rfl, ht, List.reverse_append] at h
      obtain ⟨w1, s1, rv1, w2, e, h1, h2⟩ := route_split w (r1 := []) h
      refine ⟨w1, s1, rv1, w2, e, by simpa [Entry] using h1, ?_⟩
      cases s1 <;> simpa [FromGap, ht, hd] using h2
    · rintro ⟨w1, s1, rv1, w2, rfl, h1, h2⟩
      unfold FromGap
      rw [if_pos rfl, ht, List.reverse_append]
      refine route_join (l1 := (flat o).reverse) (r1 := []) (s1 := s1) (rv1 := rv1) (by simpa [Entry] using h1) ?_
      cases s1 <;> simpa [FromGap, ht, hd] using h2

theorem gap_front (items : List (Optic F)) (b : Beam F) :
    Complete (FromGap niter m items items.length false b.rv) b.path [⟨[], false, b⟩] := by
  refine ⟨List.nodup_singleton _, fun e => ?_⟩
  unfold FromGap
  rw [List.mem_singleton, List.drop_length, flats]
  constructor
  · rintro rfl
    exact ⟨.front _ _, rfl⟩
  · rintro ⟨h, hp⟩
    obtain ⟨w, s, rv, q⟩ := e
    simp only at h hp
    generalize (flats (items.take items.length)).reverse = X at h
    cases h
    exact Way.ext' rfl rfl rfl hp

theorem gap_behind (items : List (Optic F)) (b : Beam F) :
    Complete (FromGap niter m items 0 true b.rv) b.path [⟨[], true, b⟩] := by
  refine ⟨List.nodup_singleton _, fun e => ?_⟩
  unfold FromGap
  rw [List.mem_singleton, List.take_zero, flats, List.reverse_nil]
  constructor
  · rintro rfl
    exact ⟨.behind _ _, rfl⟩
  · rintro ⟨h, hp⟩
    obtain ⟨w, s, rv, q⟩ := e
    simp only at h hp
    generalize flats (items.drop 0) = X at h
    cases h
    exact Way.ext' rfl rfl rfl hp

/-- What one entry of the work queue contributes. -/
def JobLists (niter : ℕ) (m : F) (items : List (Optic F)) (job : Optic.Job F) (f r : List (Beam F)) : Prop :=
  Lists (FromGap niter m items (jobGap job) job.back job.beam.rv) job.beam.path f r

theorem lists_iff {S : Events → Bool → RayVec F → Prop} {p : Option (List Name)} {f r : List (Beam F)} :
    Lists S p f r ↔ ∃ E, Complete S p E ∧ f.Perm (inFront E) ∧ r.Perm (inBack E) :=
  ⟨fun ⟨E, a, b, c⟩ => ⟨E, ⟨a, b⟩, c⟩, fun ⟨E, ⟨a, b⟩, c⟩ => ⟨E, a, b, c⟩⟩

/-- The ways given by `S`, if they can be listed. -/
noncomputable def theWays (S : Events → Bool → RayVec F → Prop) (p : Option (List Name)) : List (Way F) :=
  open Classical in if h : ∃ E, Complete S p E then h.choose else []

theorem theWays_spec {S : Events → Bool → RayVec F → Prop} {p : Option (List Name)} {f r : List (Beam F)} (h : Lists S p f r) :
    Complete S p (theWays S p) ∧ f.Perm (inFront (theWays S p)) ∧ r.Perm (inBack (theWays S p)) := by
  obtain ⟨E, hE, hf, hr⟩ := lists_iff.1 h
  have hx : ∃ E, Complete S p E := ⟨E, hE⟩
  have hc : Complete S p (theWays S p) := by
    unfold theWays
    rw [dif_pos hx]
    exact hx.choose_spec
  have hp := lists_unique hE.1 hc.1 hE.2 hc.2
  exact ⟨hc, hf.trans ((hp.filter _).map _), hr.trans ((hp.filter _).map _)⟩

/-- The contributions of the entries of the queue, joined. -/
theorem job_combine {items : List (Optic F)} {job : Optic.Job F} {o : Optic F} (ho : items[job.index]? = some o)
    {f1 r1 : List (Beam F)} (h1 : Lists (Entry niter m o job.back job.beam.rv) job.beam.path f1 r1)
    {L : List (Optic.Job F × List (Beam F) × List (Beam F))}
    (hL : ∀ x ∈ L, JobLists niter m items x.1 x.2.1 x.2.2)
    (hjobs : (L.map Prod.fst).Perm
      ((if job.index + 1 = items.length then [] else f1.map (fun b => ⟨b, false, job.index + 1⟩)) ++
        (if job.index = 0 then [] else r1.map (fun b => ⟨b, true, job.index - 1⟩)))) :
    JobLists niter m items job
      ((if job.index + 1 = items.length then f1 else []) ++ L.flatMap (fun x => x.2.1))
      ((if job.index = 0 then r1 else []) ++ L.flatMap (fun x => x.2.2)) := by
  obtain ⟨E1, hE1, hf1, hr1⟩ := lists_iff.1 h1
  obtain ⟨hi, -⟩ := List.getElem?_eq_some_iff.1 ho
  let W : Optic.Job F → List (Way F) := fun j => theWays (FromGap niter m items (jobGap j) j.back j.beam.rv) j.beam.path
  let D : Bool → Beam F → List (Way F) := fun s b =>
    if s then (if job.index = 0 then [⟨[], true, b⟩] else W ⟨b, true, job.index - 1⟩)
    else (if job.index + 1 = items.length then [⟨[], false, b⟩] else W ⟨b, false, job.index + 1⟩)
  have hW : ∀ x ∈ L, Complete (FromGap niter m items (jobGap x.1) x.1.back x.1.beam.rv) x.1.beam.path (W x.1) ∧
      x.2.1.Perm (inFront (W x.1)) ∧ x.2.2.Perm (inBack (W x.1)) := fun x hx => theWays_spec (hL x hx)
  have hjob : ∀ j, j ∈ (if job.index + 1 = items.length then [] else f1.map (fun b => (⟨b, false, job.index + 1⟩ : Optic.Job F))) ++
        (if job.index = 0 then [] else r1.map (fun b => ⟨b, true, job.index - 1⟩)) →
      Complete (FromGap niter m items (jobGap j) j.back j.beam.rv) j.beam.path (W j) := by
    intro j hj
    obtain ⟨x, hx, rfl⟩ := List.mem_map.1 (hjobs.mem_iff.2 hj)
    exact (hW x hx).1
  have hD : ∀ e ∈ E1, Complete (FromGap niter m items (if e.behind then job.index else job.index + 1) e.behind e.beam.rv)
      e.beam.path (D e.behind e.beam) := by
    intro e he
    cases hs : e.behind with
    | false =>
      simp only [D, Bool.false_eq_true, if_false]
      by_cases hn : job.index + 1 = items.length
      · rw [if_pos hn, hn]
        exact gap_front _ _
      · rw [if_neg hn]
        refine hjob ⟨e.beam, false, job.index + 1⟩ ?_
        rw [if_neg hn]
        refine List.mem_append_left _ (List.mem_map.2 ⟨e.beam, hf1.mem_iff.2 ?_, rfl⟩)
        exact List.mem_map.2 ⟨e, List.mem_filter.2 ⟨he, by simp [hs]⟩, rfl⟩
    | true =>
      simp only [D, if_true]
      by_cases hn : job.index = 0
      · rw [if_pos hn, hn]
        exact gap_behind _ _
      · rw [if_neg hn]
        have := hjob ⟨e.beam, true, job.index - 1⟩ (by
          rw [if_neg hn]
          refine List.mem_append_right _ (List.mem_map.2 ⟨e.beam, hr1.mem_iff.2 ?_, rfl⟩)
          exact List.mem_map.2 ⟨e, List.mem_filter.2 ⟨he, by simp [hs]⟩, rfl⟩)
        simp only [jobGap, if_true] at this
        rwa [Nat.sub_add_cancel (Nat.pos_of_ne_zero hn)] at this
  have key := ways_bind (gap_split ho job.back job.beam.rv) (fun a b => route_prefix a b rfl) hE1 hD
  refine lists_iff.2 ⟨_, key, ?_, ?_⟩
  · rw [inFront_flatMap]
    simp only [inFront_after]
    have e1 : (L.flatMap (fun x => x.2.1)).Perm ((L.map Prod.fst).flatMap (fun j => inFront (W j))) := by
      rw [List.flatMap_map]
      exact List.Perm.flatMap_left _ (fun x hx => (hW x hx).2.1)
    have e2 := hjobs.flatMap_right (fun j => inFront (W j))
    refine (List.Perm.append_left _ (e1.trans e2)).trans ?_
    refine List.Perm.trans ?_ (sides_perm E1 (fun s b => inFront (D s b)))
    refine List.Perm.trans ?_ ((hf1.flatMap_right _).append (hr1.flatMap_right _))
    rw [List.flatMap_append, ← List.append_assoc]
    apply List.Perm.of_eq
    congr 1
    · by_cases hn : job.index + 1 = items.length
      · simp [hn, D, inFront]
      · simp [hn, D, List.flatMap_map]
    · by_cases hn : job.index = 0
      · simp [hn, D, inFront]
      · simp [hn, D, List.flatMap_map]
  · rw [inBack_flatMap]
    simp only [inBack_after]
    have e1 : (L.flatMap (fun x => x.2.2)).Perm ((L.map Prod.fst).flatMap (fun j => inBack (W j))) := by
      rw [List.flatMap_map]
      exact List.Perm.flatMap_left _ (fun x hx => (hW x hx).2.2)
    have e2 := hjobs.flatMap_right (fun j => inBack (W j))
    refine (List.Perm.append_left _ (e1.trans e2)).trans ?_
    refine List.Perm.trans ?_ (sides_perm E1 (fun s b => inBack (D s b)))
    refine List.Perm.trans ?_ ((hf1.flatMap_right _).append (hr1.flatMap_right _))
    rw [List.flatMap_append]
    refine (List.perm_append_comm_assoc _ _ _).trans ?_
    apply List.Perm.of_eq
    congr 1
    · by_cases hn : job.index + 1 = items.length
      · simp [hn, D, inBack]
      · simp [hn, D, List.flatMap_map]
    · by_cases hn : job.index = 0
      · simp [hn, D, inBack]
      · simp [hn, D, List.flatMap_map]

theorem entry_iface (d : Iface F) (back : Bool) (rv : RayVec F) (w : Events) (s : Bool) (rv' : RayVec F) :
    Entry niter m (.iface d) back rv w s rv' ↔
      ∃ refl, w = [(d.name, refl)] ∧ s = (back != (refl != d.isMirror)) ∧ Leg niter m d back refl rv rv' := by
  unfold Entry
  cases back with
  | false =>
    simp only [Bool.false_eq_true, if_false, flat]
    constructor
    · intro h
      cases h with
      | @pass _ _ _ refl _ _ _ _ _ h hk hr => cases hr; exact ⟨refl, rfl, by simp [hk], h⟩
      | @turn _ _ _ refl _ _ _ _ _ h hk hr => cases hr; exact ⟨refl, rfl, by simpa using hk, h⟩
    · rintro ⟨refl, rfl, hs, h⟩
      by_cases hk : refl = d.isMirror
      · rw [show s = false by rw [hs, hk]; simp]
        exact .pass h hk (.front _ _)
      · rw [show s = true by rw [hs]; simpa using hk]
        exact .turn h hk (.behind _ _)
  | true =>
    simp only [if_true, flat, List.reverse_singleton]
    constructor
    · intro h
      cases h with
      | @passBack _ _ _ refl _ _ _ _ _ h hk hr => cases hr; exact ⟨refl, rfl, by simp [hk], h⟩
      | @turnBack _ _ _ refl _ _ _ _ _ h hk hr => cases hr; exact ⟨refl, rfl, by simpa using hk, h⟩
    · rintro ⟨refl, rfl, hs, h⟩
      by_cases hk : refl = d.isMirror
      · rw [show s = true by rw [hs, hk]; simp]
        exact .passBack h hk (.behind _ _)
      · rw [show s = false by rw [hs]; simpa using hk]
        exact .turnBack h hk (.front _ _)

/-- The bright part of one beam of an interface. -/
theorem sift_one (m : F) (d : Iface F) (x : Option (RayVec F)) (q : Option (List Name)) :
    (Optic.nonEmpty (Optic.sift m [x.map (fun rv => Beam.mk (d.applyObscuration rv) q)])).Nodup ∧
    ∀ bm : Beam F, bm ∈ Optic.nonEmpty (Optic.sift m [x.map (fun rv => Beam.mk (d.applyObscuration rv) q)]) ↔
      bm.path = q ∧ ∃ out, x = some out ∧
        bm.rv = ⟨(d.applyObscuration out).rays.filter (bright m), (d.applyObscuration out).coordSys⟩ ∧ bm.rv.rays ≠ [] := by
  cases x with
  | none => simp [Optic.sift, Optic.nonEmpty]
  | some out =>
    have hk : Optic.keep m = bright m := rfl
    by_cases he : (d.applyObscuration out).rays = []
    · refine ⟨by simp [Optic.sift, Optic.nonEmpty, he], fun bm => ⟨by simp [Optic.sift, Optic.nonEmpty, he], ?_⟩⟩
      rintro ⟨-, o', h1, h2, h3⟩
      cases h1
      rw [h2, he] at h3
      simp at h3
    · by_cases hf : (d.applyObscuration out).rays.filter (bright m) = []
      · refine ⟨by simp [Optic.sift, Optic.nonEmpty, he, hk, hf], fun bm => ⟨by simp [Optic.sift, Optic.nonEmpty, he, hk, hf], ?_⟩⟩
        rintro ⟨-, o', h1, h2, h3⟩
        cases h1
        rw [h2, hf] at h3
        simp at h3
      · have e : Optic.nonEmpty (Optic.sift m [(some out).map (fun rv => Beam.mk (d.applyObscuration rv) q)]) =
            [⟨⟨(d.applyObscuration out).rays.filter (bright m), (d.applyObscuration out).coordSys⟩, q⟩] := by
          simp only [Optic.sift, Optic.nonEmpty, Option.map_some, List.filterMap_cons, List.filterMap_nil, id, hk]
          rw [if_neg (by simpa using he)]
          simp only [List.filter_cons, List.filter_nil]
          rw [if_pos (by simpa using hf)]
        rw [e]
        refine ⟨List.nodup_singleton _, fun bm => ?_⟩
        rw [List.mem_singleton]
        constructor
        · rintro rfl
          exact ⟨rfl, out, rfl, rfl, hf⟩
        · rintro ⟨h1, o', h2, h3, -⟩
          cases h2
          obtain ⟨a, b⟩ := bm
          simp only at h1 h3
          rw [h1, h3]

theorem iface_lists (d : Iface F) (back : Bool) (b : Beam F) (f r : List (Option (Beam F)))
    (h : d.traceSplit niter back b = .ok (f, r)) :
    Lists (Entry niter m (.iface d) back b.rv) b.path (Optic.nonEmpty (Optic.sift m f)) (Optic.nonEmpty (Optic.sift m r)) := by
  unfold Iface.traceSplit at h
  cases hs : d.rSplit niter back b.rv with
  | error e => rw [hs] at h; cases h
  | ok s =>
    rw [hs] at h
    simp only [bind, Except.bind, pure, Except.pure] at h
    let B : Bool → List (Beam F) := fun refl => Optic.nonEmpty (Optic.sift m
      [(if refl then s.2 else s.1).map (fun rv => Beam.mk (d.applyObscuration rv) (d.extendPath b.path))])
    let W : Bool → List (Way F) := fun refl =>
      (B refl).map (fun bm => ⟨[(d.name, refl)], (back != (refl != d.isMirror)), bm⟩)
    have hB : ∀ refl, (B refl).Nodup ∧ ∀ bm : Beam F, bm ∈ B refl ↔ bm.path = d.extendPath b.path ∧
        Leg niter m d back refl b.rv bm.rv := by
      intro refl
      obtain ⟨h1, h2⟩ := sift_one m d (if refl then s.2 else s.1) (d.extendPath b.path)
      refine ⟨h1, fun bm => (h2 bm).trans ?_⟩
      constructor
      · rintro ⟨h3, out, h4, h5, h6⟩
        exact ⟨h3, s, out, hs, h4, h5, h6⟩
      · rintro ⟨h3, s', out, hs', h4, h5, h6⟩
        rw [hs] at hs'
        cases hs'
        exact ⟨h3, out, h4, h5, h6⟩
    have hpath : ∀ refl : Bool, d.extendPath b.path = pathAfter b.path ([(d.name, refl)].map Prod.fst) := by
      intro refl
      cases hp : b.path <;> rfl
    have hfront : ∀ refl, inFront (W refl) = if (back != (refl != d.isMirror)) then [] else B refl := by
      intro refl
      simp only [inFront, W]
      cases (back != (refl != d.isMirror)) <;> simp [List.filter_map, Function.comp_def]
    have hback : ∀ refl, inBack (W refl) = if (back != (refl != d.isMirror)) then B refl else [] := by
      intro refl
      simp only [inBack, W]
      cases (back != (refl != d.isMirror)) <;> simp [List.filter_map, Function.comp_def]
    refine lists_iff.2 ⟨W false ++ W true, ⟨?_, ?_⟩, ?_, ?_⟩
    · rw [List.nodup_append]
      refine ⟨(hB false).1.map ?_, (hB true).1.map ?_, ?_⟩
      · intro a b hab; exact congrArg Way.beam hab
      · intro a b hab; exact congrArg Way.beam hab
      · intro a ha a' ha' e
        obtain ⟨x, -, rfl⟩ := List.mem_map.1 ha
        obtain ⟨y, -, rfl⟩ := List.mem_map.1 ha'
        have := congrArg Way.events e
        simp at this
    · intro e
      rw [entry_iface, List.mem_append]
      have hmem : ∀ refl, e ∈ W refl ↔ e.events = [(d.name, refl)] ∧ e.behind = (back != (refl != d.isMirror)) ∧
          e.beam.path = d.extendPath b.path ∧ Leg niter m d back refl b.rv e.beam.rv := by
        intro refl
        rw [List.mem_map]
        constructor
        · rintro ⟨bm, hb, rfl⟩
          exact ⟨rfl, rfl, ((hB refl).2 bm).1 hb⟩
        · rintro ⟨h1, h2, h3⟩
          exact ⟨e.beam, ((hB refl).2 _).2 h3, Way.ext' h1.symm h2.symm rfl rfl⟩
      rw [hmem, hmem]
      constructor
      · rintro (⟨h1, h2, h3, h4⟩ | ⟨h1, h2, h3, h4⟩)
        · exact ⟨⟨false, h1, h2, h4⟩, by rw [h3, h1]; exact hpath false⟩
        · exact ⟨⟨true, h1, h2, h4⟩, by rw [h3, h1]; exact hpath true⟩
      · rintro ⟨⟨refl, h1, h2, h3⟩, h4⟩
        rw [h1, ← hpath refl] at h4
        cases refl
        · exact .inl ⟨h1, h2, h4, h3⟩
        · exact .inr ⟨h1, h2, h4, h3⟩
    · rw [inFront_append, hfront, hfront]
      have e1 : B false = Optic.nonEmpty (Optic.sift m
        [s.1.map (fun rv => Beam.mk (d.applyObscuration rv) (d.extendPath b.path))]) := rfl
      have e2 : B true = Optic.nonEmpty (Optic.sift m
        [s.2.map (fun rv => Beam.mk (d.applyObscuration rv) (d.extendPath b.path))]) := rfl
      cases hb : back <;> cases hm : d.isMirror <;> rw [hb, hm] at h <;> cases h <;> simp [e1, e2]
    · rw [inBack_append, hback, hback]
      have e1 : B false = Optic.nonEmpty (Optic.sift m
        [s.1.map (fun rv => Beam.mk (d.applyObscuration rv) (d.extendPath b.path))]) := rfl
      have e2 : B true = Optic.nonEmpty (Optic.sift m
        [s.2.map (fun rv => Beam.mk (d.applyObscuration rv) (d.extendPath b.path))]) := rfl
      cases hb : back <;> cases hm : d.isMirror <;> rw [hb, hm] at h <;> cases h <;> simp [e1, e2]

/-- A beam that has been sifted. -/
def SettledBeam (m : F) (b : Beam F) : Prop := b.rv.rays ≠ [] ∧ ∀ ray ∈ b.rv.rays, bright m ray = true

theorem settled_sift (l : List (Option (Beam F))) : ∀ b ∈ Optic.nonEmpty (Optic.sift m l), SettledBeam m b := by
  intro b hb
  unfold Optic.nonEmpty at hb
  obtain ⟨h1, h2⟩ := List.mem_filter.1 hb
  refine ⟨by simpa using h2, ?_⟩
  unfold Optic.sift at h1
  obtain ⟨a, -, ha⟩ := List.mem_filterMap.1 h1
  split at ha
  · cases ha
  · cases ha
    intro ray hr
    exact (List.mem_filter.1 hr).2

theorem sift_settled : ∀ {l : List (Beam F)}, (∀ b ∈ l, SettledBeam m b) → Optic.nonEmpty (Optic.sift m (l.map some)) = l
  | [], _ => rfl
  | b :: l, h => by
    obtain ⟨h1, h2⟩ := h b (by simp)
    have ih := sift_settled (fun b' hb' => h b' (List.mem_cons_of_mem _ hb'))
    have hk : b.rv.rays.filter (Optic.keep m) = b.rv.rays := List.filter_eq_self.2 h2
    unfold Optic.sift Optic.nonEmpty at ih ⊢
    simp only [List.map_cons, List.filterMap_cons, id]
    rw [if_neg (by simpa using h1), hk]
    simp only [List.filter_cons]
    rw [if_pos (by simpa using h1)]
    exact congrArg (b :: ·) ih

theorem loop_settled : ∀ (fuel : ℕ) {items : List (Optic F)} {queue : List (Optic.Job F)} {outF outR f r : List (Beam F)},
    Optic.splitLoop niter m fuel items queue outF outR = some (.ok (f, r)) → (∀ b ∈ outF, SettledBeam m b) →
    (∀ b ∈ outR, SettledBeam m b) → (∀ b ∈ f, SettledBeam m b) ∧ (∀ b ∈ r, SettledBeam m b) := by
  intro fuel
  induction fuel with
  | zero => intro items queue outF outR f r h; simp [Optic.splitLoop] at h
  | succ fuel ih =>
    intro items queue outF outR f r h hF hR
    cases queue with
    | nil => rw [Optic.splitLoop] at h; cases h; exact ⟨hF, hR⟩
    | cons job queue =>
      rw [Optic.splitLoop] at h
      split at h
      · cases h
      · split at h
        · cases h
        · cases h
        · cases h
        · rename_i f1 r1 ht
          refine ih h ?_ ?_
          · intro b hb
            rcases List.mem_append.1 hb with hb | hb
            · exact hF b hb
            · unfold Optic.outForward at hb
              split at hb
              · exact settled_sift _ b hb
              · cases hb
          · intro b hb
            rcases List.mem_append.1 hb with hb | hb
            · exact hR b hb
            · unfold Optic.outReverse at hb
              split at hb
              · exact settled_sift _ b hb
              · cases hb

theorem split_lists (niter : ℕ) (m : F) : ∀ fuel : ℕ,
    (∀ back o b f r, Optic.traceSplit niter m fuel back o b = some (.ok (.lists f r)) →
      Lists (Entry niter m o back b.rv) b.path (Optic.nonEmpty (Optic.sift m f)) (Optic.nonEmpty (Optic.sift m r)) ∧
      (∀ c items, o = .compound c items → Optic.nonEmpty (Optic.sift m f) = f.filterMap id ∧
        Optic.nonEmpty (Optic.sift m r) = r.filterMap id)) ∧
    (∀ items queue outF outR f r, Optic.splitLoop niter m fuel items queue outF outR = some (.ok (f, r)) →
      ∃ L : List (Optic.Job F × List (Beam F) × List (Beam F)), L.map Prod.fst = queue ∧
        f = outF ++ L.flatMap (fun x => x.2.1) ∧ r = outR ++ L.flatMap (fun x => x.2.2) ∧
        ∀ x ∈ L, JobLists niter m items x.1 x.2.1 x.2.2) := by
  intro fuel
  induction fuel with
  | zero => exact ⟨by intro back o b f r h; simp [Optic.traceSplit] at h,
      by intro items queue outF outR f r h; simp [Optic.splitLoop] at h⟩
  | succ fuel ih =>
    obtain ⟨ih1, ih2⟩ := ih
    constructor
    · intro back o b f r h
      cases o with
      | iface d =>
        rw [Optic.traceSplit] at h
        split at h
        · cases h
        · cases hd : d.traceSplit niter back b with
          | error e => rw [hd] at h; cases h
          | ok s =>
            rw [hd] at h
            cases h
            exact ⟨iface_lists d back b s.1 s.2 hd, fun c items e => by cases e⟩
      | compound c items =>
        rw [Optic.traceSplit] at h
        split at h
        · cases h
        · split at h
          · cases h
          · rename_i hne
            cases hl : Optic.splitLoop niter m fuel items [⟨b, back, if back then items.length - 1 else 0⟩] [] [] with
            | none => rw [hl] at h; cases h
            | some res =>
              rw [hl] at h
              cases res with
              | error e => cases h
              | ok res =>
                cases h
                obtain ⟨f, r⟩ := res
                obtain ⟨L, h1, h2, h3, h4⟩ := ih2 _ _ _ _ _ _ hl
                obtain ⟨s1, s2⟩ := loop_settled fuel hl (by simp) (by simp)
                have hid : ∀ l : List (Beam F), (l.map some).filterMap id = l := by intro l; simp
                simp only
                rw [sift_settled s1, sift_settled s2]
                refine ⟨?_, fun _ _ _ => ⟨(hid f).symm, (hid r).symm⟩⟩
                obtain ⟨x, rfl, hx⟩ : ∃ x, L = [x] ∧ x.1 = ⟨b, back, if back then items.length - 1 else 0⟩ := by
                  cases L with
                  | nil => cases h1
                  | cons x L =>
                    cases L with
                    | nil => exact ⟨x, rfl, by simpa using h1⟩
                    | cons y L => simp at h1
                have := h4 x (by simp)
                rw [hx] at this
                rw [h2, h3]
                simp only [List.flatMap_cons, List.flatMap_nil, List.append_nil, List.nil_append]
                have hpos : 0 < items.length := by
                  rcases items with _ | ⟨a, items⟩
                  · simp at hne
                  · simp
                have e : Entry niter m (.compound c items) back b.rv =
                    FromGap niter m items (jobGap ⟨b, back, if back then items.length - 1 else 0⟩) back b.rv := by
                  unfold Entry FromGap jobGap
                  cases back with
                  | false => simp [flat, flats]
                  | true => simp [flat, flats, Nat.sub_add_cancel hpos]
                rw [e]
                exact this
    · intro items queue outF outR f r h
      cases queue with
      | nil => rw [Optic.splitLoop] at h; cases h; exact ⟨[], rfl, by simp, by simp, by simp⟩
      | cons job queue =>
        rw [Optic.splitLoop] at h
        split at h
        · cases h
        · rename_i o ho
          split at h
          · cases h
          · cases h
          · cases h
          · rename_i f1 r1 ht
            obtain ⟨L, h1, h2, h3, h4⟩ := ih2 _ _ _ _ _ _ h
            obtain ⟨L1, L2, rfl, e1, e2⟩ := List.map_eq_append_iff.1 h1
            have key := job_combine ho (ih1 _ _ _ _ _ ht).1 (L := L1) (fun x hx => h4 x (by simp [hx]))
              (by rw [e1]; exact List.reverse_perm _)
            refine ⟨(job, Optic.outForward items.length job.index (Optic.sift m f1) ++ L1.flatMap (fun x => x.2.1),
              Optic.outReverse job.index (Optic.sift m r1) ++ L1.flatMap (fun x => x.2.2)) :: L2,
              by rw [List.map_cons, e2], ?_, ?_, ?_⟩
            rotate_left 2
            · intro x hx
              rcases List.mem_cons.1 hx with rfl | hx
              · exact key
              · exact h4 x (by simp [hx])
            · rw [h2]
              simp only [Optic.outForward, List.flatMap_append, List.flatMap_cons, List.append_assoc]
            · rw [h3]
              simp only [Optic.outReverse, List.flatMap_append, List.flatMap_cons, List.append_assoc]

end loop

/-! ## The property -/

section c110
variable {F : Type} [Arith F]

/-- C110: whenever `traceSplit` of a compound returns, the beams in its two lists are, up to order and each once, the ends of all
routes through the interfaces of the optic (in the order of the tree, whatever the nesting), and their `path` attributes are
extended by the names of the interfaces met. -/
theorem C110_routes (niter : ℕ) (m : F) (fuel : ℕ) (back : Bool) (c : Comp F) (items : List (Optic F)) (b : Beam F)
    (f r : List (Option (Beam F)))
    (h : Optic.traceSplit niter m fuel back (.compound c items) b = some (.ok (.lists f r))) :
    ∃ f' r' : List (Beam F), f = f'.map some ∧ r = r'.map some ∧
      Lists (Route niter m (if back then (flats items).reverse else []) (if back then [] else flats items) back b.rv)
        b.path f' r' := by
  have h0 := h
  cases fuel with
  | zero => simp [Optic.traceSplit] at h
  | succ fuel =>
    rw [Optic.traceSplit] at h
    split at h
    · cases h
    · split at h
      · cases h
      · cases hl : Optic.splitLoop niter m fuel items [⟨b, back, if back then items.length - 1 else 0⟩] [] [] with
        | none => rw [hl] at h; cases h
        | some res =>
          rw [hl] at h
          cases res with
          | error e => cases h
          | ok res =>
            cases h
            obtain ⟨h1, h2⟩ := (split_lists niter m (fuel + 1)).1 _ _ _ _ _ h0
            obtain ⟨e1, e2⟩ := h2 _ _ rfl
            refine ⟨res.1, res.2, rfl, rfl, ?_⟩
            have hid : ∀ l : List (Beam F), (l.map some).filterMap id = l := by intro l; simp
            rw [e1, e2, hid, hid] at h1
            exact h1

/-- C110: how the interfaces are grouped in compounds does not matter: two optics with the same interfaces in the same order give
the same beams, up to order. -/
theorem C110_nesting (niter : ℕ) (m : F) (fuel fuel' : ℕ) (back : Bool) (c c' : Comp F) (items items' : List (Optic F))
    (hflat : flats items = flats items') (b : Beam F) (f r f' r' : List (Option (Beam F)))
    (h : Optic.traceSplit niter m fuel back (.compound c items) b = some (.ok (.lists f r)))
    (h' : Optic.traceSplit niter m fuel' back (.compound c' items') b = some (.ok (.lists f' r'))) :
    f.Perm f' ∧ r.Perm r' := by
  obtain ⟨x, y, rfl, rfl, E, h1, h2, h3, h4⟩ := C110_routes niter m fuel back c items b f r h
  obtain ⟨x', y', rfl, rfl, E', h1', h2', h3', h4'⟩ := C110_routes niter m fuel' back c' items' b f' r' h'
  rw [← hflat] at h2'
  have hp := lists_unique h1 h1' h2 h2'
  exact ⟨((h3.trans ((hp.filter _).map _)).trans h3'.symm).map _, ((h4.trans ((hp.filter _).map _)).trans h4'.symm).map _⟩

theorem route_head {niter : ℕ} {m : F} {l r : List (Iface F)} {back : Bool} {rv rv' : RayVec F} {w : Events} {s : Bool}
    (h : Route niter m l r back rv w s rv') :
    (w.map Prod.fst).head? = ((if back then l else r).map (·.name)).head? ∧ (w = [] → s = back) := by
  cases h <;> simp

/-- Where names are distinct, the names of the interfaces met and the side where the light leaves tell the route. -/
theorem route_names {niter : ℕ} {m : F} {l r : List (Iface F)} {back : Bool} {rv rv1 : RayVec F} {w : Events} {s : Bool}
    (h : Route niter m l r back rv w s rv1) : (l.map (·.name) ++ r.map (·.name)).Nodup → ∀ {w' : Events} {rv2 : RayVec F},
    Route niter m l r back rv w' s rv2 → w.map Prod.fst = w'.map Prod.fst → w = w' := by
  induction h with
  | front l rv => intro _ w' rv2 h e; exact (List.map_eq_nil_iff.1 e.symm).symm
  | behind r rv => intro _ w' rv2 h e; exact (List.map_eq_nil_iff.1 e.symm).symm
  | @pass l r d refl rv rv1 rv2 w s h hk hr ih =>
    intro hn w' rv3 h' e
    have hn' : ((d :: l).map (·.name) ++ r.map (·.name)).Nodup := by
      refine (List.Perm.nodup_iff ?_).1 hn
      rw [List.map_cons, List.map_cons]
      exact List.perm_middle
    cases h' with
    | @pass _ _ _ refl' _ _ _ _ _ g gk gr =>
      have hrefl : refl' = refl := gk.trans hk.symm
      subst hrefl
      rw [leg_det g h] at gr
      rw [ih hn' gr (List.cons_inj_right _ |>.1 e)]
    | turn g gk gr =>
      exfalso
      have e' := List.cons_inj_right _ |>.1 e
      obtain ⟨a1, a2⟩ := route_head hr
      obtain ⟨b1, b2⟩ := route_head gr
      rw [← e', a1] at b1
      simp only [Bool.false_eq_true, if_false, if_true] at b1
      cases r with
      | nil =>
        cases hr with
        | front => simpa using b2 (List.map_eq_nil_iff.1 e'.symm)
      | cons a r =>
        cases l with
        | nil => simp at b1
        | cons a' l =>
          simp only [List.map_cons, List.head?_cons, Option.some_inj] at b1
          rw [List.nodup_append] at hn
          exact hn.2.2 a'.name (by simp) a.name (by simp) b1.symm
  | @turn l r d refl rv rv1 rv2 w s h hk hr ih =>
    intro hn w' rv3 h' e
    cases h' with
    | @turn _ _ _ refl' _ _ _ _ _ g gk gr =>
      have hrefl : refl' = refl := by
        revert hk gk
        cases refl <;> cases refl' <;> cases d.isMirror <;> simp
      subst hrefl
      rw [leg_det g h] at gr
      rw [ih hn gr (List.cons_inj_right _ |>.1 e)]
    | pass g gk gr =>
      exfalso
      have e' := List.cons_inj_right _ |>.1 e
      obtain ⟨a1, a2⟩ := route_head hr
      obtain ⟨b1, b2⟩ := route_head gr
      rw [← e', a1] at b1
      simp only [Bool.false_eq_true, if_false, if_true] at b1
      cases l with
      | nil =>
        cases hr with
        | behind => simpa using b2 (List.map_eq_nil_iff.1 e'.symm)
      | cons a l =>
        cases r with
        | nil => simp at b1
        | cons a' r =>
          simp only [List.map_cons, List.head?_cons, Option.some_inj] at b1
          rw [List.nodup_append] at hn
          exact hn.2.2 a.name (by simp) a'.name (by simp) b1
  | @passBack l r d refl rv rv1 rv2 w s h hk hr ih =>
    intro hn w' rv3 h' e
    have hn' : (l.map (·.name) ++ (d :: r).map (·.name)).Nodup := by
      refine (List.Perm.nodup_iff ?_).1 hn
      rw [List.map_cons, List.map_cons]
      exact List.perm_middle.symm
    cases h' with
    | @passBack _ _ _ refl' _ _ _ _ _ g gk gr =>
      have hrefl : refl' = refl := gk.trans hk.symm
      subst hrefl
      rw [leg_det g h] at gr
      rw [ih hn' gr (List.cons_inj_right _ |>.1 e)]
    | turnBack g gk gr =>
      exfalso
      have e' := List.cons_inj_right _ |>.1 e
      obtain ⟨a1, a2⟩ := route_head hr
      obtain ⟨b1, b2⟩ := route_head gr
      rw [← e', a1] at b1
      simp only [Bool.false_eq_true, if_false, if_true] at b1
      cases l with
      | nil =>
        cases hr with
        | behind => simpa using b2 (List.map_eq_nil_iff.1 e'.symm)
      | cons a l =>
        cases r with
        | nil => simp at b1
        | cons a' r =>
          simp only [List.map_cons, List.head?_cons, Option.some_inj] at b1
          rw [List.nodup_append] at hn
          exact hn.2.2 a.name (by simp) a'.name (by simp) b1
  | @turnBack l r d refl rv rv1 rv2 w s h hk hr ih =>
    intro hn w' rv3 h' e
    cases h' with
    | @turnBack _ _ _ refl' _ _ _ _ _ g gk gr =>
      have hrefl : refl' = refl := by
        revert hk gk
        cases refl <;> cases refl' <;> cases d.isMirror <;> simp
      subst hrefl
      rw [leg_det g h] at gr
      rw [ih hn gr (List.cons_inj_right _ |>.1 e)]
    | passBack g gk gr =>
      exfalso
      have e' := List.cons_inj_right _ |>.1 e
      obtain ⟨a1, a2⟩ := route_head hr
      obtain ⟨b1, b2⟩ := route_head gr
      rw [← e', a1] at b1
      simp only [Bool.false_eq_true, if_false, if_true] at b1
      cases r with
      | nil =>
        cases hr with
        | front => simpa using b2 (List.map_eq_nil_iff.1 e'.symm)
      | cons a r =>
        cases l with
        | nil => simp at b1
        | cons a' l =>
          simp only [List.map_cons, List.head?_cons, Option.some_inj] at b1
          rw [List.nodup_append] at hn
          exact hn.2.2 a'.name (by simp) a.name (by simp) b1.symm

theorem pathAfter_inj {p : Option (List Name)} {ns ms : List Name} (h : pathAfter p ns = pathAfter p ms) : ns = ms := by
  cases ns with
  | nil =>
    cases ms with
    | nil => rfl
    | cons a ms =>
      rw [pathAfter_cons] at h
      cases p with
      | none => cases h
      | some q =>
        have := congrArg (fun x : Option (List Name) => (x.getD []).length) h
        simp [pathAfter] at this
  | cons a ns =>
    rw [pathAfter_cons] at h
    cases ms with
    | nil =>
      cases p with
      | none => cases h
      | some q =>
        have := congrArg (fun x : Option (List Name) => (x.getD []).length) h
        simp [pathAfter] at this
    | cons b ms =>
      rw [pathAfter_cons] at h
      exact List.append_cancel_left (Option.some_inj.1 h)

/-- C110: in an optic whose interfaces have distinct names, no two beams of the same list carry the same `path`. -/
theorem C110_distinct_paths (niter : ℕ) (m : F) (fuel : ℕ) (back : Bool) (c : Comp F) (items : List (Optic F)) (b : Beam F)
    (f r : List (Option (Beam F))) (hn : ((flats items).map (·.name)).Nodup)
    (h : Optic.traceSplit niter m fuel back (.compound c items) b = some (.ok (.lists f r))) :
    ∃ f' r' : List (Beam F), f = f'.map some ∧ r = r'.map some ∧ (f'.map (·.path)).Nodup ∧ (r'.map (·.path)).Nodup := by
  obtain ⟨f', r', rfl, rfl, E, h1, h2, h3, h4⟩ := C110_routes niter m fuel back c items b f r h
  have hn' : ((if back then (flats items).reverse else []).map (·.name) ++
      (if back then [] else flats items).map (·.name)).Nodup := by
    cases back
    · simpa using hn
    · simpa [List.map_reverse] using hn
  have key : ∀ e ∈ E, ∀ e' ∈ E, e.behind = e'.behind → e.beam.path = e'.beam.path → e = e' := by
    intro e he e' he' hs hp
    obtain ⟨a1, a2⟩ := (h2 e).1 he
    obtain ⟨b1, b2⟩ := (h2 e').1 he'
    rw [a2, b2] at hp
    rw [← hs] at b1
    have hw := route_names a1 hn' b1 (pathAfter_inj hp)
    rw [← hw] at b1
    obtain ⟨-, -, hr⟩ := route_prefix a1 b1 (List.append_nil _).symm
    exact Way.ext' hw hs hr.symm (by rw [a2, b2, hw])
  refine ⟨f', r', rfl, rfl, ?_, ?_⟩
  · refine ((h3.map _).nodup_iff).2 ?_
    unfold inFront
    rw [List.map_map, List.nodup_map_iff_inj_on (h1.filter _)]
    intro e he e' he' hp
    obtain ⟨a, a'⟩ := List.mem_filter.1 he
    obtain ⟨b, b'⟩ := List.mem_filter.1 he'
    exact key e a e' b (by simp_all) hp
  · refine ((h4.map _).nodup_iff).2 ?_
    unfold inBack
    rw [List.map_map, List.nodup_map_iff_inj_on (h1.filter _)]
    intro e he e' he' hp
    obtain ⟨a, a'⟩ := List.mem_filter.1 he
    obtain ⟨b, b'⟩ := List.mem_filter.1 he'
    exact key e a e' b (by simp_all) hp

end c110

end Batoid.Props
