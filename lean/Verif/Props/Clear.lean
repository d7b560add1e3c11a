import Verif.Props.Trace
import Verif.Props.Names
import Verif.Props.Obscurations

/-!
# Clearing obscurations (C73)

`clearObscuration(unless)` changes the obscurations of the interfaces not named in `unless` and nothing else, and an obscuration
has no effect on a traced ray other than its `vignetted` flag.
-/

namespace Batoid.Props
open Batoid

section
variable {F : Type} [Arith F]

/-- What may differ between an optic and its cleared version at one place of the tree. -/
def ClearedAt (keep : List Name) : Optic F → Optic F → Prop
  | .iface d, .iface e => e = { d with obscuration := e.obscuration } ∧
      (d.name ∈ keep → e.obscuration = d.obscuration) ∧ (d.name ∉ keep → e.obscuration = none)
  | .compound d items, .compound e items' => e = d ∧ items'.length = items.length
  | _, _ => False

omit [Arith F] in
theorem clearItems_length (keep : List Name) : ∀ items : List (Optic F), (Optic.clearItems keep items).length = items.length
  | [] => rfl
  | o :: os => by simp [Optic.clearItems, clearItems_length keep os]

omit [Arith F] in
theorem clear_name (keep : List Name) (o : Optic F) : (o.clearObscuration keep).name = o.name := by
  cases o with
  | iface d => simp only [Optic.clearObscuration]; split <;> rfl
  | compound d items => rfl

omit [Arith F] in
theorem clear_skip (keep : List Name) (o : Optic F) : (o.clearObscuration keep).skip = o.skip := by
  cases o with
  | iface d => simp only [Optic.clearObscuration]; split <;> rfl
  | compound d items => rfl

/-- The same place in two trees. -/
def SamePlace (keep : List Name) (a b : List Name × Optic F) : Prop := b.1 = a.1 ∧ ClearedAt keep a.2 b.2

omit [Arith F] in
theorem forall₂_append {α β : Type} {R : α → β → Prop} {a c : List α} {b d : List β} (h : List.Forall₂ R a b)
    (h' : List.Forall₂ R c d) : List.Forall₂ R (a ++ c) (b ++ d) := by
  induction h with
  | nil => exact h'
  | cons h0 _ ih => exact .cons h0 ih

omit [Arith F] in
mutual
theorem clear_nodes (keep : List Name) : ∀ o : Optic F,
    List.Forall₂ (SamePlace keep) (nodes o) (nodes (o.clearObscuration keep))
  | .iface d => by
    simp only [Optic.clearObscuration]
    split
    · rename_i h
      exact .cons ⟨rfl, rfl, fun _ => rfl, fun h' => absurd h h'⟩ .nil
    · rename_i h
      exact .cons ⟨rfl, rfl, fun h' => absurd h' h, fun _ => rfl⟩ .nil
  | .compound d items => by
    simp only [Optic.clearObscuration, nodes]
    refine .cons ⟨rfl, rfl, clearItems_length keep items⟩ ?_
    rw [List.forall₂_map_left_iff, List.forall₂_map_right_iff]
    exact (clear_nodesItems keep items).imp fun a b h => ⟨by rw [h.1], h.2⟩
theorem clear_nodesItems (keep : List Name) : ∀ items : List (Optic F),
    List.Forall₂ (SamePlace keep) (nodesItems items) (nodesItems (Optic.clearItems keep items))
  | [] => .nil
  | o :: os => by
    simp only [Optic.clearItems, nodesItems]
    exact forall₂_append (clear_nodes keep o) (clear_nodesItems keep os)
end

omit [Arith F] in
/-- C73: after `clearObscuration(unless)` the tree has the same optics at the same paths in the same order; an interface named in
`unless` keeps its obscuration, every other interface has none, and all other attributes are as before; for every tree. -/
theorem C73_cleared (keep : List Name) (o : Optic F) :
    (nodes (o.clearObscuration keep)).map Prod.fst = (nodes o).map Prod.fst ∧
    ∀ (i : ℕ) (p : List Name) (x : Optic F), (nodes o)[i]? = some (p, x) →
      ∃ x', (nodes (o.clearObscuration keep))[i]? = some (p, x') ∧ ClearedAt keep x x' := by
  have key := clear_nodes keep o
  generalize nodes (o.clearObscuration keep) = l' at key ⊢
  generalize nodes o = l at key ⊢
  constructor
  · induction key with
    | nil => rfl
    | cons h _ ih => simp only [List.map_cons, h.1, ih]
  · intro i p x hi
    induction key generalizing i with
    | nil => simp at hi
    | @cons a b l l' h _ ih =>
      cases i with
      | zero =>
        simp only [List.getElem?_cons_zero, Option.some.injEq] at hi
        subst hi
        obtain ⟨b1, b2⟩ := b
        obtain ⟨rfl, h2⟩ := h
        exact ⟨b2, rfl, h2⟩
      | succ i => exact ih i hi

omit [Arith F] in
/-- Clearing twice with the same names is clearing once. -/
theorem C73_idempotent (keep : List Name) (o : Optic F) :
    (o.clearObscuration keep).clearObscuration keep = o.clearObscuration keep := by
  have key : ∀ n, (∀ o : Optic F, sizeOf o < n → (o.clearObscuration keep).clearObscuration keep = o.clearObscuration keep) ∧
      (∀ l : List (Optic F), sizeOf l < n → Optic.clearItems keep (Optic.clearItems keep l) = Optic.clearItems keep l) := by
    intro n
    induction n with
    | zero => exact ⟨fun _ h => absurd h (Nat.not_lt_zero _), fun _ h => absurd h (Nat.not_lt_zero _)⟩
    | succ n ih =>
      constructor
      · intro o h
        cases o with
        | iface d => simp only [Optic.clearObscuration]; split <;> simp_all [Optic.clearObscuration]
        | compound d items =>
          simp only [Optic.compound.sizeOf_spec] at h
          simp only [Optic.clearObscuration]
          rw [ih.2 items (by omega)]
      · intro l h
        cases l with
        | nil => rfl
        | cons o os =>
          simp only [List.cons.sizeOf_spec] at h
          simp only [Optic.clearItems]
          rw [ih.1 o (by omega), ih.2 os (by omega)]
  exact (key (sizeOf o + 1)).1 o (Nat.lt_succ_self _)

/-! ### Effect on tracing -/

/-- One interface, cleared. -/
def clearedIface (keep : List Name) (d : Iface F) : Iface F :=
  if d.name ∈ keep then d else { d with obscuration := none }

omit [Arith F] in
mutual
theorem visits_clear (keep : List Name) : ∀ o : Optic F,
    visits (o.clearObscuration keep) = (visits o).map (clearedIface keep)
  | .iface d => by
    simp only [Optic.clearObscuration, visits, List.map_cons, List.map_nil, clearedIface]
    split <;> rfl
  | .compound d items => by
    simp only [Optic.clearObscuration, visits]
    exact visitsItems_clear keep items
theorem visitsItems_clear (keep : List Name) : ∀ items : List (Optic F),
    visitsItems (Optic.clearItems keep items) = (visitsItems items).map (clearedIface keep)
  | [] => rfl
  | o :: os => by
    simp only [Optic.clearItems, visitsItems, clear_skip, List.map_append]
    rw [visitsItems_clear keep os, visits_clear keep o]
    cases o.skip <;> rfl
end

/-- A surface operation does not look at the `vignetted` flag; it sets it when the ray fails. -/
theorem onRay_vignetted (d : Iface F) (niter : ℕ) (reverse : Bool) (ct : CoordTransform F) (ray : Ray F) (b : Bool) :
    Iface.onRay d niter reverse ct { ray with vignetted := b } =
      { Iface.onRay d niter reverse ct ray with
        vignetted := b || (!ray.failed && (Iface.onRay d niter reverse ct ray).failed) } := by
  unfold Iface.onRay
  cases hf : ray.failed <;> cases d.kind <;>
    simp only [Ray.refract, Ray.reflect, Ray.refractScreen, Ray.intersect, hf, if_true, Bool.false_eq_true, if_false,
      Bool.not_true, Bool.not_false, Bool.false_and, Bool.true_and, Bool.or_false] <;>
    (try rfl) <;>
    (split <;> (try simp [Ray.markFailed]) <;> (try (split <;> simp_all)))

/-- Two rays that agree but for vignetting, the first being vignetted only if the second is. -/
def Dimmer (a b : Ray F) : Prop := a = { b with vignetted := a.vignetted } ∧ (a.vignetted = true → b.vignetted = true)

/-- The same for ray vectors. -/
def DimmerVec (a b : RayVec F) : Prop := a.coordSys = b.coordSys ∧ List.Forall₂ Dimmer a.rays b.rays

theorem dimmer_onRay (d : Iface F) (niter : ℕ) (reverse : Bool) (ct : CoordTransform F) {a b : Ray F} (h : Dimmer a b) :
    Dimmer (Iface.onRay d niter reverse ct a) (Iface.onRay d niter reverse ct b) := by
  have hb : Iface.onRay d niter reverse ct b = { Iface.onRay d niter reverse ct b with
      vignetted := b.vignetted || (!b.failed && (Iface.onRay d niter reverse ct b).failed) } :=
    onRay_vignetted d niter reverse ct b b.vignetted
  rw [h.1, onRay_vignetted]
  refine ⟨rfl, ?_⟩
  rw [hb]
  simp only [Bool.or_eq_true]
  exact fun h' => h'.imp h.2 id

/-- One interface traced without its obscuration, or with it. -/
theorem dimmer_trace (keep : List Name) (d : Iface F) (niter : ℕ) (reverse : Bool) {a b : RayVec F} (h : DimmerVec a b) :
    DimmerVec ((clearedIface keep d).trace niter reverse a) (d.trace niter reverse b) := by
  have h1 : DimmerVec (d.interact niter reverse a) (d.interact niter reverse b) := by
    rw [interact_rays, interact_rays, h.1]
    refine ⟨rfl, ?_⟩
    simp only [List.forall₂_map_left_iff, List.forall₂_map_right_iff]
    exact h.2.imp fun a b hab => dimmer_onRay d niter reverse _ hab
  have h2 : ∀ o : Obsc F, ∀ a b : RayVec F, DimmerVec a b → DimmerVec a (b.obscure o) := by
    intro o a b hab
    refine ⟨hab.1, ?_⟩
    simp only [RayVec.obscure, List.forall₂_map_right_iff]
    refine hab.2.imp fun x y hxy => ⟨hxy.1, fun hx => ?_⟩
    simp [Ray.obscure, hxy.2 hx]
  have h3 : ∀ o : Obsc F, ∀ a b : RayVec F, DimmerVec a b → DimmerVec (a.obscure o) (b.obscure o) := by
    intro o a b hab
    refine ⟨hab.1, ?_⟩
    simp only [RayVec.obscure, List.forall₂_map_left_iff, List.forall₂_map_right_iff]
    refine hab.2.imp fun x y hxy => ?_
    obtain ⟨e, hv⟩ := hxy
    have hr : x.r = y.r := by rw [e]
    refine ⟨?_, ?_⟩
    · simp only [Ray.obscure]
      rw [hr]
      generalize x.vignetted = c at e
      subst e
      rfl
    · simp only [Ray.obscure, hr, Bool.or_eq_true]
      exact fun h' => h'.imp hv id
  unfold clearedIface
  split
  · unfold Iface.trace Iface.applyObscuration
    cases d.obscuration with
    | none => exact h1
    | some o => exact h3 o _ _ h1
  · have e : ({ d with obscuration := none } : Iface F).trace niter reverse a = d.interact niter reverse a := by
      unfold Iface.trace Iface.applyObscuration Iface.interact; rfl
    rw [e]
    unfold Iface.trace Iface.applyObscuration
    cases d.obscuration with
    | none => exact h1
    | some o => exact h2 o _ _ h1

theorem dimmer_fold (keep : List Name) (niter : ℕ) (reverse : Bool) : ∀ (l : List (Iface F)) (a b : RayVec F), DimmerVec a b →
    DimmerVec ((l.map (clearedIface keep)).foldl (fun rv d => d.trace niter reverse rv) a)
      (l.foldl (fun rv d => d.trace niter reverse rv) b)
  | [], _, _, h => h
  | d :: l, a, b, h => by
    simp only [List.map_cons, List.foldl_cons]
    exact dimmer_fold keep niter reverse l _ _ (dimmer_trace keep d niter reverse h)

theorem dimmer_refl (rv : RayVec F) : DimmerVec rv rv :=
  ⟨rfl, by
    induction rv.rays with
    | nil => exact .nil
    | cons a l ih => exact .cons ⟨rfl, id⟩ ih⟩

/-- C73: tracing through the cleared optic, in either direction, gives every ray the position, velocity, time, wavelength, flux
and failure it has after the uncleared optic, in the same frame; the only difference is that fewer rays are vignetted. -/
theorem C73_only_vignetting (keep : List Name) (niter : ℕ) (reverse : Bool) (o : Optic F) (rv : RayVec F) :
    ((o.clearObscuration keep).trace niter reverse rv).coordSys = (o.trace niter reverse rv).coordSys ∧
    ((o.clearObscuration keep).trace niter reverse rv).rays.length = (o.trace niter reverse rv).rays.length ∧
    ∀ (i : ℕ) (a : Ray F), ((o.clearObscuration keep).trace niter reverse rv).rays[i]? = some a →
      ∃ b, (o.trace niter reverse rv).rays[i]? = some b ∧ a.r = b.r ∧ a.v = b.v ∧ a.t = b.t ∧ a.wavelength = b.wavelength ∧
        a.flux = b.flux ∧ a.failed = b.failed ∧ (a.vignetted = true → b.vignetted = true) := by
  have key : DimmerVec ((o.clearObscuration keep).trace niter reverse rv) (o.trace niter reverse rv) := by
    cases reverse
    · rw [trace_visits, trace_visits, visits_clear]
      exact dimmer_fold keep niter false _ _ _ (dimmer_refl rv)
    · rw [trace_visits_rev, trace_visits_rev, visits_clear, ← List.map_reverse]
      exact dimmer_fold keep niter true _ _ _ (dimmer_refl rv)
  refine ⟨key.1, key.2.length_eq, ?_⟩
  have := key.2
  generalize ((o.clearObscuration keep).trace niter reverse rv).rays = l at this ⊢
  generalize (o.trace niter reverse rv).rays = l' at this ⊢
  induction this with
  | nil => simp
  | @cons x y l l' h _ ih =>
    intro i a hi
    cases i with
    | zero =>
      simp only [List.getElem?_cons_zero, Option.some.injEq] at hi
      subst hi
      obtain ⟨e, hv⟩ := h
      generalize x.vignetted = c at e hv
      refine ⟨y, rfl, ?_⟩
      subst e
      exact ⟨rfl, rfl, rfl, rfl, rfl, rfl, hv⟩
    | succ i => exact ih i a hi

theorem onRay_keeps_failed (d : Iface F) (niter : ℕ) (reverse : Bool) (ct : CoordTransform F) (ray : Ray F)
    (h : ray.failed = true) : Iface.onRay d niter reverse ct ray = ray := by
  unfold Iface.onRay
  cases d.kind <;> simp [Ray.refract, Ray.reflect, Ray.refractScreen, Ray.intersect, h]

/-- No interface of a completely cleared optic has an obscuration. -/
theorem visits_bare (o : Optic F) : ∀ d ∈ visits (o.clearObscuration []), d.obscuration = none := by
  intro d hd
  rw [visits_clear, List.mem_map] at hd
  obtain ⟨e, _, rfl⟩ := hd
  simp [clearedIface]

theorem bare_fold (niter : ℕ) (reverse : Bool) : ∀ (l : List (Iface F)) (rv : RayVec F), (∀ d ∈ l, d.obscuration = none) →
    ∀ (i : ℕ) (ray : Ray F), rv.rays[i]? = some ray →
      ∃ out, (l.foldl (fun rv d => d.trace niter reverse rv) rv).rays[i]? = some out ∧
        (ray.failed = true → out.failed = true) ∧
        (out.vignetted = true ↔ ray.vignetted = true ∨ (ray.failed = false ∧ out.failed = true))
  | [], rv, _, i, ray, hi => ⟨ray, hi, id, by cases ray.failed <;> simp⟩
  | d :: l, rv, h, i, ray, hi => by
    have ho := h d (by simp)
    have e : d.trace niter reverse rv = d.interact niter reverse rv := by
      unfold Iface.trace Iface.applyObscuration; rw [ho]
    have hi' : (d.trace niter reverse rv).rays[i]? =
        some (Iface.onRay d niter reverse (CoordTransform.make rv.coordSys d.coordSys) ray) := by
      rw [e, interact_rays]; simp [hi]
    obtain ⟨out, h1, h2, h3⟩ := bare_fold niter reverse l _ (fun d hd => h d (by simp [hd])) i _ hi'
    refine ⟨out, h1, ?_⟩
    have hk := onRay_vignetted d niter reverse (CoordTransform.make rv.coordSys d.coordSys) ray ray.vignetted
    generalize hw : Iface.onRay d niter reverse (CoordTransform.make rv.coordSys d.coordSys) ray = w at hk h2 h3
    have hv : w.vignetted = (ray.vignetted || (!ray.failed && w.failed)) := congrArg Ray.vignetted hk
    rw [hv] at h3
    have hf : ray.failed = true → w = ray := fun hf => by rw [← hw]; exact onRay_keeps_failed d niter reverse _ ray hf
    cases hrf : ray.failed with
    | true =>
      have e := congrArg Ray.failed (hf hrf)
      rw [hrf] at e
      rw [e, hrf] at h3
      exact ⟨fun _ => h2 e, by simpa using h3⟩
    | false =>
      refine ⟨fun h => absurd h (by simp), ?_⟩
      rw [h3, hrf]
      cases hwf : w.failed
      · simp
      · simp [h2 hwf]
  
/-- C73: once all obscurations are cleared, a traced ray is vignetted exactly if it was before or if it failed on the way. -/
theorem C73_all_clear (niter : ℕ) (reverse : Bool) (o : Optic F) (rv : RayVec F) (i : ℕ) (ray : Ray F)
    (hi : rv.rays[i]? = some ray) :
    ∃ out, ((o.clearObscuration []).trace niter reverse rv).rays[i]? = some out ∧
      (out.vignetted = true ↔ ray.vignetted = true ∨ (ray.failed = false ∧ out.failed = true)) := by
  have hb := visits_bare o
  cases reverse
  · rw [trace_visits]
    obtain ⟨out, h1, _, h3⟩ := bare_fold niter false _ rv hb i ray hi
    exact ⟨out, h1, h3⟩
  · rw [trace_visits_rev]
    obtain ⟨out, h1, _, h3⟩ := bare_fold niter true (visits (o.clearObscuration [])).reverse rv (fun d hd => hb d (List.mem_reverse.mp hd)) i ray hi
    exact ⟨out, h1, h3⟩

end

/-- A detector with a circular obscuration. -/
noncomputable def demoStop (nm : String) : Iface Dbl := { demoFlat nm 0 with obscuration := some (.circle (.fin 1) (.fin 0) (.fin 0)) }

/-- Clearing all but `B` in a nested tree. -/
example : (demoComp "T" [.iface (demoStop "A"), demoComp "U" [.iface (demoStop "B")]]).clearObscuration ["B".toList] =
    demoComp "T" [.iface (demoFlat "A" 0), demoComp "U" [.iface (demoStop "B")]] := by
  simp [demoComp, Optic.clearObscuration, Optic.clearItems, demoStop, demoFlat, demoMirror]

/-- A ray to the centre of the obscuration is vignetted, and is not once the obscuration is cleared. -/
example : ∃ rv : RayVec Dbl, (∃ a, ((Optic.iface demoMirror).trace 5 false rv).rays[0]? = some a ∧ a.vignetted = true) ∧
    ∃ b, (((Optic.iface demoMirror).clearObscuration []).trace 5 false rv).rays[0]? = some b ∧ b.vignetted = false := by
  have h := reflect_hit (demo_hit (v := ⟨-1 / 4, -1 / 2, -1⟩) (by norm_num)) none
  refine ⟨⟨[demoRay ⟨-1 / 4, -1 / 2, -1⟩], (CoordSys.std ℝ).fin⟩, ?_, ?_⟩
  · obtain ⟨a, h1, -, h3⟩ := trace_ray demoMirror 5 false ⟨[demoRay ⟨-1 / 4, -1 / 2, -1⟩], (CoordSys.std ℝ).fin⟩ 0 _ rfl
    refine ⟨a, h1, h3.mpr (Or.inr ⟨_, rfl, ?_⟩)⟩
    simp only [Iface.onRay, demoMirror, h.1]
    show Obsc.contains _ (Dbl.fin _) (Dbl.fin _) = true
    rw [C34_circle]
    simp only [planeDist2, V3.add_x, V3.add_y, V3.smulR]
    norm_num
  · obtain ⟨b, h1, h2⟩ := C73_all_clear 5 false (.iface demoMirror) ⟨[demoRay ⟨-1 / 4, -1 / 2, -1⟩], (CoordSys.std ℝ).fin⟩ 0 _ rfl
    obtain ⟨c, h3, h4, -⟩ := trace_ray { demoMirror with obscuration := none } 5 false
      ⟨[demoRay ⟨-1 / 4, -1 / 2, -1⟩], (CoordSys.std ℝ).fin⟩ 0 _ rfl
    refine ⟨b, h1, ?_⟩
    have e : b = c := by
      have : some b = some c := h1.symm.trans h3
      exact Option.some.inj this
    subst e
    have hf : b.failed = false := by rw [h4]; exact h.2.2.2.1
    rw [Bool.eq_false_iff, ne_eq, h2, hf]
    simp [demoRay]

end Batoid.Props
