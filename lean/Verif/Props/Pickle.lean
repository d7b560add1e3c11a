import Verif.Pickle
import Verif.Props.Objects

/-!
# Property C93: pickling

Restoring a pickled object gives an object with the same attributes, over a C++ side object that does what the original one
does (`denote`, from the constructors).  The only assumptions are what every constructor establishes: `imin` of an asphere is at
least one, and the items of unions and intersections are sorted.
-/

namespace Batoid.Props
open Batoid Batoid.Objects

section pickle
variable {F : Type} [Arith F]

/-- C93: media. -/
theorem C93_medium (junk : F) (m : MediumObj F) : MediumObj.unpickle junk m.pickle = .ok (m, m.denote junk) := by
  cases m <;> rfl

/-- C93: coatings. -/
theorem C93_coating (c : CoatingObj F) : CoatingObj.unpickle c.pickle = .ok (c, c.denote) := rfl

/-- C93: coordinate systems. -/
theorem C93_coordSys (c : CoordSys F) : coordSysUnpickle (coordSysPickle c) = .ok c := rfl

/-- C93: transforms, as the constructor makes them. -/
theorem C93_transform (a b : CoordSys F) :
    transformUnpickle (transformPickle (CoordTransform.make a b)) = .ok (CoordTransform.make a b) := rfl

/-- C93: ray vectors: every ray with its position, velocity, time, wavelength, flux and flags, in order. -/
theorem C93_rays (junk : F) (rv : RayVec F) : raysUnpickle junk (raysPickle rv) = .ok rv := by
  have h : raysOf junk (rv.rays.map (·.r.x)) (rv.rays.map (·.r.y)) (rv.rays.map (·.r.z)) (rv.rays.map (·.v.x)) (rv.rays.map (·.v.y))
      (rv.rays.map (·.v.z)) (rv.rays.map (·.t)) (rv.rays.map (·.wavelength)) (rv.rays.map (·.flux)) (rv.rays.map (·.vignetted))
      (rv.rays.map (·.failed)) = rv.rays := by
    apply List.ext_getElem?
    intro i
    unfold raysOf
    rw [List.getElem?_map, List.length_map]
    by_cases hi : i < rv.rays.length
    · rw [List.getElem?_range hi]
      simp [List.getD_eq_getElem?_getD, hi]
    · rw [List.getElem?_eq_none (by simpa using hi), List.getElem?_eq_none (by omega)]
      rfl
  simp only [raysUnpickle, raysPickle, C93_coordSys, bind, Except.bind, h]

/-! ## Surfaces -/

mutual
/-- What the constructor of `Asphere` checks. -/
def WellMade : SurfaceObj F → Prop
  | .asphere _ _ _ i => 1 ≤ i
  | .sum ss => AllWellMade ss
  | _ => True
/-- The same for the items of a sum. -/
def AllWellMade : List (SurfaceObj F) → Prop
  | [] => True
  | s :: ss => WellMade s ∧ AllWellMade ss
end

mutual
/-- C93: surfaces. -/
theorem C93_surface (env : Env F) : ∀ s : SurfaceObj F, WellMade s → SurfaceObj.unpickle env s.pickle = .ok (s, s.denote env)
  | .plane, _ => rfl
  | .tilted _ _, _ => rfl
  | .paraboloid _, _ => rfl
  | .sphere _, _ => rfl
  | .quadric _ _, _ => rfl
  | .asphere R k c i, h => by
    obtain ⟨p, h1, h2⟩ := C24_object env R k c i (show 0 < i by simp only [WellMade] at h; omega)
    simp only [SurfaceObj.pickle, SurfaceObj.unpickle, SurfaceObj.initAsphere, h1, h2, Except.map]
  | .zernike _ _ _ _ _, _ => rfl
  | .bicubic _ _ _ _ _ _ _, _ => rfl
  | .sum ss, h => by
    simp only [WellMade] at h
    simp only [SurfaceObj.pickle, SurfaceObj.unpickle]
    obtain ⟨l, e1, e2, e3⟩ := surfaces_restore env ss h
    simp only [e1, Except.map, e2, e3, SurfaceObj.denote]
theorem surfaces_restore (env : Env F) : ∀ ss : List (SurfaceObj F), AllWellMade ss →
    ∃ l, SurfaceObj.unpickles env (SurfaceObj.pickles ss) = .ok l ∧ l.map Prod.fst = ss ∧ l.map Prod.snd = SurfaceObj.denotes env ss
  | [], _ => ⟨[], rfl, rfl, rfl⟩
  | s :: ss, h => by
    simp only [AllWellMade] at h
    obtain ⟨l, e1, e2, e3⟩ := surfaces_restore env ss h.2
    refine ⟨(s, s.denote env) :: l, ?_, by simp [e2], by simp [e3, SurfaceObj.denotes]⟩
    simp only [SurfaceObj.pickles, SurfaceObj.unpickles, C93_surface env s h.1, e1]
end

/-! ## Obscurations -/

mutual
/-- What the constructors establish: the items of unions and intersections are sorted by `repr`. -/
def Constructed (repr : Obsc F → List Char) : Obsc F → Prop
  | .negation o => Constructed repr o
  | .union os => os.Pairwise (fun a b => repr a ≤ repr b) ∧ AllConstructed repr os
  | .intersection os => os.Pairwise (fun a b => repr a ≤ repr b) ∧ AllConstructed repr os
  | _ => True
/-- The same for the items. -/
def AllConstructed (repr : Obsc F → List Char) : List (Obsc F) → Prop
  | [] => True
  | o :: os => Constructed repr o ∧ AllConstructed repr os
end

theorem allConstructed_iff (repr : Obsc F → List Char) : ∀ os : List (Obsc F),
    AllConstructed repr os ↔ ∀ o ∈ os, Constructed repr o
  | [] => by simp [AllConstructed]
  | o :: os => by simp [AllConstructed, allConstructed_iff repr os]

/-- The constructors do establish it. -/
theorem constructed_make (repr : Obsc F → List Char) (os : List (Obsc F)) (h : ∀ o ∈ os, Constructed repr o) :
    Constructed repr (ObscObj.mkUnion repr os) ∧ Constructed repr (ObscObj.mkIntersection repr os) := by
  have : AllConstructed repr (ObscObj.sortItems repr os) := by
    rw [allConstructed_iff]
    intro o ho
    exact h o ((sort_perm repr os).mem_iff.1 ho)
  exact ⟨⟨sort_sorted repr os, this⟩, ⟨sort_sorted repr os, this⟩⟩

theorem sortItems_sorted (repr : Obsc F → List Char) {os : List (Obsc F)} (h : os.Pairwise (fun a b => repr a ≤ repr b)) :
    ObscObj.sortItems repr os = os := List.mergeSort_of_pairwise (by simpa using h)

theorem zip_unzip_map {α β : Type} (p : List (α × β)) : (p.map Prod.fst).zip (p.map Prod.snd) = p := by
  induction p with
  | nil => rfl
  | cons a p ih => simp [ih]

mutual
/-- C93: obscurations, attributes and C++ object. -/
theorem C93_obscuration (repr : Obsc F → List Char) : ∀ o : Obsc F, Constructed repr o →
    ObscObj.unpickle repr (ObscObj.pickle o) = .ok (o, o)
  | .circle _ _ _, _ => rfl
  | .annulus _ _ _ _, _ => rfl
  | .rectangle _ _ _ _ _, _ => rfl
  | .ray _ _ _ _, _ => rfl
  | .polygon p, _ => by simp only [ObscObj.pickle, ObscObj.unpickle, zip_unzip_map]
  | .negation o, h => by
    simp only [Constructed] at h
    simp only [ObscObj.pickle, ObscObj.unpickle, C93_obscuration repr o h, Except.map]
  | .union os, h => by
    simp only [Constructed] at h
    obtain ⟨l, e1, e2, e3⟩ := obscs_restore repr os h.2
    simp only [ObscObj.pickle, ObscObj.unpickle, e1, Except.map, e2, e3, ObscObj.mkUnion, sortItems_sorted repr h.1]
  | .intersection os, h => by
    simp only [Constructed] at h
    obtain ⟨l, e1, e2, e3⟩ := obscs_restore repr os h.2
    simp only [ObscObj.pickle, ObscObj.unpickle, e1, Except.map, e2, e3, ObscObj.mkIntersection, sortItems_sorted repr h.1]
theorem obscs_restore (repr : Obsc F → List Char) : ∀ os : List (Obsc F), AllConstructed repr os →
    ∃ l, ObscObj.unpickles repr (ObscObj.pickles os) = .ok l ∧ l.map Prod.fst = os ∧ l.map Prod.snd = os
  | [], _ => ⟨[], rfl, rfl, rfl⟩
  | o :: os, h => by
    simp only [AllConstructed] at h
    obtain ⟨l, e1, e2, e3⟩ := obscs_restore repr os h.2
    refine ⟨(o, o) :: l, ?_, by simp [e2], by simp [e3]⟩
    simp only [ObscObj.pickles, ObscObj.unpickles, C93_obscuration repr o h.1, e1]
end

/-! ## Optics -/

/-- All parts of an interface are as their constructors make them. -/
structure WellMadeIface (repr : Obsc F → List Char) (a : IfaceObj F) : Prop where
  surface : WellMade a.surface
  obscuration : ∀ o, a.obscuration = some o → Constructed repr o
  stop : ∀ s, a.stop = some s → WellMade s.2
  screen : ∀ s, a.kind = .screen s → WellMade s

mutual
/-- All parts of an optic are as their constructors make them. -/
def WellMadeOptic (repr : Obsc F → List Char) : OpticObj F → Prop
  | .iface a => WellMadeIface repr a
  | .compound a xs => (∀ s, a.stop = some s → WellMade s.2) ∧ AllWellMadeOptic repr xs
/-- The same for the items. -/
def AllWellMadeOptic (repr : Obsc F → List Char) : List (OpticObj F) → Prop
  | [] => True
  | o :: os => WellMadeOptic repr o ∧ AllWellMadeOptic repr os
end

theorem surface_not_none (s : SurfaceObj F) : s.pickle ≠ .none := by cases s <;> simp [SurfaceObj.pickle]

theorem opt_restore {α β : Type} (f : α → PVal F) (g : PVal F → Except PyErr (α × β)) (d : α → β) (a : Option α)
    (h : ∀ x, a = some x → g (f x) = .ok (x, d x)) (hn : ∀ x, f x ≠ .none) :
    optUnpickle g (optPickle f a) = .ok (a.map fun x => (x, d x)) := by
  cases a with
  | none => rfl
  | some x =>
    have hf := hn x
    simp only [optPickle, Option.map_some]
    have hg := h x rfl
    generalize f x = y at hf hg
    cases y <;> first | exact absurd rfl hf | simp only [optUnpickle, hg, Except.map]

theorem stop_restore (env : Env F) (s : Option (CoordSys F × SurfaceObj F)) (h : ∀ x, s = some x → WellMade x.2) :
    optUnpickle (stopUnpickle env) (optPickle stopPickle s) = .ok (s.map fun x => (x, stopDenote env x)) := by
  apply opt_restore
  · intro x hx
    simp only [stopPickle, stopUnpickle, C93_coordSys, C93_surface env x.2 (h x hx), bind, Except.bind]
    rfl
  · intro x hx
    simp [stopPickle] at hx

theorem kind_restore (env : Env F) (k : KindObj F) (h : ∀ s, k = .screen s → WellMade s) :
    kindUnpickle env k.cls k.screenPickle = .ok (k, k.denote env) := by
  cases k with
  | screen s =>
    simp only [KindObj.cls, KindObj.screenPickle, kindUnpickle, C93_surface env s (h s rfl), Except.map]
    rfl
  | _ => rfl

theorem iface_restore (env : Env F) (repr : Obsc F → List Char) (a : IfaceObj F) (h : WellMadeIface repr a) :
    OpticObj.unpickle env repr a.pickle = .ok (.iface a, .iface (a.denote env)) := by
  have ho : optUnpickle (ObscObj.unpickle repr) (optPickle ObscObj.pickle a.obscuration) = .ok (a.obscuration.map fun x => (x, x)) := by
    refine opt_restore _ _ id _ (fun x hx => C93_obscuration repr x (h.obscuration x hx)) ?_
    intro x
    cases x <;> simp [ObscObj.pickle]
  have hf := opt_restore CoatingObj.pickle CoatingObj.unpickle CoatingObj.denote a.forwardCoating (fun x _ => C93_coating x)
    (by intro x hx; simp [CoatingObj.pickle] at hx)
  have hr := opt_restore CoatingObj.pickle CoatingObj.unpickle CoatingObj.denote a.reverseCoating (fun x _ => C93_coating x)
    (by intro x hx; simp [CoatingObj.pickle] at hx)
  have hd : ∀ attrs : List (PVal F), OpticObj.unpickle env repr (.inst a.kind.cls (.dict attrs))
      = OpticObj.ofIface (ifaceUnpickle env repr a.kind.cls attrs) := by
    intro attrs
    cases a.kind <;> simp only [KindObj.cls, OpticObj.unpickle]
  rw [IfaceObj.pickle, hd]
  simp only [ifaceUnpickle, kind_restore env a.kind h.screen, C93_surface env _ h.surface, ho, OpticObj.ofIface,
    C93_coordSys, C93_medium, hf, hr, stop_restore env a.stop h.stop, bind, Except.bind, Except.map]
  obtain ⟨kind, name, surface, obscuration, cs, m1, m2, skip, fc, rc, stop⟩ := a
  simp only [IfaceObj.denote]
  cases obscuration <;> cases fc <;> cases rc <;> cases stop <;> rfl

mutual
/-- C93: optics.  Restoring a pickled optic gives the optic with all its items and attributes, coatings and stop surfaces included. -/
theorem C93_optic (env : Env F) (repr : Obsc F → List Char) : ∀ o : OpticObj F, WellMadeOptic repr o →
    OpticObj.unpickle env repr o.pickle = .ok (o, o.denote env)
  | .iface a, h => by
    simp only [WellMadeOptic] at h
    simp only [OpticObj.pickle, OpticObj.denote]
    exact iface_restore env repr a h
  | .compound a xs, h => by
    simp only [WellMadeOptic] at h
    obtain ⟨l, e1, e2, e3⟩ := optics_restore env repr xs h.2
    have hc : OpticObj.compUnpickle env a.isLens a.name (coordSysPickle a.coordSys) a.inMedium.pickle a.outMedium.pickle a.skip
        (optPickle stopPickle a.stop) = .ok (a, a.denote env) := by
      simp only [OpticObj.compUnpickle, C93_coordSys, C93_medium, stop_restore env a.stop h.1, bind, Except.bind]
      obtain ⟨lens, name, cs, m1, m2, skip, stop⟩ := a
      simp only [CompObj.denote]
      cases stop <;> rfl
    cases hl : a.isLens <;> simp only [hl] at hc <;>
      simp only [OpticObj.pickle, hl, Bool.false_eq_true, if_true, if_false, OpticObj.unpickle, OpticObj.withItems, hc, e1, e2, e3,
        OpticObj.denote, bind, Except.bind]
theorem optics_restore (env : Env F) (repr : Obsc F → List Char) : ∀ os : List (OpticObj F), AllWellMadeOptic repr os →
    ∃ l, OpticObj.unpickles env repr (OpticObj.pickles os) = .ok l ∧ l.map Prod.fst = os ∧ l.map Prod.snd = OpticObj.denotes env os
  | [], _ => ⟨[], rfl, rfl, rfl⟩
  | o :: os, h => by
    simp only [AllWellMadeOptic] at h
    obtain ⟨l, e1, e2, e3⟩ := optics_restore env repr os h.2
    refine ⟨(o, o.denote env) :: l, ?_, by simp [e2], by simp [e3, OpticObj.denotes]⟩
    simp only [OpticObj.pickles, OpticObj.unpickles, C93_optic env repr o h.1, e1]
end

/-- C93: in particular the restored optic does to every ray vector what the original does, in both directions. -/
theorem C93_trace (env : Env F) (repr : Obsc F → List Char) (o : OpticObj F) (h : WellMadeOptic repr o) :
    ∃ o' impl, OpticObj.unpickle env repr o.pickle = .ok (o', impl) ∧
      ∀ niter reverse rv, impl.trace niter reverse rv = (o.denote env).trace niter reverse rv :=
  ⟨_, _, C93_optic env repr o h, fun _ _ _ => rfl⟩

end pickle

/-- A lens with an asphere on a bent plate, clipped outside of a circle and along a vane, with coatings. -/
def demoLensObj : OpticObj Dbl :=
  .compound ⟨true, "L".toList, (⟨⟨0, 0, 0⟩, M3.one⟩ : CoordSys ℝ).fin, .const (.fin 1), .const (.fin 1), false,
      some ((⟨⟨0, 0, 0⟩, M3.one⟩ : CoordSys ℝ).fin, .plane)⟩
    [.iface ⟨.refractive, "L1".toList, .sum [.asphere (.fin 3) (.fin 0) [.fin 1] 2, .tilted (.fin 1) (.fin 0)],
      some (.union [.negation (.circle (.fin 1) (.fin 0) (.fin 0)), .rectangle (.fin 1) (.fin 1) (.fin 0) (.fin 0) (.fin 0)]),
      (⟨⟨0, 0, 1⟩, M3.one⟩ : CoordSys ℝ).fin, .const (.fin 1), .sellmeier (.fin 1) (.fin 2) (.fin 3) (.fin 4) (.fin 5) (.fin 6), false,
      some ⟨.fin 0, .fin 1⟩, none, none⟩,
     flatObj "flat".toList 5 true]

/-- It is well made if `repr` begins with the class name, so it survives pickling. -/
example (env : Env Dbl) (repr : Obsc Dbl → List Char)
    (h1 : ∀ o, repr (.negation o) = "N".toList) (h2 : ∀ w h x y t, repr (.rectangle w h x y t) = "R".toList) :
    OpticObj.unpickle env repr demoLensObj.pickle = .ok (demoLensObj, demoLensObj.denote env) := by
  apply C93_optic
  refine ⟨?_, ?_, ?_, trivial⟩
  · rintro s ⟨rfl⟩
    trivial
  · refine ⟨⟨by norm_num [WellMade], trivial, trivial⟩, ?_, ?_, ?_⟩
    · rintro o ⟨rfl⟩
      refine ⟨?_, trivial, trivial, trivial⟩
      simp only [List.pairwise_cons, List.mem_singleton, forall_eq, h1, h2]
      exact ⟨by decide, by simp⟩
    · rintro s ⟨⟩
    · rintro s ⟨⟩
  · refine ⟨trivial, ?_, ?_, ?_⟩ <;> (rintro s ⟨⟩)

end Batoid.Props
