import Verif.Props.Trace
import Verif.Props.Edits
import Verif.Props.Kernels

/-!
# Property C56: coatings of perturbed copies, and the coating used when splitting
-/

namespace Batoid.Props
open Batoid

section copies
variable {F : Type} [Arith F]

/-- One call of a `with*` method of an interface. -/
inductive CopyOp (F : Type) where
  | globalShift (shift : V3 F)
  | globalRotation (rot : M3 F) (ce : V3 F) (cs : Option (CoordSys F))
  | localRotation (rot : M3 F) (ce : V3 F) (cs : Option (CoordSys F))
  | surface (s : Surface F)

/-- The copy that method returns. -/
noncomputable def CopyOp.apply (d : Iface F) : CopyOp F → Except PyErr (Iface F)
  | .globalShift s => d.withGlobalShift s
  | .globalRotation rot ce cs => d.withGlobalRotation rot ce cs
  | .localRotation rot ce cs => d.withLocalRotation rot ce cs
  | .surface s => d.withSurface s

/-- A history of copies of copies. -/
noncomputable def copies : List (CopyOp F) → Iface F → Except PyErr (Iface F)
  | [], d => .ok d
  | op :: ops, d => (op.apply d).bind (copies ops)

/-- The kinds whose constructor assigns coatings, with what it assigns. -/
def factoryCoatings : Kind F → Option (Option (Coating F) × Option (Coating F))
  | .refractive => some (some (.simple 0 1), some (.simple 0 1))
  | .mirror => some (some (.simple 1 0), some (.simple 1 0))
  | .detector => some (some (.simple 0 1), none)
  | .baffle => some (some (.simple 0 1), some (.simple 0 1))
  | .plain => none
  | .screen _ => none

theorem init_coatings (d d' : Iface F) (h : Iface.init d = .ok d') :
    d'.kind = d.kind ∧ (d'.forwardCoating, d'.reverseCoating) =
      (factoryCoatings d.kind).getD (d.forwardCoating, d.reverseCoating) := by
  have key : ∀ e : Iface F, e.resetCoatings.kind = e.kind ∧ (e.resetCoatings.forwardCoating, e.resetCoatings.reverseCoating) =
      (factoryCoatings e.kind).getD (e.forwardCoating, e.reverseCoating) := by
    intro e
    unfold Iface.resetCoatings factoryCoatings
    cases hk : e.kind <;> simp [hk]
  unfold Iface.init at h
  split at h
  · split at h
    · cases h; exact key { d with skip := false }
    · cases h
  · cases h; exact key { d with skip := false }

theorem copy_coatings (op : CopyOp F) (d d' : Iface F) (h : op.apply d = .ok d') :
    d'.kind = d.kind ∧ (d'.forwardCoating, d'.reverseCoating) =
      (factoryCoatings d.kind).getD (d.forwardCoating, d.reverseCoating) := by
  cases op <;> simp only [CopyOp.apply, Iface.withGlobalShift, Iface.withGlobalRotation, Iface.withLocalRotation,
    Iface.withSurface] at h <;> (have := init_coatings _ _ h; exact this)

/-- After any history of copies the kind is the same, and the coatings are the ones before if the history is empty or the
class assigns none, the factory ones otherwise. -/
theorem copies_coatings : ∀ (ops : List (CopyOp F)) (d d' : Iface F), copies ops d = .ok d' → d'.kind = d.kind ∧
    (d'.forwardCoating, d'.reverseCoating) =
      if ops = [] then (d.forwardCoating, d.reverseCoating)
      else (factoryCoatings d.kind).getD (d.forwardCoating, d.reverseCoating)
  | [], d, d', h => by simp only [copies, Except.ok.injEq] at h; subst h; simp
  | op :: ops, d, d', h => by
    rw [copies] at h
    cases h1 : op.apply d with
    | error e => rw [h1] at h; cases h
    | ok d1 =>
      rw [h1] at h
      obtain ⟨a1, a2⟩ := copy_coatings op d d1 h1
      obtain ⟨b1, b2⟩ := copies_coatings ops d1 d' h
      refine ⟨b1.trans a1, ?_⟩
      rw [b2, a1, a2, if_neg (List.cons_ne_nil _ _)]
      cases factoryCoatings d.kind <;> simp

/-- C56, the part that holds: through any history of copies an interface keeps its coatings if they are the ones its class
assigns, and a plain interface or screen keeps whatever coatings it has.  Missing: coatings the user has set on the other
classes, which are lost (`C56_copies_drop_coatings_violated`). -/
theorem C56_copies_keep_coatings_partial (ops : List (CopyOp F)) (d d' : Iface F) (h : copies ops d = .ok d')
    (hd : factoryCoatings d.kind = none ∨ factoryCoatings d.kind = some (d.forwardCoating, d.reverseCoating)) :
    d'.forwardCoating = d.forwardCoating ∧ d'.reverseCoating = d.reverseCoating := by
  have := (copies_coatings ops d d' h).2
  rcases hd with hd | hd <;> simpa [hd] using this

/-- C56 fails: every non-empty history of copies of a refractive interface, mirror, detector or baffle replaces whatever
coatings it had by those of the constructor. -/
theorem C56_copies_drop_coatings_violated (op : CopyOp F) (ops : List (CopyOp F)) (d d' : Iface F)
    (h : copies (op :: ops) d = .ok d') (f r : Option (Coating F)) (hk : factoryCoatings d.kind = some (f, r)) :
    d'.forwardCoating = f ∧ d'.reverseCoating = r := by
  have := (copies_coatings (op :: ops) d d' h).2
  simpa [hk] using this

end copies

/-- Such histories exist and lose information: a mirror reflecting half the light, shifted, reflects all of it. -/
theorem C56_half_mirror_violated : ∃ (d d' : Iface Dbl), copies [.globalShift ⟨Dbl.fin 0, Dbl.fin 0, Dbl.fin 1⟩] d = .ok d' ∧
    d.kind = .mirror ∧ (∃ c, d.forwardCoating = some c ∧ ∀ w a, c.getReflect w a = Dbl.fin (1 / 2)) ∧
    ∃ c, d'.forwardCoating = some c ∧ ∀ w a, c.getReflect w a = Dbl.fin 1 := by
  refine ⟨{ demoMirror with forwardCoating := some (.simple (Dbl.fin (1 / 2)) (Dbl.fin (1 / 2))) }, _, rfl, rfl,
    ⟨_, rfl, fun w a => rfl⟩, ⟨_, rfl, fun w a => ?_⟩⟩
  simp [Coating.simple]

/-! ## The coating used -/

section use
variable {F : Type} [Arith F]

/-- The two outputs are the two outputs of splitting the rays at the interface with coating `c`. -/
def SplitWith (d : Iface F) (niter : ℕ) (reverse : Bool) (c : Coating F) (rv : RayVec F) : Prop :=
  d.rSplit niter reverse rv = .ok (some (rv.refract d.surface (if reverse then d.outMedium else d.inMedium)
      (if reverse then d.inMedium else d.outMedium) (some d.coordSys) (some c) niter),
    some ((rv.rSplit d.surface (if reverse then d.outMedium else d.inMedium)
      (if reverse then d.inMedium else d.outMedium) c (some d.coordSys) niter).2))

theorem rSplit_refracted (rv : RayVec F) (s : Surface F) (m1 m2 : Medium F) (c : Coating F) (cs : Option (CoordSys F))
    (niter : ℕ) : (rv.rSplit s m1 m2 c cs niter).1 = rv.refract s m1 m2 cs (some c) niter := by
  simp only [RayVec.rSplit, RayVec.refract, C15_refracted_is_refract]

/-- C56, the part that holds: forward rays are split by the forward coating at a detector, and at a refractive interface whose
two coatings are the same; backward rays at such a refractive interface by the reverse coating. -/
theorem C56_coating_used_partial (d : Iface F) (niter : ℕ) (rv : RayVec F) (c : Coating F) :
    (d.kind = .detector → d.forwardCoating = some c → SplitWith d niter false c rv) ∧
    (d.kind = .refractive → d.forwardCoating = some c → d.reverseCoating = some c →
      SplitWith d niter false c rv ∧ SplitWith d niter true c rv) := by
  refine ⟨fun hk hc => ?_, fun hk hc hr => ⟨?_, ?_⟩⟩ <;>
    simp only [SplitWith, Iface.rSplit, hk, hc, *, Bool.false_eq_true, if_false, if_true, ← rSplit_refracted]

/-- C56 fails at a refractive interface: forward rays are split by the reverse coating, whatever the forward coating is, and
backward rays by the forward coating. -/
theorem C56_coating_swapped_violated (d : Iface F) (hk : d.kind = .refractive) (niter : ℕ) (rv : RayVec F) (f r : Coating F)
    (hf : d.forwardCoating = some f) (hr : d.reverseCoating = some r) :
    SplitWith d niter false r rv ∧ SplitWith d niter true f rv := by
  constructor <;>
    simp only [SplitWith, Iface.rSplit, hk, hf, hr, Bool.false_eq_true, if_false, if_true, ← rSplit_refracted]

end use

/-- A glass plate whose forward coating reflects half the light and whose reverse coating reflects nothing. -/
noncomputable def demoPlate : Iface Dbl :=
  { demoMirror with
    kind := .refractive
    forwardCoating := some (.simple (Dbl.fin (1 / 2)) (Dbl.fin (1 / 2)))
    reverseCoating := some (.simple (Dbl.fin 0) (Dbl.fin 1)) }

/-- The consequence for a user: with a forward coating that reflects half the light, nothing of a forward ray is reflected. -/
theorem C56_forward_flux_violated : ∃ (d : Iface Dbl) (rv a b : RayVec Dbl) (ray : Ray Dbl), d.kind = .refractive ∧
    (∃ c, d.forwardCoating = some c ∧ ∀ w a, c.getReflect w a = Dbl.fin (1 / 2)) ∧
    d.rSplit 5 false rv = .ok (some a, some b) ∧ rv.rays.map (·.flux) = [Dbl.fin 1] ∧ b.rays = [ray] ∧ ray.flux = Dbl.fin 0 := by
  have hit := demo_hit (v := ⟨3 / 5, 0, -4 / 5⟩) (by norm_num)
  obtain ⟨ca, h1, -⟩ := C15_flux Surface.plane (CoordTransform.make (CoordSys.std ℝ).fin (CoordSys.std ℝ).fin)
    ⟨fun _ => Dbl.fin 1⟩ (.simple (Dbl.fin 0) (Dbl.fin 1)) 5 _ hit.live (by rw [hit.pos, hit.vel, hit.time])
  refine ⟨demoPlate, ⟨[demoRay ⟨3 / 5, 0, -4 / 5⟩], (CoordSys.std ℝ).fin⟩, _, _, _, rfl, ⟨_, rfl, fun w a => rfl⟩, rfl, rfl,
    rfl, h1.trans ?_⟩
  simp [Coating.simple, demoRay]

end Batoid.Props
