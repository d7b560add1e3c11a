import Verif.Props.Edits

/-!
# Property C53: tracing commutes with rigid motions
-/

namespace Batoid.Props
open Batoid

/-! ## Specification vocabulary -/

/-- A rigid motion of space: `p ↦ Q p + g`. -/
structure Motion where
  Q : M3 ℝ
  g : V3 ℝ

namespace Motion
/-- Where it takes a point. -/
def point (μ : Motion) (p : V3 ℝ) : V3 ℝ := μ.Q.mulVec p + μ.g
/-- Where it takes a velocity. -/
def vec (μ : Motion) (v : V3 ℝ) : V3 ℝ := μ.Q.mulVec v
/-- Where it takes a frame. -/
def frame (μ : Motion) (c : CoordSys ℝ) : CoordSys ℝ := ⟨μ.point c.origin, μ.Q.mul c.rot⟩
end Motion

/-- `ray'` in frame `c'` is `ray` in frame `c` moved by `μ`: same time, wavelength, flux and flags and, unless the ray has
failed, position and velocity in space are moved by `μ` (which for a ray whose coordinates are not all finite means: same
coordinates in the moved frame).  Failed rays are vignetted. -/
structure MovedRay (μ : Motion) (c c' : CoordSys ℝ) (ray ray' : Ray Dbl) : Prop where
  t : ray'.t = ray.t
  wavelength : ray'.wavelength = ray.wavelength
  flux : ray'.flux = ray.flux
  vignetted : ray'.vignetted = ray.vignetted
  failed : ray'.failed = ray.failed
  lost : ray.failed = true → ray.vignetted = true
  place : ray.failed = false →
    (∃ r v r' v' : V3 ℝ, ray.r = r.fin ∧ ray.v = v.fin ∧ ray'.r = r'.fin ∧ ray'.v = v'.fin ∧
      c'.toGlobal r' = μ.point (c.toGlobal r) ∧ c'.rot.mulVec v' = μ.vec (c.rot.mulVec v)) ∨
    (c' = μ.frame c ∧ ray'.r = ray.r ∧ ray'.v = ray.v)

/-- The same, ray by ray. -/
def MovedRays (μ : Motion) (rv rv' : RayVec Dbl) : Prop :=
  ∃ c c' : CoordSys ℝ, IsRotation c.rot ∧ IsRotation c'.rot ∧ rv.coordSys = c.fin ∧ rv'.coordSys = c'.fin ∧
    List.Forall₂ (MovedRay μ c c') rv.rays rv'.rays

/-- In either case of `place` a finite live ray is moved in space. -/
theorem MovedRay.in_space {μ : Motion} {c c' : CoordSys ℝ} {ray ray' : Ray Dbl} (h : MovedRay μ c c' ray ray')
    (hf : ray.failed = false) {r v : V3 ℝ} (hr : ray.r = r.fin) (hv : ray.v = v.fin) :
    ∃ r' v' : V3 ℝ, ray'.r = r'.fin ∧ ray'.v = v'.fin ∧ c'.toGlobal r' = μ.point (c.toGlobal r) ∧
      c'.rot.mulVec v' = μ.vec (c.rot.mulVec v) := by
  rcases h.place hf with ⟨r0, v0, r', v', a1, a2, a3, a4, a5, a6⟩ | ⟨h1, h2, h3⟩
  · rw [hr, V3.fin_inj] at a1
    rw [hv, V3.fin_inj] at a2
    subst a1; subst a2
    exact ⟨r', v', a3, a4, a5, a6⟩
  · refine ⟨r, v, h2.trans hr, h3.trans hv, ?_, ?_⟩
    · rw [h1]
      simp only [Motion.frame, Motion.point, CoordSys.toGlobal, M3.mul_mulVec]
      ext <;> simp [M3.mulVec] <;> ring
    · rw [h1]
      simp only [Motion.frame, Motion.vec, M3.mul_mulVec]

mutual
/-- No item of the tree is skipped. -/
def NoSkip {F : Type} : Optic F → Prop
  | .iface d => d.skip = false
  | .compound d items => d.skip = false ∧ NoSkipItems items
def NoSkipItems {F : Type} : List (Optic F) → Prop
  | [] => True
  | o :: os => NoSkip o ∧ NoSkipItems os
end

mutual
/-- The two trees have the same shape and skip the same items. -/
def SameSkip {F : Type} : Optic F → Optic F → Prop
  | .iface d, .iface d' => d'.skip = d.skip
  | .compound d items, .compound d' items' => d'.skip = d.skip ∧ SameSkipItems items items'
  | _, _ => False
def SameSkipItems {F : Type} : List (Optic F) → List (Optic F) → Prop
  | [], [] => True
  | o :: os, o' :: os' => SameSkip o o' ∧ SameSkipItems os os'
  | _, _ => False
end

mutual
/-- Every interface of the tree has a frame given by finite numbers and a rotation. -/
def FramesOk : Optic Dbl → Prop
  | .iface d => ∃ c : CoordSys ℝ, d.coordSys = c.fin ∧ IsRotation c.rot
  | .compound _ items => FramesOkItems items
def FramesOkItems : List (Optic Dbl) → Prop
  | [] => True
  | o :: os => FramesOk o ∧ FramesOkItems os
end

/-! ## One interaction -/

theorem motion_forward {μ : Motion} (hQ : IsRotation μ.Q) {c c' e : CoordSys ℝ} (hc : IsRotation c.rot)
    (hc' : IsRotation c'.rot) {r r' : V3 ℝ} (h : c'.toGlobal r' = μ.point (c.toGlobal r)) :
    (CoordTransform.make c' (μ.frame e)).forward r' = (CoordTransform.make c e).forward r := by
  rw [CoordSys.forward_eq hc.orth, CoordSys.forward_eq hc'.orth, h]
  simp only [CoordSys.toLocal, Motion.frame]
  have : μ.point (c.toGlobal r) - μ.point e.origin = μ.Q.mulVec (c.toGlobal r - e.origin) := by
    simp only [Motion.point]; ext <;> simp [M3.mulVec] <;> ring
  rw [this, M3.tr_mul, M3.mul_mulVec, hQ.orth.tr_mulVec]

theorem motion_forwardVel {μ : Motion} (hQ : IsRotation μ.Q) {c c' e : CoordSys ℝ}
    {v v' : V3 ℝ} (h : c'.rot.mulVec v' = μ.vec (c.rot.mulVec v)) :
    (CoordTransform.make c' (μ.frame e)).forwardVel v' = (CoordTransform.make c e).forwardVel v := by
  simp only [CoordTransform.forwardVel, CoordTransform.make, Motion.frame, M3.tr_mul, M3.tr_tr, M3.mul_mulVec]
  rw [h, Motion.vec, hQ.orth.tr_mulVec]

theorem motion_make {μ : Motion} (hQ : IsRotation μ.Q) (c e : CoordSys ℝ) :
    (CoordTransform.make (μ.frame c) (μ.frame e)).dr = (CoordTransform.make c e).dr ∧
    (CoordTransform.make (μ.frame c) (μ.frame e)).drot = (CoordTransform.make c e).drot := by
  simp only [CoordTransform.make, Motion.frame]
  constructor
  · have : μ.point e.origin - μ.point c.origin = μ.Q.mulVec (e.origin - c.origin) := by
      simp only [Motion.point]; ext <;> simp [M3.mulVec] <;> ring
    rw [this, M3.tr_mul, M3.mul_mulVec, hQ.orth.tr_mulVec]
  · rw [M3.tr_mul, M3.mul_assoc', ← M3.mul_assoc' μ.Q.tr, hQ.1, M3.one_mul']

/-- The coordinates with which a live ray arrives at the moved interface are those with which the ray arrives at the
original one. -/
theorem arrival {μ : Motion} (hQ : IsRotation μ.Q) {c c' e : CoordSys ℝ} (hc : IsRotation c.rot)
    (hc' : IsRotation c'.rot) {ray ray' : Ray Dbl} (h : MovedRay μ c c' ray ray') (hf : ray.failed = false) :
    (CoordTransform.make c'.fin (μ.frame e).fin).forward ray'.r = (CoordTransform.make c.fin e.fin).forward ray.r ∧
    (CoordTransform.make c'.fin (μ.frame e).fin).forwardVel ray'.v = (CoordTransform.make c.fin e.fin).forwardVel ray.v := by
  rcases h.place hf with ⟨r, v, r', v', a1, a2, a3, a4, a5, a6⟩ | ⟨h1, h2, h3⟩
  · rw [a1, a2, a3, a4]
    simp only [CoordTransform.forward_fin, CoordTransform.forwardVel_fin, V3.fin_inj]
    exact ⟨motion_forward hQ hc hc' a5, motion_forwardVel hQ a6⟩
  · obtain ⟨m1, m2⟩ := motion_make hQ c e
    rw [h1, h2, h3]
    simp only [CoordTransform.forward, CoordTransform.forwardVel, CoordTransform.make_fin, m1, m2, and_self]

/-- An interface does the same to two live rays that arrive with the same coordinates. -/
theorem onRay_congr (d : Iface Dbl) (niter : ℕ) (reverse : Bool) (ct ct' : CoordTransform Dbl) (ray ray' : Ray Dbl)
    (hf : ray.failed = false) (hf' : ray'.failed = false) (ht : ray'.t = ray.t) (hw : ray'.wavelength = ray.wavelength)
    (hx : ray'.flux = ray.flux) (hg : ray'.vignetted = ray.vignetted) (hr : ct'.forward ray'.r = ct.forward ray.r)
    (hv : ct'.forwardVel ray'.v = ct.forwardVel ray.v) :
    let a := Iface.onRay d niter reverse ct ray
    let b := Iface.onRay d niter reverse ct' ray'
    b.t = a.t ∧ b.wavelength = a.wavelength ∧ b.flux = a.flux ∧ b.vignetted = a.vignetted ∧ b.failed = a.failed ∧
      (a.failed = true → a.vignetted = true) ∧ (a.failed = false → b.r = a.r ∧ b.v = a.v) := by
  unfold Iface.onRay
  cases d.kind
  all_goals
    simp only [Ray.refract, Ray.reflect, Ray.refractScreen, Ray.intersect, hf, hf', ht, hw, hx, hr, hv, Bool.false_eq_true, if_false]
    rcases d.surface.timeToIntersect (ct.forward ray.r) (ct.forwardVel ray.v) 0 niter with ⟨b, dt⟩
    cases b
    · simp [Ray.markFailed, ht, hw, hx]
    · try split
      all_goals first
        | (simp_all; done)
        | (simp only [hg]; split <;> simp_all)

theorem iface_onRay_failed (d : Iface Dbl) (niter : ℕ) (reverse : Bool) (ct : CoordTransform Dbl) (ray : Ray Dbl)
    (hf : ray.failed = true) : Iface.onRay d niter reverse ct ray = ray := by
  unfold Iface.onRay
  cases d.kind <;> simp [Ray.refract, Ray.reflect, Ray.refractScreen, Ray.intersect, hf]

theorem obscured_moved {μ : Motion} {c : CoordSys ℝ} {ob : Option (Obsc Dbl)} {ray ray' : Ray Dbl}
    (h : MovedRay μ c (μ.frame c) ray ray') (hl : ray.failed = false → ray'.r = ray.r ∧ ray'.v = ray.v) :
    MovedRay μ c (μ.frame c) (match ob with | none => ray | some o => Ray.obscure o ray)
      (match ob with | none => ray' | some o => Ray.obscure o ray') := by
  cases ob with
  | none => exact h
  | some o =>
    refine ⟨h.t, h.wavelength, h.flux, ?_, h.failed, ?_, ?_⟩
    · simp only [Ray.obscure, h.vignetted]
      cases hf : ray.failed with
      | true => rw [h.lost hf]; rfl
      | false => rw [(hl hf).1]
    · intro hf
      simp only [Ray.obscure] at hf ⊢
      rw [h.lost hf]; rfl
    · intro hf
      exact .inr ⟨rfl, (hl hf).1, (hl hf).2⟩

theorem applyObscuration_eq (d : Iface Dbl) (rv : RayVec Dbl) :
    d.applyObscuration rv = { rv with rays := rv.rays.map (fun ray => match d.obscuration with
      | none => ray
      | some o => Ray.obscure o ray) } := by
  unfold Iface.applyObscuration RayVec.obscure
  cases d.obscuration <;> simp

/-- One interface. -/
theorem iface_moved {μ : Motion} (hQ : IsRotation μ.Q) {m : CoordSys Dbl → CoordSys Dbl} (hm : ∀ c : CoordSys ℝ, m c.fin = (μ.frame c).fin)
    {d d' : Iface Dbl} (hd : MovedIface m d d') {e : CoordSys ℝ} (he : d.coordSys = e.fin) (hre : IsRotation e.rot)
    (niter : ℕ) (reverse : Bool) {rv rv' : RayVec Dbl} (h : MovedRays μ rv rv') :
    MovedRays μ (d.trace niter reverse rv) (d'.trace niter reverse rv') := by
  obtain ⟨c, c', hc, hc', h1, h2, h3⟩ := h
  have he' : d'.coordSys = (μ.frame e).fin := by rw [hd.coordSys, he, hm]
  refine ⟨e, μ.frame e, hre, isRotation_mul hQ hre, by rw [(C18_trace_frame_and_order d niter reverse rv).1, he],
    by rw [(C18_trace_frame_and_order d' niter reverse rv').1, he'], ?_⟩
  unfold Iface.trace
  rw [interact_rays, interact_rays, applyObscuration_eq, applyObscuration_eq, h1, h2, he, he', hd.obscuration]
  have hon : ∀ ct ray, Iface.onRay d' niter reverse ct ray = Iface.onRay d niter reverse ct ray := by
    intro ct ray
    unfold Iface.onRay
    rw [hd.kind, hd.surface, hd.inMedium, hd.outMedium]
  simp only [List.map_map, List.forall₂_map_left_iff, List.forall₂_map_right_iff, Function.comp, hon]
  refine h3.imp ?_
  intro ray ray' hr
  refine obscured_moved (ob := d.obscuration) ?_ ?_
  · cases hf : ray.failed with
    | true =>
      rw [iface_onRay_failed d niter reverse _ ray hf, iface_onRay_failed d niter reverse _ ray' (by rw [hr.failed, hf])]
      exact ⟨hr.t, hr.wavelength, hr.flux, hr.vignetted, hr.failed, hr.lost, fun h0 => by rw [hf] at h0; cases h0⟩
    | false =>
      obtain ⟨a1, a2⟩ := arrival hQ hc hc' hr hf (e := e)
      obtain ⟨b1, b2, b3, b4, b5, b6, b7⟩ := onRay_congr d niter reverse _ _ ray ray' hf (by rw [hr.failed, hf]) hr.t hr.wavelength
        hr.flux hr.vignetted a1 a2
      exact ⟨b1, b2, b3, b4, b5, b6, fun h0 => .inr ⟨rfl, (b7 h0).1, (b7 h0).2⟩⟩
  · intro h0
    cases hf : ray.failed with
    | true =>
      rw [iface_onRay_failed d niter reverse _ ray hf] at h0
      rw [hf] at h0; cases h0
    | false =>
      obtain ⟨a1, a2⟩ := arrival hQ hc hc' hr hf (e := e)
      exact (onRay_congr d niter reverse _ _ ray ray' hf (by rw [hr.failed, hf]) hr.t hr.wavelength
        hr.flux hr.vignetted a1 a2).2.2.2.2.2.2 h0

/-! ## Trees -/

section trees
variable {μ : Motion} (hQ : IsRotation μ.Q) {m : CoordSys Dbl → CoordSys Dbl} (hm : ∀ c : CoordSys ℝ, m c.fin = (μ.frame c).fin)
include hQ hm

mutual
theorem trace_moved (niter : ℕ) (reverse : Bool) : ∀ (o o' : Optic Dbl), Moved m o o' → FramesOk o → SameSkip o o' →
    ∀ rv rv', MovedRays μ rv rv' → MovedRays μ (o.trace niter reverse rv) (o'.trace niter reverse rv')
  | .iface d, .iface d', h, hf, _, rv, rv', hrv => by
    obtain ⟨e, he, hre⟩ := hf
    rw [Optic.trace, Optic.trace]
    exact iface_moved hQ hm h he hre niter reverse hrv
  | .compound d items, .compound d' items', h, hf, hs, rv, rv', hrv => by
    rw [Optic.trace, Optic.trace]
    cases reverse with
    | true => exact traceRev_moved niter items items' h.2 hf hs.2 rv rv' hrv
    | false => exact traceFwd_moved niter items items' h.2 hf hs.2 rv rv' hrv
  | .iface _, .compound _ _, h, _, _, _, _, _ => by cases h
  | .compound _ _, .iface _, h, _, _, _, _, _ => by cases h
theorem traceFwd_moved (niter : ℕ) : ∀ (os os' : List (Optic Dbl)), MovedItems m os os' → FramesOkItems os →
    SameSkipItems os os' → ∀ rv rv', MovedRays μ rv rv' →
    MovedRays μ (Optic.traceItems niter os rv) (Optic.traceItems niter os' rv')
  | [], [], _, _, _, rv, rv', hrv => by simpa [Optic.traceItems] using hrv
  | o :: os, o' :: os', h, hf, hs, rv, rv', hrv => by
    have e1 : o'.skip = o.skip := by
      cases o <;> cases o'
      · exact hs.1
      · exact hs.1.elim
      · exact hs.1.elim
      · exact hs.1.1
    rw [Optic.traceItems, Optic.traceItems, e1]
    cases o.skip with
    | false => exact traceFwd_moved niter os os' h.2 hf.2 hs.2 _ _ (trace_moved niter false o o' h.1 hf.1 hs.1 rv rv' hrv)
    | true => exact traceFwd_moved niter os os' h.2 hf.2 hs.2 _ _ hrv
  | [], _ :: _, h, _, _, _, _, _ => by cases h
  | _ :: _, [], h, _, _, _, _, _ => by cases h
theorem traceRev_moved (niter : ℕ) : ∀ (os os' : List (Optic Dbl)), MovedItems m os os' → FramesOkItems os →
    SameSkipItems os os' → ∀ rv rv', MovedRays μ rv rv' →
    MovedRays μ (Optic.traceItemsRev niter os rv) (Optic.traceItemsRev niter os' rv')
  | [], [], _, _, _, rv, rv', hrv => by simpa [Optic.traceItemsRev] using hrv
  | o :: os, o' :: os', h, hf, hs, rv, rv', hrv => by
    have e1 : o'.skip = o.skip := by
      cases o <;> cases o'
      · exact hs.1
      · exact hs.1.elim
      · exact hs.1.elim
      · exact hs.1.1
    rw [Optic.traceItemsRev, Optic.traceItemsRev, e1]
    cases o.skip with
    | false => exact trace_moved niter true o o' h.1 hf.1 hs.1 _ _ (traceRev_moved niter os os' h.2 hf.2 hs.2 rv rv' hrv)
    | true => exact traceRev_moved niter os os' h.2 hf.2 hs.2 rv rv' hrv
  | [], _ :: _, h, _, _, _, _, _ => by cases h
  | _ :: _, [], h, _, _, _, _, _ => by cases h
end

end trees

/-! ## Copies are not skipped -/

theorem map_ok {α β : Type} {x : Except PyErr α} {f : α → β} {y : β} (h : x.map f = .ok y) : ∃ a, x = .ok a ∧ f a = y := by
  cases x with
  | error e => cases h
  | ok a => exact ⟨a, rfl, by cases h; rfl⟩

theorem bind_ok {α β : Type} {x : Except PyErr α} {f : α → Except PyErr β} {y : β} (h : (x >>= f) = .ok y) :
    ∃ a, x = .ok a ∧ f a = .ok y := by
  cases x with
  | error e => cases h
  | ok a => exact ⟨a, rfl, h⟩

theorem mkCompound_noSkip {F : Type} {d : Comp F} {items : List (Optic F)} {o : Optic F} (h : Optic.mkCompound d items = .ok o)
    (hi : NoSkipItems items) : NoSkip o := by
  unfold Optic.mkCompound at h
  split at h
  · split at h
    · split at h
      · cases h; exact ⟨rfl, hi⟩
      · cases h
    · cases h
  · cases h; exact ⟨rfl, hi⟩

mutual
theorem shift_noSkip (s : V3 Dbl) : ∀ (o o' : Optic Dbl), o.withGlobalShift s = .ok o' → NoSkip o'
  | .iface d, o', h => by
    rw [Optic.withGlobalShift] at h
    obtain ⟨d', h1, rfl⟩ := map_ok h
    exact C55_constructor_ignores_skip_violated.1 _ _ h1
  | .compound d items, o', h => by
    rw [Optic.withGlobalShift] at h
    obtain ⟨items', h1, h2⟩ := bind_ok h
    exact mkCompound_noSkip h2 (shiftItems_noSkip s items items' h1)
theorem shiftItems_noSkip (s : V3 Dbl) : ∀ (os os' : List (Optic Dbl)), Optic.shiftItems s os = .ok os' → NoSkipItems os'
  | [], os', h => by rw [Optic.shiftItems] at h; cases h; trivial
  | o :: os, os', h => by
    rw [Optic.shiftItems] at h
    obtain ⟨o1, h1, h2⟩ := bind_ok h
    obtain ⟨os1, h3, h4⟩ := bind_ok h2
    cases h4
    exact ⟨shift_noSkip s o o1 h1, shiftItems_noSkip s os os1 h3⟩
end

mutual
theorem rotate_noSkip (R : M3 Dbl) (ce : V3 Dbl) (cs : Option (CoordSys Dbl)) : ∀ (o o' : Optic Dbl),
    o.withGlobalRotation R ce cs = .ok o' → NoSkip o'
  | .iface d, o', h => by
    rw [Optic.withGlobalRotation] at h
    obtain ⟨d', h1, rfl⟩ := map_ok h
    exact C55_constructor_ignores_skip_violated.1 _ _ h1
  | .compound d items, o', h => by
    rw [Optic.withGlobalRotation] at h
    obtain ⟨items', h1, h2⟩ := bind_ok h
    exact mkCompound_noSkip h2 (rotateItems_noSkip R ce cs items items' h1)
theorem rotateItems_noSkip (R : M3 Dbl) (ce : V3 Dbl) (cs : Option (CoordSys Dbl)) : ∀ (os os' : List (Optic Dbl)),
    Optic.rotateItems R ce cs os = .ok os' → NoSkipItems os'
  | [], os', h => by rw [Optic.rotateItems] at h; cases h; trivial
  | o :: os, os', h => by
    rw [Optic.rotateItems] at h
    obtain ⟨o1, h1, h2⟩ := bind_ok h
    obtain ⟨os1, h3, h4⟩ := bind_ok h2
    cases h4
    exact ⟨rotate_noSkip R ce cs o o1 h1, rotateItems_noSkip R ce cs os os1 h3⟩
end

mutual
theorem sameSkip_of {F : Type} [Arith F] {m : CoordSys F → CoordSys F} : ∀ (o o' : Optic F), Moved m o o' → NoSkip o → NoSkip o' → SameSkip o o'
  | .iface _, .iface _, _, hs, hs' => hs'.trans hs.symm
  | .compound _ items, .compound _ items', h, hs, hs' => ⟨hs'.1.trans hs.1.symm, sameSkipItems_of items items' h.2 hs.2 hs'.2⟩
  | .iface _, .compound _ _, h, _, _ => by cases h
  | .compound _ _, .iface _, h, _, _ => by cases h
theorem sameSkipItems_of {F : Type} [Arith F] {m : CoordSys F → CoordSys F} : ∀ (os os' : List (Optic F)), MovedItems m os os' →
    NoSkipItems os → NoSkipItems os' → SameSkipItems os os'
  | [], [], _, _, _ => trivial
  | o :: os, o' :: os', h, hs, hs' => ⟨sameSkip_of o o' h.1 hs.1 hs'.1, sameSkipItems_of os os' h.2 hs.2 hs'.2⟩
  | [], _ :: _, h, _, _ => by cases h
  | _ :: _, [], h, _, _ => by cases h
end

/-! ## C53 -/

/-- C53, every rigid motion: for every tree with proper frames, every rigid motion of space, every copy of the tree whose
frames are moved by it (everything else, including which items are skipped, the same), both directions and every set of
rays moved likewise: the rays that come out are moved likewise and all their times, fluxes and flags are the same. -/
theorem C53_moved_tree (μ : Motion) (hQ : IsRotation μ.Q) (m : CoordSys Dbl → CoordSys Dbl)
    (hm : ∀ c : CoordSys ℝ, m c.fin = (μ.frame c).fin) (niter : ℕ) (reverse : Bool) (o o' : Optic Dbl) (h : Moved m o o')
    (hf : FramesOk o) (hs : SameSkip o o') (rv rv' : RayVec Dbl) (hrv : MovedRays μ rv rv') :
    MovedRays μ (o.trace niter reverse rv) (o'.trace niter reverse rv') :=
  trace_moved hQ hm niter reverse o o' h hf hs rv rv' hrv

/-- C53 for shifts: for every tree with proper frames and no skipped items, every displacement, direction and set of rays:
shifting the telescope succeeds, and if the rays put in are displaced likewise (in whatever frames they are expressed), the
rays that come out are displaced likewise, with all times, fluxes and flags the same. -/
theorem C53_shift (niter : ℕ) (reverse : Bool) (o : Optic Dbl) (hw : WellFormed o) (hf : FramesOk o) (hs : NoSkip o)
    (s : V3 ℝ) : ∃ o', o.withGlobalShift s.fin = .ok o' ∧ ∀ rv rv', MovedRays ⟨M3.one, s⟩ rv rv' →
      MovedRays ⟨M3.one, s⟩ (o.trace niter reverse rv) (o'.trace niter reverse rv') := by
  obtain ⟨o', h1, h2⟩ := withGlobalShift_moved s.fin o hw
  refine ⟨o', h1, fun rv rv' h => ?_⟩
  refine trace_moved (m := fun c => ⟨c.origin + s.fin, c.rot⟩) isRotation_one ?_ niter reverse o o' h2 hf
    (sameSkip_of o o' h2 hs (shift_noSkip _ o o' h1)) rv rv' h
  intro c
  simp only [Motion.frame, Motion.point, CoordSys.fin, M3.one_mul', V3.fin_add]
  congr 2
  ext <;> simp [M3.mulVec, M3.one]

/-- The rotation `R` about the point `g`, as a motion. -/
def Motion.about (R : M3 ℝ) (g : V3 ℝ) : Motion := ⟨R, g - R.mulVec g⟩

theorem Motion.about_point (R : M3 ℝ) (g p : V3 ℝ) : (Motion.about R g).point p = rotateAbout R g p := by
  simp only [Motion.about, Motion.point, rotateAbout]
  ext <;> simp [M3.mulVec] <;> ring

theorem centre_fin (cs : Option (CoordSys ℝ)) (ctr : V3 ℝ) :
    ((cs.map (·.fin)).getD (CoordSys.std Dbl)).toGlobal ctr.fin = ((cs.getD (CoordSys.std ℝ)).toGlobal ctr).fin := by
  have : CoordSys.std Dbl = (CoordSys.std ℝ).fin := by
    simp [CoordSys.std, CoordSys.fin, V3.fin, M3.fin, M3.one, M3.map]
  cases cs with
  | none => simp [this, CoordSys.toGlobal, CoordSys.fin]
  | some b => simp [CoordSys.toGlobal, CoordSys.fin]

/-- C53 for rotations about any centre, given in any frame: as for shifts. -/
theorem C53_rotation (niter : ℕ) (reverse : Bool) (o : Optic Dbl) (hw : WellFormed o) (hf : FramesOk o) (hs : NoSkip o)
    (R : M3 ℝ) (hR : IsRotation R) (ctr : V3 ℝ) (cs : Option (CoordSys ℝ)) :
    ∃ o', o.withGlobalRotation R.fin ctr.fin (cs.map (·.fin)) = .ok o' ∧
      ∀ rv rv', MovedRays (.about R ((cs.getD (CoordSys.std ℝ)).toGlobal ctr)) rv rv' →
        MovedRays (.about R ((cs.getD (CoordSys.std ℝ)).toGlobal ctr)) (o.trace niter reverse rv) (o'.trace niter reverse rv') := by
  obtain ⟨o', h1, h2⟩ := withGlobalRotation_moved R.fin ctr.fin (cs.map (·.fin)) o hw
  refine ⟨o', h1, fun rv rv' h => ?_⟩
  have hns := rotate_noSkip _ _ _ o o' h1
  have hfr : ∀ c : CoordSys ℝ, (fun c : CoordSys Dbl => c.rotateGlobal R.fin ctr.fin (cs.map (·.fin))) c.fin =
      ((Motion.about R ((cs.getD (CoordSys.std ℝ)).toGlobal ctr)).frame c).fin := by
    intro c
    show (⟨R.fin.mulVec (c.fin.origin - ((cs.map (·.fin)).getD (CoordSys.std Dbl)).toGlobal ctr.fin) +
      ((cs.map (·.fin)).getD (CoordSys.std Dbl)).toGlobal ctr.fin, R.fin.mul c.fin.rot⟩ : CoordSys Dbl) = _
    rw [centre_fin, Motion.frame, Motion.about_point, rotateAbout, CoordSys.fin]
    simp [CoordSys.fin, Motion.about]
  exact trace_moved hR hfr niter reverse o o' h2 hf (sameSkip_of o o' h2 hs hns) rv rv' h

/-! ### A concrete case -/

/-- A telescope of three flats. -/
noncomputable def demoThreeFlats : Optic Dbl :=
  demoComp "T" [.iface (demoFlat "A" 0), .iface (demoFlat "B" 1), .iface (demoFlat "C" 2)]

/-- A telescope of three flats shifted by 5 along z together with a ray. -/
example : ∃ o', demoThreeFlats.withGlobalShift (V3.fin ⟨0, 0, 5⟩) = .ok o' ∧
    MovedRays ⟨M3.one, ⟨0, 0, 5⟩⟩ (demoThreeFlats.trace 5 false ⟨[demoRay ⟨3 / 5, 0, -4 / 5⟩], (CoordSys.std ℝ).fin⟩)
      (o'.trace 5 false ⟨[{ demoRay ⟨3 / 5, 0, -4 / 5⟩ with r := V3.fin ⟨1, 2, 9⟩ }], (CoordSys.std ℝ).fin⟩) := by
  obtain ⟨o', h1, h2⟩ := C53_shift 5 false demoThreeFlats
    (by simp [demoThreeFlats, demoComp, WellFormed, WellFormedItems, demoFlat])
    (by
      refine ⟨⟨_, rfl, isRotation_one⟩, ⟨_, rfl, isRotation_one⟩, ⟨_, rfl, isRotation_one⟩, trivial⟩)
    (by simp [demoThreeFlats, demoComp, NoSkip, NoSkipItems, demoFlat, demoMirror])
    ⟨0, 0, 5⟩
  refine ⟨o', h1, h2 _ _ ⟨CoordSys.std ℝ, CoordSys.std ℝ, isRotation_one, isRotation_one, rfl, rfl, .cons ?_ .nil⟩⟩
  refine ⟨rfl, rfl, rfl, rfl, rfl, by simp [demoRay], fun _ => .inl ⟨_, _, _, _, rfl, rfl, rfl, rfl, ?_, ?_⟩⟩
  · simp only [CoordSys.toGlobal, Motion.point, CoordSys.std]
    ext <;> simp [M3.mulVec, M3.one]; norm_num
  · simp only [Motion.vec, CoordSys.std]
    ext <;> simp [M3.mulVec, M3.one]

/-- A skipped flat at the origin. -/
noncomputable def demoSkipped : Iface Dbl where
  kind := .detector
  name := "A".toList
  surface := Surface.plane
  obscuration := none
  coordSys := (CoordSys.std ℝ).fin
  inMedium := ⟨fun _ => Dbl.fin 1⟩
  outMedium := ⟨fun _ => Dbl.fin 1⟩
  skip := true
  forwardCoating := none
  reverseCoating := none
  stop := none

/-- C53 fails for `withGlobalShift` of a telescope with a skipped item, because the copy is not skipped (see C55): moved by
nothing at all, the telescope gives another arrival time. -/
theorem C53_skipped_violated : ∃ (o o' : Optic Dbl) (rv : RayVec Dbl), FramesOk o ∧ WellFormed o ∧
    o.withGlobalShift (V3.fin ⟨0, 0, 0⟩) = .ok o' ∧ MovedRays ⟨M3.one, ⟨0, 0, 0⟩⟩ rv rv ∧
    ¬ MovedRays ⟨M3.one, ⟨0, 0, 0⟩⟩ (o.trace 5 false rv) (o'.trace 5 false rv) := by
  have hw : WellFormed (demoComp "T" [.iface demoSkipped]) := by
    simp [demoComp, WellFormed, WellFormedItems, demoSkipped]
  obtain ⟨o', ho', hm⟩ := withGlobalShift_moved (V3.fin ⟨0, 0, 0⟩) _ hw
  have hns := shift_noSkip _ _ _ ho'
  refine ⟨demoComp "T" [.iface demoSkipped], o', ⟨[demoRay ⟨3 / 5, 0, -4 / 5⟩], (CoordSys.std ℝ).fin⟩,
    ⟨⟨_, rfl, isRotation_one⟩, trivial⟩, hw, ho', ?_, ?_⟩
  · refine ⟨CoordSys.std ℝ, CoordSys.std ℝ, isRotation_one, isRotation_one, rfl, rfl, .cons ?_ .nil⟩
    refine ⟨rfl, rfl, rfl, rfl, rfl, by simp [demoRay], fun _ => .inl ⟨_, _, _, _, rfl, rfl, rfl, rfl, ?_, ?_⟩⟩
    · simp only [CoordSys.toGlobal, Motion.point, CoordSys.std]
      ext <;> simp [M3.mulVec, M3.one]
    · simp only [Motion.vec, CoordSys.std]
      ext <;> simp [M3.mulVec, M3.one]
  · rintro ⟨c, c', _, _, _, _, h⟩
    rcases o' with d' | ⟨d', _ | ⟨⟨e⟩ | _, _ | _⟩⟩
    · cases hm
    · cases hm.2
    · obtain ⟨he, -⟩ := hm.2
      have he : MovedIface _ demoSkipped e := he
      have hsk : e.skip = false := hns.2.1
      have hc : e.coordSys = (CoordSys.std ℝ).fin := by
        rw [he.coordSys]
        simp [demoSkipped, CoordSys.fin, CoordSys.std]
        ext <;> simp
      have hk : e.kind = .detector := he.kind
      have hu : e.surface = Surface.plane := he.surface
      have ho : e.obscuration = none := he.obscuration
      have h0 : (Optic.trace 5 false (demoComp "T" [.iface demoSkipped])
          ⟨[demoRay ⟨3 / 5, 0, -4 / 5⟩], (CoordSys.std ℝ).fin⟩).rays = [demoRay ⟨3 / 5, 0, -4 / 5⟩] := by
        simp [demoComp, Optic.trace, Optic.traceItems, Optic.skip, demoSkipped]
      have hh := demo_hit (v := ⟨3 / 5, 0, -4 / 5⟩) (by norm_num)
      have h1 : (Optic.trace 5 false (.compound d' [.iface e])
          ⟨[demoRay ⟨3 / 5, 0, -4 / 5⟩], (CoordSys.std ℝ).fin⟩).rays
            = [Ray.intersect Surface.plane (CoordTransform.make (CoordSys.std ℝ).fin (CoordSys.std ℝ).fin) none 5
              (demoRay ⟨3 / 5, 0, -4 / 5⟩)] := by
        simp only [Optic.trace, Optic.traceItems, Optic.skip, hsk, Bool.false_eq_true, if_false, Iface.trace]
        rw [interact_rays, applyObscuration_eq, hc]
        simp only [ho, List.map_cons, List.map_nil, Iface.onRay, hk, hu]
      rw [h0, h1] at h
      cases h with
      | cons h _ =>
        have ht := h.t
        simp only [Ray.intersect, hh.live, hh.pos, hh.vel, hh.time, Bool.false_eq_true, if_false] at ht
        simp only [demoRay, Dbl.add_fin, Dbl.fin_inj] at ht
        norm_num at ht
    · cases hm.2.2
    · cases hm.2.1
    · cases hm.2.1

end Batoid.Props
