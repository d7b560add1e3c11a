import Verif.Props.Routes
import Verif.Props.Ghosts
import Mathlib.Data.List.Forall2

/-!
# Property C110: the beams of `traceSplit` are those of `trace` along their paths

Specification vocabulary: two rays show the same spot when they agree in position, time and wavelength.  `unlit` forgets the
flux, the only thing in which splitting and tracing differ.
-/

namespace Batoid.Props
open Batoid

section spec

/-- The ray apart from its flux. -/
noncomputable def unlit (ray : Ray Dbl) : Ray Dbl := { ray with flux := 0 }

/-- Same position, time and wavelength. -/
def SameSpot (x y : Ray Dbl) : Prop := x.r = y.r ∧ x.t = y.t ∧ x.wavelength = y.wavelength

/-- A ray that has not failed, with real position and real velocity other than zero, and a wavelength in `W`. -/
def Sharp (W : Set Dbl) (ray : Ray Dbl) : Prop :=
  ray.failed = false ∧ ray.wavelength ∈ W ∧ ∃ r v : V3 ℝ, ray.r = r.fin ∧ ray.v = v.fin ∧ v ≠ ⟨0, 0, 0⟩

/-- An interface with an orthonormal frame, a surface whose normals are unit vectors wherever it is met, and positive refractive
indices at the wavelengths `W`. -/
structure Crisp (W : Set Dbl) (d : Iface Dbl) : Prop where
  frame : ∃ cs : CoordSys ℝ, cs.rot.Orth ∧ d.coordSys = cs.fin
  meet : ∀ (niter : ℕ) (r v : V3 ℝ), v ≠ ⟨0, 0, 0⟩ → (d.surface.timeToIntersect r.fin v.fin 0 niter).1 = true →
    ∃ (dt : ℝ) (n : V3 ℝ), (d.surface.timeToIntersect r.fin v.fin 0 niter).2 = .fin dt ∧
      d.surface.normal (.fin (r + v.smulR dt).x) (.fin (r + v.smulR dt).y) = n.fin ∧ IsUnit' n
  media : ∀ w ∈ W, (∃ n : ℝ, 0 < n ∧ d.inMedium.getN w = .fin n) ∧ ∃ n : ℝ, 0 < n ∧ d.outMedium.getN w = .fin n

/-- The rays `a`, all of them sharp, are some of the rays `b` in the same order and the same frame, up to their fluxes. -/
def Followed (W : Set Dbl) (a b : RayVec Dbl) : Prop :=
  (∃ cs : CoordSys ℝ, cs.rot.Orth ∧ a.coordSys = cs.fin) ∧ b.coordSys = a.coordSys ∧
    List.SublistForall₂ (fun x y => Sharp W x ∧ unlit x = unlit y) a.rays b.rays

/-- The rays `a` show some of the spots of `b`, in the same order and the same frame. -/
def SpotsOf (a b : RayVec Dbl) : Prop := b.coordSys = a.coordSys ∧ List.SublistForall₂ SameSpot a.rays b.rays

end spec

section rays
variable {W : Set Dbl} {niter : ℕ} {m : Dbl}

theorem unlit_iff {x y : Ray Dbl} : unlit x = unlit y ↔ ∃ q, y = { x with flux := q } := by
  constructor
  · intro h
    refine ⟨y.flux, ?_⟩
    obtain ⟨a, b, c, d, e, f, g⟩ := x
    obtain ⟨a', b', c', d', e', f', g'⟩ := y
    simp only [unlit, Ray.mk.injEq] at h
    obtain ⟨rfl, rfl, rfl, rfl, -, rfl, rfl⟩ := h
    rfl
  · rintro ⟨q, rfl⟩
    rfl

theorem shadow_map {R R' : Ray Dbl → Ray Dbl → Prop} {g g' : Ray Dbl → Ray Dbl} {P : Ray Dbl → Bool}
    (hg : ∀ x y, R x y → P (g x) = true → R' (g x) (g' y)) {a b : List (Ray Dbl)} (h : List.SublistForall₂ R a b) :
    List.SublistForall₂ R' ((a.map g).filter P) (b.map g') := by
  induction h with
  | nil => exact .nil
  | cons hr _ ih =>
    rw [List.map_cons, List.map_cons, List.filter_cons]
    split
    · rename_i hp
      exact .cons (hg _ _ hr hp) ih
    · exact .cons_right ih
  | cons_right _ ih => exact .cons_right ih

/-- What the obscuration of an interface does to a ray. -/
noncomputable def shade (d : Iface Dbl) (ray : Ray Dbl) : Ray Dbl :=
  match d.obscuration with
  | none => ray
  | some o => ray.obscure o

theorem applyObscuration_map (d : Iface Dbl) (rv : RayVec Dbl) :
    d.applyObscuration rv = ⟨rv.rays.map (shade d), rv.coordSys⟩ := by
  unfold Iface.applyObscuration
  cases h : d.obscuration with
  | none =>
    have : shade d = id := by funext ray; simp [shade, h]
    simp [this]
  | some o =>
    have : shade d = Ray.obscure o := by funext ray; simp [shade, h]
    simp [this, RayVec.obscure]

theorem shade_keeps (d : Iface Dbl) (ray : Ray Dbl) : shade d ray = { ray with vignetted := (shade d ray).vignetted } ∧
    (ray.vignetted = true → (shade d ray).vignetted = true) := by
  unfold shade
  cases d.obscuration with
  | none => simp
  | some o => simp only [Ray.obscure, true_and]; intro h; simp [h]

theorem shade_unlit (d : Iface Dbl) {x y : Ray Dbl} (h : unlit x = unlit y) : unlit (shade d x) = unlit (shade d y) := by
  obtain ⟨q, rfl⟩ := unlit_iff.1 h
  unfold shade
  cases d.obscuration <;> rfl

theorem shade_sharp (d : Iface Dbl) {x : Ray Dbl} (h : Sharp W x) : Sharp W (shade d x) := by
  rw [(shade_keeps d x).1]
  exact h

theorem shade_dark (d : Iface Dbl) {x : Ray Dbl} (h : x.vignetted = true) : bright m (shade d x) = false := by
  simp [bright, (shade_keeps d x).2 h]

/-- A sharp ray that is said to meet a crisp interface does. -/
theorem sharp_hit {d : Iface Dbl} (hd : Crisp W d) {cs : CoordSys ℝ} (hcs : cs.rot.Orth) {x : Ray Dbl} (hx : Sharp W x)
    (hm : (d.surface.timeToIntersect ((CoordTransform.make cs.fin d.coordSys).forward x.r)
      ((CoordTransform.make cs.fin d.coordSys).forwardVel x.v) 0 niter).1 = true) :
    ∃ (r v n : V3 ℝ) (dt : ℝ), Hit d.surface (CoordTransform.make cs.fin d.coordSys) niter x r v n dt ∧ v ≠ ⟨0, 0, 0⟩ ∧
      IsUnit' n := by
  obtain ⟨ce, hce, he⟩ := hd.frame
  obtain ⟨hl, -, r, v, hr, hv, hv0⟩ := hx
  rw [he, hr, hv, CoordTransform.forward_fin, CoordTransform.forwardVel_fin] at hm
  have hne : (CoordTransform.make cs ce).forwardVel v ≠ ⟨0, 0, 0⟩ := by
    intro h0
    apply hv0
    rw [CoordSys.forwardVel_eq] at h0
    have h1 : ce.rot.mulVec (ce.rot.tr.mulVec (cs.rot.mulVec v)) = ce.rot.mulVec ⟨0, 0, 0⟩ := by rw [h0]
    rw [hce.mulVec_tr] at h1
    have h2 : cs.rot.tr.mulVec (cs.rot.mulVec v) = cs.rot.tr.mulVec (ce.rot.mulVec ⟨0, 0, 0⟩) := by rw [h1]
    rw [hcs.tr_mulVec] at h2
    rw [h2]
    simp [M3.mulVec, V3.dot]
  obtain ⟨dt, n, h1, h2, h3⟩ := hd.meet niter _ _ hne hm
  refine ⟨(CoordTransform.make cs ce).forward r, (CoordTransform.make cs ce).forwardVel v, n, dt,
    ⟨hl, ?_, ?_, ?_, h2⟩, hne, h3⟩
  · rw [he, hr, CoordTransform.forward_fin]
  · rw [he, hv, CoordTransform.forwardVel_fin]
  · exact Prod.ext hm h1

theorem reflect_unlit (s : Surface Dbl) (ct : CoordTransform Dbl) (x : Ray Dbl) (q : Dbl) :
    unlit (Ray.reflect s ct none niter x) = unlit (Ray.reflect s ct none niter { x with flux := q }) := by
  unfold Ray.reflect
  simp only
  split
  · rfl
  · split <;> rfl

theorem intersect_unlit (s : Surface Dbl) (ct : CoordTransform Dbl) (x : Ray Dbl) (q : Dbl) :
    unlit (Ray.intersect s ct none niter x) = unlit (Ray.intersect s ct none niter { x with flux := q }) := by
  unfold Ray.intersect
  simp only
  split
  · rfl
  · split <;> rfl

theorem refract_unlit (s : Surface Dbl) (ct : CoordTransform Dbl) (m2 : Medium Dbl) (c : Option (Coating Dbl)) (x : Ray Dbl) (q : Dbl) :
    unlit (Ray.refract s ct m2 c niter x) = unlit (Ray.refract s ct m2 none niter { x with flux := q }) := by
  unfold Ray.refract
  simp only
  split
  · rfl
  · split
    · rfl
    · split <;> rfl

/-- The reflected ray of `rSplit` is that of `reflect`. -/
theorem split_reflect {s : Surface Dbl} {ct : CoordTransform Dbl} {x : Ray Dbl} {r v n : V3 ℝ} {dt : ℝ}
    (h : Hit s ct niter x r v n dt) (hv : v ≠ ⟨0, 0, 0⟩) (m2 : Medium Dbl) (c : Coating Dbl) :
    unlit (Ray.rSplit s ct m2 c niter x).2 = unlit (Ray.reflect s ct none niter x) := by
  obtain ⟨h1, h2, h3, h4, h5⟩ := C15_reflected_position s ct m2 c none niter x
  have h6 := C15_reflected_velocity h hv m2 c none
  unfold unlit
  rw [Ray.mk.injEq]
  exact ⟨h1, h6, h2, h3, rfl, h4, h5⟩

theorem sharp_unlit {x y : Ray Dbl} (h : unlit x = unlit y) (hx : Sharp W x) : Sharp W y := by
  obtain ⟨q, rfl⟩ := unlit_iff.1 h
  exact hx

theorem reflect_sharp {s : Surface Dbl} {ct : CoordTransform Dbl} {x : Ray Dbl} {r v n : V3 ℝ} {dt : ℝ}
    (h : Hit s ct niter x r v n dt) (hv : v ≠ ⟨0, 0, 0⟩) (hn : IsUnit' n) (hw : x.wavelength ∈ W) :
    Sharp W (Ray.reflect s ct none niter x) := by
  obtain ⟨u, h1, h2, h3, -⟩ := C08_law_of_reflection h hn none
  obtain ⟨g1, -, -, -, -, g2⟩ := reflect_hit h none
  refine ⟨h2, by rw [g2]; exact hw, _, u, g1, h1, ?_⟩
  rintro rfl
  have := speed_pos hv
  rw [← h3] at this
  simp [speed, V3.dot] at this

theorem intersect_sharp {s : Surface Dbl} {ct : CoordTransform Dbl} {x : Ray Dbl} {r v n : V3 ℝ} {dt : ℝ}
    (h : Hit s ct niter x r v n dt) (hv : v ≠ ⟨0, 0, 0⟩) (hw : x.wavelength ∈ W) :
    Sharp W (Ray.intersect s ct none niter x) := by
  unfold Ray.intersect
  simp only [h.live, h.pos, h.vel, h.time, Bool.false_eq_true, if_false]
  exact ⟨rfl, hw, r + v.smulR dt, v, by simp, rfl, hv⟩

theorem refract_sharp {s : Surface Dbl} {ct : CoordTransform Dbl} {x : Ray Dbl} {r v n : V3 ℝ} {dt n2 : ℝ}
    (h : Hit s ct niter x r v n dt) (hv : v ≠ ⟨0, 0, 0⟩) (hn : IsUnit' n) (h2 : 0 < n2) (m2 : Medium Dbl)
    (hm : m2.getN x.wavelength = Dbl.fin n2) (c : Option (Coating Dbl)) (hw : x.wavelength ∈ W) :
    (Ray.refract s ct m2 c niter x).vignetted = true ∨ Sharp W (Ray.refract s ct m2 c niter x) := by
  obtain ⟨g1, g2, g3, g4⟩ := refract_hit h hv hn h2 m2 hm c
  by_cases hs : 1 < snellSin2 n2 n v
  · rw [if_pos hs] at g4
    exact .inl g4.2
  · rw [if_neg hs] at g4
    refine .inr ⟨g4.2.1, by rw [g3]; exact hw, _, _, g1, g4.1, ?_⟩
    intro h0
    have := refractR_normSq hv hn h2 (not_lt.1 hs)
    rw [h0] at this
    have hp : 0 < (1 / n2) * (1 / n2) := by positivity
    rw [← this] at hp
    simp [V3.dot] at hp

/-- Rays that miss are not followed. -/
theorem miss_dark (s : Surface Dbl) (ct : CoordTransform Dbl) (m2 : Medium Dbl) (c : Coating Dbl) {x : Ray Dbl} (hl : x.failed = false)
    (hm : ¬ (s.timeToIntersect (ct.forward x.r) (ct.forwardVel x.v) 0 niter).1 = true) :
    (Ray.rSplit s ct m2 c niter x).1.vignetted = true ∧ (Ray.rSplit s ct m2 c niter x).2.vignetted = true ∧
    (Ray.reflect s ct none niter x).vignetted = true ∧ (Ray.intersect s ct none niter x).vignetted = true := by
  have hm' := Bool.eq_false_iff.2 hm
  obtain ⟨h1, h2⟩ := C15_miss_fails_both s ct m2 c niter x hl hm'
  refine ⟨by rw [h1], by rw [h2], ?_, ?_⟩
  · unfold Ray.reflect
    simp only [hl]
    rcases h : s.timeToIntersect (ct.forward x.r) (ct.forwardVel x.v) 0 niter with ⟨b, dt⟩
    rw [h] at hm'
    simp only at hm'
    subst hm'
    simp [Ray.markFailed]
  · unfold Ray.intersect
    simp only [hl]
    rcases h : s.timeToIntersect (ct.forward x.r) (ct.forwardVel x.v) 0 niter with ⟨b, dt⟩
    rw [h] at hm'
    simp only at hm'
    subst hm'
    simp [Ray.markFailed]

/-- One leg of a route against one step of a trace, given what the two do to each ray. -/
theorem follow_kernel {d : Iface Dbl} {a b : RayVec Dbl} (hd : Crisp W d) (hF : Followed W a b)
    {k k' : CoordTransform Dbl → Ray Dbl → Ray Dbl}
    (hk : ∀ cs : CoordSys ℝ, cs.rot.Orth → ∀ x q, Sharp W x →
      (k (CoordTransform.make cs.fin d.coordSys) x).vignetted = true ∨
      Sharp W (k (CoordTransform.make cs.fin d.coordSys) x) ∧ unlit (k (CoordTransform.make cs.fin d.coordSys) x) =
        unlit (k' (CoordTransform.make cs.fin d.coordSys) { x with flux := q })) :
    Followed W ⟨(d.applyObscuration (a.runKernel (some d.coordSys) k)).rays.filter (bright m),
        (d.applyObscuration (a.runKernel (some d.coordSys) k)).coordSys⟩
      (d.applyObscuration (b.runKernel (some d.coordSys) k')) := by
  obtain ⟨⟨cs, hcs, hac⟩, hbc, hs⟩ := hF
  rw [applyObscuration_map, applyObscuration_map]
  refine ⟨hd.frame, rfl, ?_⟩
  simp only [RayVec.runKernel, RayVec.target, Option.getD_some, List.map_map, hbc, hac]
  refine shadow_map ?_ hs
  rintro x y ⟨hx, hxy⟩ hp
  obtain ⟨q, rfl⟩ := unlit_iff.1 hxy
  rcases hk cs hcs x q hx with h | ⟨h1, h2⟩
  · simp only [Function.comp] at hp
    rw [shade_dark d h] at hp
    cases hp
  · exact ⟨shade_sharp d h1, shade_unlit d h2⟩

theorem spots_kernel {d : Iface Dbl} {a b : RayVec Dbl} (hF : Followed W a b)
    {k k' : CoordTransform Dbl → Ray Dbl → Ray Dbl}
    (hk : ∀ cs : CoordSys ℝ, cs.rot.Orth → ∀ x q, Sharp W x →
      (k (CoordTransform.make cs.fin d.coordSys) x).vignetted = true ∨
      SameSpot (k (CoordTransform.make cs.fin d.coordSys) x) (k' (CoordTransform.make cs.fin d.coordSys) { x with flux := q })) :
    SpotsOf ⟨(d.applyObscuration (a.runKernel (some d.coordSys) k)).rays.filter (bright m),
        (d.applyObscuration (a.runKernel (some d.coordSys) k)).coordSys⟩
      (d.applyObscuration (b.runKernel (some d.coordSys) k')) := by
  obtain ⟨⟨cs, hcs, hac⟩, hbc, hs⟩ := hF
  rw [applyObscuration_map, applyObscuration_map]
  refine ⟨rfl, ?_⟩
  simp only [RayVec.runKernel, RayVec.target, Option.getD_some, List.map_map, hbc, hac]
  refine shadow_map ?_ hs
  rintro x y ⟨hx, hxy⟩ hp
  obtain ⟨q, rfl⟩ := unlit_iff.1 hxy
  rcases hk cs hcs x q hx with h | h1
  · simp only [Function.comp] at hp
    rw [shade_dark d h] at hp
    cases hp
  · obtain ⟨e1, e2, e3⟩ := h1
    have g1 := (shade_keeps d (k (CoordTransform.make cs.fin d.coordSys) x)).1
    have g2 := (shade_keeps d (k' (CoordTransform.make cs.fin d.coordSys) { x with flux := q })).1
    simp only [Function.comp]
    rw [g1, g2]
    exact ⟨e1, e2, e3⟩

/-- One leg of a route against the step of `trace` along a path. -/
theorem leg_follow {d : Iface Dbl} (hd : Crisp W d) {back refl : Bool} {a a' b : RayVec Dbl}
    (hleg : Leg niter m d back refl a a') (hF : Followed W a b) (hdet : d.kind = .detector → refl = true) :
    Followed W a' (if refl = d.isMirror then d.trace niter back b else (asMirror d).trace niter back b) := by
  obtain ⟨s, out, h1, h2, rfl, -⟩ := hleg
  have hsplit : ∀ (m2 : Medium Dbl) (c : Coating Dbl) (cs : CoordSys ℝ), cs.rot.Orth → ∀ x q, Sharp W x →
      (Ray.rSplit d.surface (CoordTransform.make cs.fin d.coordSys) m2 c niter x).2.vignetted = true ∨
      Sharp W (Ray.rSplit d.surface (CoordTransform.make cs.fin d.coordSys) m2 c niter x).2 ∧
      unlit (Ray.rSplit d.surface (CoordTransform.make cs.fin d.coordSys) m2 c niter x).2 =
        unlit (Ray.reflect d.surface (CoordTransform.make cs.fin d.coordSys) none niter { x with flux := q }) := by
    intro m2 c cs hcs x q hx
    by_cases hm : (d.surface.timeToIntersect ((CoordTransform.make cs.fin d.coordSys).forward x.r)
      ((CoordTransform.make cs.fin d.coordSys).forwardVel x.v) 0 niter).1 = true
    · obtain ⟨r, v, n, dt, hh, hv, hn⟩ := sharp_hit hd hcs hx hm
      have e := split_reflect hh hv m2 c
      exact .inr ⟨sharp_unlit e.symm (reflect_sharp hh hv hn hx.2.1), e.trans (reflect_unlit _ _ _ _)⟩
    · exact .inl (miss_dark _ _ m2 c hx.1 hm).2.1
  have hrefl : ∀ (cs : CoordSys ℝ), cs.rot.Orth → ∀ x q, Sharp W x →
      (Ray.reflect d.surface (CoordTransform.make cs.fin d.coordSys) none niter x).vignetted = true ∨
      Sharp W (Ray.reflect d.surface (CoordTransform.make cs.fin d.coordSys) none niter x) ∧
      unlit (Ray.reflect d.surface (CoordTransform.make cs.fin d.coordSys) none niter x) =
        unlit (Ray.reflect d.surface (CoordTransform.make cs.fin d.coordSys) none niter { x with flux := q }) := by
    intro cs hcs x q hx
    by_cases hm : (d.surface.timeToIntersect ((CoordTransform.make cs.fin d.coordSys).forward x.r)
      ((CoordTransform.make cs.fin d.coordSys).forwardVel x.v) 0 niter).1 = true
    · obtain ⟨r, v, n, dt, hh, hv, hn⟩ := sharp_hit hd hcs hx hm
      exact .inr ⟨reflect_sharp hh hv hn hx.2.1, reflect_unlit _ _ _ _⟩
    · exact .inl (miss_dark _ _ d.inMedium (.simple 0 1) hx.1 hm).2.2.1
  have hinter : ∀ (cs : CoordSys ℝ), cs.rot.Orth → ∀ x q, Sharp W x →
      (Ray.intersect d.surface (CoordTransform.make cs.fin d.coordSys) none niter x).vignetted = true ∨
      Sharp W (Ray.intersect d.surface (CoordTransform.make cs.fin d.coordSys) none niter x) ∧
      unlit (Ray.intersect d.surface (CoordTransform.make cs.fin d.coordSys) none niter x) =
        unlit (Ray.intersect d.surface (CoordTransform.make cs.fin d.coordSys) none niter { x with flux := q }) := by
    intro cs hcs x q hx
    by_cases hm : (d.surface.timeToIntersect ((CoordTransform.make cs.fin d.coordSys).forward x.r)
      ((CoordTransform.make cs.fin d.coordSys).forwardVel x.v) 0 niter).1 = true
    · obtain ⟨r, v, n, dt, hh, hv, hn⟩ := sharp_hit hd hcs hx hm
      exact .inr ⟨intersect_sharp hh hv hx.2.1, intersect_unlit _ _ _ _⟩
    · exact .inl (miss_dark _ _ d.inMedium (.simple 0 1) hx.1 hm).2.2.2
  have hrefr : ∀ (m2 : Medium Dbl), (∀ w ∈ W, ∃ n : ℝ, 0 < n ∧ m2.getN w = .fin n) → ∀ (c : Coating Dbl) (cs : CoordSys ℝ),
      cs.rot.Orth → ∀ x q, Sharp W x →
      (Ray.rSplit d.surface (CoordTransform.make cs.fin d.coordSys) m2 c niter x).1.vignetted = true ∨
      Sharp W (Ray.rSplit d.surface (CoordTransform.make cs.fin d.coordSys) m2 c niter x).1 ∧
      unlit (Ray.rSplit d.surface (CoordTransform.make cs.fin d.coordSys) m2 c niter x).1 =
        unlit (Ray.refract d.surface (CoordTransform.make cs.fin d.coordSys) m2 none niter { x with flux := q }) := by
    intro m2 hm2 c cs hcs x q hx
    by_cases hm : (d.surface.timeToIntersect ((CoordTransform.make cs.fin d.coordSys).forward x.r)
      ((CoordTransform.make cs.fin d.coordSys).forwardVel x.v) 0 niter).1 = true
    · obtain ⟨r, v, n, dt, hh, hv, hn⟩ := sharp_hit hd hcs hx hm
      obtain ⟨n2, hn2, hg⟩ := hm2 _ hx.2.1
      rw [C15_refracted_is_refract]
      rcases refract_sharp hh hv hn hn2 m2 hg (some c) hx.2.1 with h | h
      · exact .inl h
      · exact .inr ⟨h, refract_unlit _ _ _ _ _ _⟩
    · exact .inl (miss_dark _ _ m2 c hx.1 hm).1
  unfold Iface.rSplit at h1
  cases hkd : d.kind with
  | refractive =>
    have him : d.isMirror = false := by simp [Iface.isMirror, hkd]
    simp only [hkd] at h1
    rw [him]
    cases hc : (if back then d.forwardCoating else d.reverseCoating) with
    | none => rw [hc] at h1; cases h1
    | some c =>
      rw [hc] at h1
      cases refl with
      | true =>
        rw [if_neg (by simp)]
        cases h1
        simp only [if_true, Option.some_inj] at h2
        subst h2
        cases back with
        | false => exact follow_kernel hd hF (k := fun ct ray => (Ray.rSplit d.surface ct d.outMedium c niter ray).2) (k' := fun ct ray => Ray.reflect d.surface ct none niter ray) (hsplit d.outMedium c)
        | true => exact follow_kernel hd hF (k := fun ct ray => (Ray.rSplit d.surface ct d.inMedium c niter ray).2) (k' := fun ct ray => Ray.reflect d.surface ct none niter ray) (hsplit d.inMedium c)
      | false =>
        rw [if_pos rfl]
        cases h1
        simp only [Bool.false_eq_true, if_false, Option.some_inj] at h2
        subst h2
        unfold Iface.trace Iface.interact
        simp only [hkd]
        cases back with
        | false => exact follow_kernel hd hF (k := fun ct ray => (Ray.rSplit d.surface ct d.outMedium c niter ray).1) (k' := fun ct ray => Ray.refract d.surface ct d.outMedium none niter ray) (hrefr d.outMedium (fun w hw => (hd.media w hw).2) c)
        | true => exact follow_kernel hd hF (k := fun ct ray => (Ray.rSplit d.surface ct d.inMedium c niter ray).1) (k' := fun ct ray => Ray.refract d.surface ct d.inMedium none niter ray) (hrefr d.inMedium (fun w hw => (hd.media w hw).1) c)
  | mirror =>
    have him : d.isMirror = true := by simp [Iface.isMirror, hkd]
    simp only [hkd] at h1
    cases h1
    cases refl with
    | false => simp at h2
    | true =>
      rw [if_pos him.symm]
      simp only [if_true, Option.some_inj] at h2
      subst h2
      unfold Iface.trace Iface.interact
      simp only [hkd]
      exact follow_kernel hd hF hrefl
  | detector =>
    have him : d.isMirror = false := by simp [Iface.isMirror, hkd]
    have hr := hdet hkd
    subst hr
    simp only [hkd] at h1
    rw [if_neg (by rw [him]; simp)]
    cases back with
    | true => simp at h1
    | false =>
      simp only [Bool.false_eq_true, if_false] at h1
      cases hc : d.forwardCoating with
      | none => rw [hc] at h1; cases h1
      | some c =>
        rw [hc] at h1
        cases h1
        simp only [if_true, Option.some_inj] at h2
        subst h2
        exact follow_kernel hd hF (k := fun ct ray => (Ray.rSplit d.surface ct d.outMedium c niter ray).2) (k' := fun ct ray => Ray.reflect d.surface ct none niter ray) (hsplit d.outMedium c)
  | baffle =>
    have him : d.isMirror = false := by simp [Iface.isMirror, hkd]
    simp only [hkd] at h1
    cases h1
    cases refl with
    | true => simp at h2
    | false =>
      rw [if_pos him.symm]
      simp only [Bool.false_eq_true, if_false, Option.some_inj] at h2
      subst h2
      unfold Iface.trace Iface.interact
      simp only [hkd]
      exact follow_kernel hd hF hinter
  | screen s' => simp only [hkd] at h1; cases h1
  | plain => simp only [hkd] at h1; cases h1

/-- The last leg, through a detector. -/
theorem leg_detector {d : Iface Dbl} (hd : Crisp W d) {back : Bool} {a a' b : RayVec Dbl}
    (hleg : Leg niter m d back false a a') (hF : Followed W a b) (hk : d.kind = .detector) : SpotsOf a' (d.trace niter back b) := by
  obtain ⟨s, out, h1, h2, rfl, -⟩ := hleg
  unfold Iface.rSplit at h1
  simp only [hk] at h1
  cases back with
  | true => simp at h1
  | false =>
    simp only [Bool.false_eq_true, if_false] at h1
    cases hc : d.forwardCoating with
    | none => rw [hc] at h1; cases h1
    | some c =>
      rw [hc] at h1
      cases h1
      simp only [Bool.false_eq_true, if_false, Option.some_inj] at h2
      subst h2
      unfold Iface.trace Iface.interact
      simp only [hk]
      refine spots_kernel hF (d := d) (k := fun ct ray => (Ray.rSplit d.surface ct d.outMedium c niter ray).1) (k' := fun ct ray => Ray.intersect d.surface ct none niter ray) ?_
      intro cs hcs x q hx
      by_cases hm : (d.surface.timeToIntersect ((CoordTransform.make cs.fin d.coordSys).forward x.r)
        ((CoordTransform.make cs.fin d.coordSys).forwardVel x.v) 0 niter).1 = true
      · right
        obtain ⟨r, v, n, dt, hh, hv, hn⟩ := sharp_hit hd hcs hx hm
        obtain ⟨n2, hn2, hg⟩ := (hd.media _ hx.2.1).2
        rw [C15_refracted_is_refract]
        obtain ⟨g1, g2, g3, -⟩ := refract_hit hh hv hn hn2 d.outMedium hg (some c)
        refine ⟨?_, ?_, ?_⟩
        · rw [g1]; unfold Ray.intersect; simp only [hh.live, hh.pos, hh.vel, hh.time]; simp
        · rw [g2]; unfold Ray.intersect; simp only [hh.live, hh.pos, hh.vel, hh.time]; simp
        · rw [g3]; unfold Ray.intersect; simp only [hh.live, hh.pos, hh.vel, hh.time]; simp
      · exact .inl (miss_dark _ _ d.outMedium c hx.1 hm).1

theorem followed_spots {a b : RayVec Dbl} (h : Followed W a b) : SpotsOf a b := by
  obtain ⟨-, h2, h3⟩ := h
  refine ⟨h2, ?_⟩
  generalize a.rays = A at h3
  generalize b.rays = B at h3
  induction h3 with
  | nil => exact .nil
  | cons hr _ ih =>
    obtain ⟨-, hu⟩ := hr
    obtain ⟨q, rfl⟩ := unlit_iff.1 hu
    exact .cons ⟨rfl, rfl, rfl⟩ ih
  | cons_right _ ih => exact .cons_right ih

end rays

section walks
variable {W : Set Dbl} {niter : ℕ} {m : Dbl}

theorem ghost_two (f : ℕ → Iface Dbl) (back : Bool) (k k' : ℕ) (ks : List ℕ) (rv : RayVec Dbl) :
    ghost niter f back (k :: k' :: ks) rv = ghost niter f (decide (k' < k)) (k' :: ks)
      (if back = decide (k' < k) then (f k).trace niter back rv else (asMirror (f k)).trace niter back rv) := rfl

/-- What is known of a route that is under way. -/
def Stretch (niter : ℕ) (W : Set Dbl) (f : ℕ → Iface Dbl) (n k : ℕ) (back : Bool) (rv : RayVec Dbl) (w : Events) (rv1 : RayVec Dbl) :
    Prop :=
  ∃ ks : List ℕ, Walk k ks ∧ (∀ j ∈ k :: ks, j < n) ∧ w.map Prod.fst = (k :: ks).map (fun j => (f j).name) ∧
    ∀ b, Followed W rv b → SpotsOf rv1 (ghost niter f back (k :: ks) b)

/-- The interface reached next on a route under way. -/
theorem route_stretch {L : List (Iface Dbl)} (f : ℕ → Iface Dbl) (hf : ∀ k (h : k < L.length), f k = L[k])
    (hL : ∀ d ∈ L, Crisp W d) (hdet : ∀ k, k + 1 < L.length → (f k).kind ≠ .detector)
    {l r : List (Iface Dbl)} {back : Bool} {rv rv1 : RayVec Dbl} {w : Events} {s : Bool}
    (h : Route niter m l r back rv w s rv1) : l.reverse ++ r = L → (back = false → l ≠ []) → (back = true → r ≠ []) → w ≠ [] →
    Stretch niter W f L.length (if back then l.length - 1 else l.length) back rv w rv1 := by
  have hat : ∀ {l r : List (Iface Dbl)} {d : Iface Dbl}, l.reverse ++ d :: r = L →
      l.length < L.length ∧ f l.length = d ∧ d ∈ L ∧ (d.kind = .detector → r = []) := by
    intro l r d e
    have hlen : l.length < L.length := by rw [← e]; simp
    have hfd : f l.length = d := by
      rw [hf _ hlen]
      simp [← e]
    refine ⟨hlen, hfd, by rw [← e]; simp, ?_⟩
    intro hk
    by_contra hr
    refine hdet l.length ?_ (by rw [hfd]; exact hk)
    rw [← e]
    have : 0 < r.length := List.length_pos_iff.2 hr
    simp
    omega
  induction h with
  | front l rv => intro _ _ _ hw; exact absurd rfl hw
  | behind r rv => intro _ _ _ hw; exact absurd rfl hw
  | @pass l r d refl rv rv1 rv2 w s h hk hr ih =>
    intro e hl _ _
    obtain ⟨hlen, hfd, hmem, hd⟩ := hat e
    simp only [Bool.false_eq_true, if_false]
    cases hr with
    | front =>
      refine ⟨[], trivial, by simpa using hlen, by simp [hfd], fun b hb => ?_⟩
      show SpotsOf _ ((f l.length).trace niter false b)
      rw [hfd]
      by_cases hkd : d.kind = .detector
      · have : refl = false := by rw [hk]; simp [Iface.isMirror, hkd]
        subst this
        exact leg_detector (hL d hmem) h hb hkd
      · have := leg_follow (hL d hmem) h hb (fun h => absurd h hkd)
        rw [if_pos hk] at this
        exact followed_spots this
    | _ =>
      rename_i hr'
      all_goals
        obtain ⟨ks, h1, h2, h3, h4⟩ := ih (by simpa using e) (by simp) (by simp) (by simp)
        simp only [Bool.false_eq_true, if_false, List.length_cons] at h1 h2 h3 h4
        refine ⟨(l.length + 1) :: ks, ⟨.inl rfl, h1⟩, ?_, ?_, fun b hb => ?_⟩
        · intro j hj
          rcases List.mem_cons.1 hj with rfl | hj
          · exact hlen
          · exact h2 j hj
        · rw [List.map_cons, h3]; simp [hfd]
        · rw [ghost_two, show decide (l.length + 1 < l.length) = false by simp, if_pos rfl, hfd]
          have hkd : d.kind ≠ .detector := by intro hkd; have := hd hkd; simp at this
          have := leg_follow (hL d hmem) h hb (fun h => absurd h hkd)
          rw [if_pos hk] at this
          exact h4 _ this
  | @turn l r d refl rv rv1 rv2 w s h hk hr ih =>
    intro e hl _ _
    obtain ⟨hlen, hfd, hmem, hd⟩ := hat e
    simp only [Bool.false_eq_true, if_false]
    have hl' := hl rfl
    have hw : w ≠ [] := by
      rintro rfl
      cases hr
      exact hl' rfl
    obtain ⟨ks, h1, h2, h3, h4⟩ := ih e (by simp) (by simp) hw
    simp only [if_true] at h1 h2 h3 h4
    have hpos : 0 < l.length := List.length_pos_iff.2 hl'
    refine ⟨(l.length - 1) :: ks, ⟨.inr (by omega), h1⟩, ?_, ?_, fun b hb => ?_⟩
    · intro j hj
      rcases List.mem_cons.1 hj with rfl | hj
      · exact hlen
      · exact h2 j hj
    · rw [List.map_cons, h3]; simp [hfd]
    · rw [ghost_two, show decide (l.length - 1 < l.length) = true by simp; omega, if_neg (by simp), hfd]
      have hrefl : d.kind = .detector → refl = true := by
        intro hkd
        have : d.isMirror = false := by simp [Iface.isMirror, hkd]
        rw [this] at hk
        simpa using hk
      have := leg_follow (hL d hmem) h hb hrefl
      rw [if_neg hk] at this
      exact h4 _ this
  | @passBack l r d refl rv rv1 rv2 w s h hk hr ih =>
    intro e _ hr0 _
    have e' : l.reverse ++ d :: r = L := by simpa using e
    obtain ⟨hlen, hfd, hmem, hd⟩ := hat e'
    have hkd : d.kind ≠ .detector := by intro hkd; exact hr0 rfl (hd hkd)
    simp only [if_true, List.length_cons, Nat.add_sub_cancel]
    cases l with
    | nil =>
      cases hr with
      | behind =>
        refine ⟨[], trivial, by simpa using hlen, by rw [← hfd]; simp, fun b hb => ?_⟩
        show SpotsOf _ ((f 0).trace niter true b)
        rw [show f 0 = d from hfd]
        have := leg_follow (hL d hmem) h hb (fun h => absurd h hkd)
        rw [if_pos hk] at this
        exact followed_spots this
    | cons a l =>
      have hw : w ≠ [] := by rintro rfl; cases hr
      obtain ⟨ks, h1, h2, h3, h4⟩ := ih e' (by simp) (by simp) hw
      simp only [if_true, List.length_cons, Nat.add_sub_cancel] at h1 h2 h3 h4
      refine ⟨l.length :: ks, ⟨.inr rfl, h1⟩, ?_, ?_, fun b hb => ?_⟩
      · intro j hj
        rcases List.mem_cons.1 hj with rfl | hj
        · exact hlen
        · exact h2 j hj
      · rw [List.map_cons, h3]; simp [← hfd]
      · rw [ghost_two, show decide (l.length < (a :: l).length) = true by simp, if_pos rfl, hfd]
        have := leg_follow (hL d hmem) h hb (fun h => absurd h hkd)
        rw [if_pos hk] at this
        exact h4 _ this
  | @turnBack l r d refl rv rv1 rv2 w s h hk hr ih =>
    intro e _ hr0 _
    have e' : l.reverse ++ d :: r = L := by simpa using e
    obtain ⟨hlen, hfd, hmem, hd⟩ := hat e'
    have hkd : d.kind ≠ .detector := by intro hkd; exact hr0 rfl (hd hkd)
    simp only [if_true, List.length_cons, Nat.add_sub_cancel]
    have hw : w ≠ [] := by
      rintro rfl
      cases hr
      exact hr0 rfl rfl
    obtain ⟨ks, h1, h2, h3, h4⟩ := ih e (by simp) (by simp) hw
    simp only [Bool.false_eq_true, if_false, List.length_cons] at h1 h2 h3 h4
    refine ⟨(l.length + 1) :: ks, ⟨.inl rfl, h1⟩, ?_, ?_, fun b hb => ?_⟩
    · intro j hj
      rcases List.mem_cons.1 hj with rfl | hj
      · exact hlen
      · exact h2 j hj
    · rw [List.map_cons, h3]; simp [← hfd]
    · rw [ghost_two, show decide (l.length + 1 < l.length) = false by simp, if_neg (by simp), hfd]
      have := leg_follow (hL d hmem) h hb (fun h => absurd h hkd)
      rw [if_neg hk] at this
      exact h4 _ this

/-- C110: every beam of `traceSplit` is found by tracing along its path: `trace(rv, path=beam.path)` succeeds and, among its rays,
shows the rays of the beam at the same positions, times and wavelengths, in the same order.  The interfaces have distinct
names that can be looked up; only the last one may be a detector; the path has at least two interfaces (for a single one
`trace` does something else, see C57). -/
theorem C110_trace_path {c : Comp Dbl} {items : List (Optic Dbl)} (hnd : ((flats items).map (·.name)).Nodup)
    (hget : ∀ d ∈ flats items, (Optic.compound c items).getItem d.name = .ok (.iface d))
    (hL : ∀ d ∈ flats items, Crisp W d) (hdet : ∀ d ∈ (flats items).dropLast, d.kind ≠ .detector)
    {rv : RayVec Dbl} (hcs : ∃ cs : CoordSys ℝ, cs.rot.Orth ∧ rv.coordSys = cs.fin) (hrv : ∀ ray ∈ rv.rays, Sharp W ray)
    {fuel : ℕ} {f r : List (Option (Beam Dbl))}
    (h : Optic.traceSplit niter m fuel false (.compound c items) ⟨rv, none⟩ = some (.ok (.lists f r)))
    {b : Beam Dbl} (hb : some b ∈ f ++ r) {path : List Name} (hp : b.path = some path) (hlen : 2 ≤ path.length) :
    ∃ out, (Optic.compound c items).tracePath niter path rv = .ok out ∧ SpotsOf b.rv out := by
  obtain ⟨f', r', rfl, rfl, E, h1, h2, h3, h4⟩ := C110_routes niter m fuel false c items ⟨rv, none⟩ f r h
  simp only [Bool.false_eq_true, if_false] at h2
  obtain ⟨w, s, hr, hpath⟩ : ∃ w s, Route niter m [] (flats items) false rv w s b.rv ∧ b.path = pathAfter none (w.map Prod.fst) := by
    rw [← List.map_append, List.mem_map] at hb
    obtain ⟨x, hx, e⟩ := hb
    cases e
    have : ∃ e ∈ E, e.beam = b := by
      rcases List.mem_append.1 hx with hx | hx
      · obtain ⟨e, he, rfl⟩ := List.mem_map.1 (h3.mem_iff.1 hx)
        exact ⟨e, (List.mem_filter.1 he).1, rfl⟩
      · obtain ⟨e, he, rfl⟩ := List.mem_map.1 (h4.mem_iff.1 hx)
        exact ⟨e, (List.mem_filter.1 he).1, rfl⟩
    obtain ⟨e, he, rfl⟩ := this
    exact ⟨_, _, ((h2 e).1 he).1, ((h2 e).1 he).2⟩
  have hself : Followed W rv rv := by
    refine ⟨hcs, rfl, ?_⟩
    generalize rv.rays = A at hrv
    induction A with
    | nil => exact .nil
    | cons a A ih => exact .cons ⟨hrv a (by simp), rfl⟩ (ih (fun x hx => hrv x (by simp [hx])))
  generalize hLL : flats items = L at hr hnd hget hL hdet
  have hwp : path = w.map Prod.fst := by
    rw [hpath] at hp
    cases w with
    | nil => cases hp
    | cons e w =>
      rw [List.map_cons, pathAfter_cons] at hp
      exact (Option.some_inj.1 hp).symm
  rw [hwp] at hlen ⊢
  rw [List.length_map] at hlen
  cases hr with
  | front => simp at hlen
  | @turn _ r d refl _ rv1 _ w' _ hleg hk hr' =>
    cases hr'
    simp at hlen
  | @pass _ r d refl _ rv1 _ w' _ hleg hk hr' =>
    have hw' : w' ≠ [] := by rintro rfl; simp at hlen
    let g : ℕ → Iface Dbl := fun k => if h : k < (d :: r).length then (d :: r)[k] else d
    have hg : ∀ k (h : k < (d :: r).length), g k = (d :: r)[k] := fun k h => by simp only [g, dif_pos h]
    have hgd : ∀ k, k + 1 < (d :: r).length → (g k).kind ≠ .detector := by
      intro k hk'
      rw [hg k (by omega)]
      refine hdet _ ?_
      rw [List.dropLast_eq_take, List.mem_take_iff_getElem]
      exact ⟨k, by simp at hk' ⊢; omega, rfl⟩
    obtain ⟨ks, g1, g2, g3, g4⟩ := route_stretch g hg hL hgd hr' (by simp) (by simp) (by simp) hw'
    simp only [Bool.false_eq_true, if_false, List.length_singleton] at g1 g2 g3 g4
    have hrne : r ≠ [] := by
      rintro rfl
      cases hr'
      exact hw' rfl
    have hd : d.kind ≠ .detector := by
      have := hgd 0 (by have := List.length_pos_iff.2 hrne; simp; omega)
      simpa [hg] using this
    have hstep := leg_follow (hL d (by simp)) hleg hself (fun h => absurd h hd)
    rw [if_pos hk] at hstep
    refine ⟨ghost niter g false (0 :: 1 :: ks) rv, ?_, ?_⟩
    · have key := C57_path_follows_walk_partial niter (.compound c items) (d :: r).length g ?_ ?_ (1 :: ks) (by simp)
        ⟨.inl rfl, g1⟩ ?_ rv
      · rw [← key]
        congr 1
        rw [List.map_cons, g3]
        simp [g]
      · intro i j hi hj e
        rw [hg i hi, hg j hj] at e
        have hi' : i < ((d :: r).map (·.name)).length := by simpa using hi
        have hj' : j < ((d :: r).map (·.name)).length := by simpa using hj
        exact (hnd.getElem_inj_iff (hi := hi') (hj := hj')).1 (by rw [List.getElem_map, List.getElem_map]; exact e)
      · intro i hi
        rw [hg i hi]
        exact hget _ (List.getElem_mem hi)
      · intro k hk'
        rcases List.mem_cons.1 hk' with rfl | hk'
        · simp
        · exact g2 k hk'
    · rw [ghost_two, show decide (1 < 0) = false by simp, if_pos rfl]
      refine g4 _ ?_
      have : g 0 = d := by simp [g]
      rw [this]
      exact hstep

end walks

/-! ## Calls that return -/

section returns
variable {F : Type} [Arith F]

/-- An interface that can be split both ways: a mirror, a baffle, or glass with coatings. -/
def CanSplit (d : Iface F) : Prop :=
  d.skip = false ∧ (d.kind = .mirror ∨ d.kind = .baffle ∨
    (d.kind = .refractive ∧ d.forwardCoating ≠ none ∧ d.reverseCoating ≠ none))

/-- An optic that can be split both ways: nothing in it is skipped and no compound is empty. -/
inductive BothWays : Optic F → Prop
  | iface {d : Iface F} (h : CanSplit d) : BothWays (.iface d)
  | compound {c : Comp F} {items : List (Optic F)} (hs : c.skip = false) (hne : items ≠ []) (h : ∀ o ∈ items, BothWays o) :
      BothWays (.compound c items)

/-- An optic that can be split when light enters it forward: its last interface may be a detector with a coating. -/
inductive Forward : Optic F → Prop
  | both {o : Optic F} (h : BothWays o) : Forward o
  | detector {d : Iface F} (hs : d.skip = false) (hk : d.kind = .detector) (hc : d.forwardCoating ≠ none) : Forward (.iface d)
  | compound {c : Comp F} {items : List (Optic F)} {last : Optic F} (hs : c.skip = false) (h : ∀ o ∈ items, BothWays o)
      (hl : Forward last) : Forward (.compound c (items ++ [last]))

theorem canSplit_ok {d : Iface F} (h : CanSplit d) (niter : ℕ) (back : Bool) (b : Beam F) :
    ∃ s, d.traceSplit niter back b = .ok s := by
  unfold Iface.traceSplit
  have : ∃ s, d.rSplit niter back b.rv = .ok s := by
    unfold Iface.rSplit
    rcases h.2 with hk | hk | ⟨hk, h1, h2⟩
    · simp only [hk]; exact ⟨_, rfl⟩
    · simp only [hk]; exact ⟨_, rfl⟩
    · simp only [hk]
      cases hc : (if back then d.forwardCoating else d.reverseCoating) with
      | none => cases back <;> simp_all
      | some c => exact ⟨_, rfl⟩
  obtain ⟨s, hs⟩ := this
  rw [hs]
  simp only [bind, Except.bind, pure, Except.pure]
  split <;> exact ⟨_, rfl⟩

theorem detector_ok {d : Iface F} (hk : d.kind = .detector) (hc : d.forwardCoating ≠ none) (niter : ℕ) (b : Beam F) :
    ∃ s, d.traceSplit niter false b = .ok s := by
  unfold Iface.traceSplit
  have : ∃ s, d.rSplit niter false b.rv = .ok s := by
    unfold Iface.rSplit
    simp only [hk, Bool.false_eq_true, if_false]
    cases h : d.forwardCoating with
    | none => exact absurd h hc
    | some c => exact ⟨_, rfl⟩
  obtain ⟨s, hs⟩ := this
  rw [hs]
  simp only [bind, Except.bind, pure, Except.pure]
  split <;> exact ⟨_, rfl⟩

/-- The entries of a work queue that lead to no exception. -/
def HarmlessJob (items : List (Optic F)) (job : Optic.Job F) : Prop :=
  ∃ o, items[job.index]? = some o ∧ (if job.back then BothWays o else Forward o)

theorem forward_items {c : Comp F} {items : List (Optic F)} (h : Forward (.compound c items)) : c.skip = false ∧ items ≠ [] ∧
    ∀ (i : ℕ) (o : Optic F), items[i]? = some o → Forward o ∧ (i + 1 < items.length → BothWays o) := by
  cases h with
  | both h =>
    cases h with
    | compound hs hne h =>
      exact ⟨hs, hne, fun i o ho => ⟨.both (h o (List.mem_of_getElem? ho)), fun _ => h o (List.mem_of_getElem? ho)⟩⟩
  | @compound _ its last hs h hl =>
    refine ⟨hs, by simp, fun i o ho => ?_⟩
    by_cases hi : i < its.length
    · rw [List.getElem?_append_left hi] at ho
      exact ⟨.both (h o (List.mem_of_getElem? ho)), fun _ => h o (List.mem_of_getElem? ho)⟩
    · rw [List.getElem?_append_right (by omega)] at ho
      have : i - its.length = 0 := by
        by_contra hne
        rw [List.getElem?_eq_none (by simp; omega)] at ho
        cases ho
      rw [this] at ho
      cases ho
      exact ⟨hl, fun h => by simp at h; omega⟩

theorem split_ok (niter : ℕ) (m : F) : ∀ fuel : ℕ,
    (∀ back o b x, (if back then BothWays o else Forward o) → Optic.traceSplit niter m fuel back o b = some x →
      ∃ f r, x = .ok (.lists f r)) ∧
    (∀ items queue outF outR x, (∀ (i : ℕ) (o : Optic F), items[i]? = some o → Forward o) →
      (∀ (i : ℕ) (o : Optic F), items[i]? = some o → i + 1 < items.length → BothWays o) →
      (∀ job ∈ queue, HarmlessJob items job) →
      Optic.splitLoop niter m fuel items queue outF outR = some x → ∃ s, x = .ok s) := by
  intro fuel
  induction fuel with
  | zero => exact ⟨by intro back o b x _ h; simp [Optic.traceSplit] at h,
      by intro items queue outF outR x _ _ _ h; simp [Optic.splitLoop] at h⟩
  | succ fuel ih =>
    obtain ⟨ih1, ih2⟩ := ih
    constructor
    · intro back o b x ho h
      cases o with
      | iface d =>
        rw [Optic.traceSplit] at h
        have hskip : d.skip = false ∧ ∃ s, d.traceSplit niter back b = .ok s := by
          cases back with
          | true =>
            rw [if_pos rfl] at ho
            cases ho with
            | iface h => exact ⟨h.1, canSplit_ok h _ _ _⟩
          | false =>
            rw [if_neg (by simp)] at ho
            cases ho with
            | both h => cases h with | iface h => exact ⟨h.1, canSplit_ok h _ _ _⟩
            | detector hs hk hc => exact ⟨hs, detector_ok hk hc _ _⟩
        obtain ⟨h1, s, h2⟩ := hskip
        rw [if_neg (by simp [Optic.skip, h1]), h2] at h
        cases h
        exact ⟨_, _, rfl⟩
      | compound c items =>
        have hall : c.skip = false ∧ items ≠ [] ∧ (∀ (i : ℕ) (o : Optic F), items[i]? = some o → Forward o) ∧
            (∀ (i : ℕ) (o : Optic F), items[i]? = some o → i + 1 < items.length → BothWays o) ∧
            HarmlessJob items ⟨b, back, if back then items.length - 1 else 0⟩ := by
          have hpos : ∀ {items : List (Optic F)}, items ≠ [] → 0 < items.length := fun h => List.length_pos_iff.2 h
          cases back with
          | true =>
            rw [if_pos rfl] at ho
            cases ho with
            | compound hs hne h =>
              refine ⟨hs, hne, fun i o ho => .both (h o (List.mem_of_getElem? ho)), fun i o ho _ => h o (List.mem_of_getElem? ho), ?_⟩
              have hl : items.length - 1 < items.length := by have := hpos hne; omega
              exact ⟨items[items.length - 1], by simp [hl], by simpa using h _ (List.getElem_mem hl)⟩
          | false =>
            rw [if_neg (by simp)] at ho
            obtain ⟨hs, hne, h⟩ := forward_items ho
            refine ⟨hs, hne, fun i o ho => (h i o ho).1, fun i o ho => (h i o ho).2, ?_⟩
            have hl : 0 < items.length := hpos hne
            refine ⟨items[0], by simp [hl], ?_⟩
            simpa using (h 0 items[0] (by simp [hl])).1
        obtain ⟨h1, h2, h3, h4, h5⟩ := hall
        rw [Optic.traceSplit, if_neg (by simp [Optic.skip, h1]), if_neg (by simpa using h2)] at h
        cases hl : Optic.splitLoop niter m fuel items [⟨b, back, if back then items.length - 1 else 0⟩] [] [] with
        | none => rw [hl] at h; cases h
        | some res =>
          rw [hl] at h
          obtain ⟨s, rfl⟩ := ih2 _ _ _ _ _ h3 h4 (by simpa using h5) hl
          cases h
          exact ⟨_, _, rfl⟩
    · intro items queue outF outR x h3 h4 hq h
      cases queue with
      | nil => rw [Optic.splitLoop] at h; cases h; exact ⟨_, rfl⟩
      | cons job queue =>
        obtain ⟨o, ho, hdir⟩ := hq job (by simp)
        rw [Optic.splitLoop, ho] at h
        simp only at h
        cases ht : Optic.traceSplit niter m fuel job.back o job.beam with
        | none => rw [ht] at h; cases h
        | some res =>
          obtain ⟨f, r, rfl⟩ := ih1 _ _ _ _ hdir ht
          rw [ht] at h
          simp only at h
          refine ih2 _ _ _ _ _ h3 h4 ?_ h
          intro j hj
          rcases List.mem_append.1 hj with hj | hj
          · rw [List.mem_reverse] at hj
            obtain ⟨hi, -⟩ := List.getElem?_eq_some_iff.1 ho
            rcases pushJobs_mem hj with ⟨-, -, e1, e2, e3⟩ | ⟨-, -, e1, e2⟩
            · have hlt : job.index + 1 < items.length := by omega
              refine ⟨items[job.index + 1], by rw [e2]; simp [hlt], ?_⟩
              rw [e1, if_neg (by simp)]
              exact h3 (job.index + 1) _ (by simp [hlt])
            · have hlt : j.index < items.length := by omega
              refine ⟨items[j.index], by simp [hlt], ?_⟩
              rw [e1, if_pos rfl]
              exact h4 j.index _ (by simp [hlt]) (by omega)
          · exact hq j (by simp [hj])

end returns

/-- C110: `traceSplit` of a telescope whose interfaces reflect at most a fixed part of the light returns two lists, with no
exception, whatever the rays: the interfaces are glass with coatings, baffles and mirrors (`PassiveIface` constrains the
coatings), and possibly a detector at the end; nothing is skipped. -/
theorem C110_returns (niter : ℕ) {q m : ℝ} (hq1 : q < 1) (hm : 0 < m) (o : Optic Dbl) (hP : AllIface (PassiveIface q) o)
    (hF : Forward o) (b : Beam Dbl) (hb : ∀ ray ∈ b.rv.rays, Fine ray) :
    ∃ fuel f r, ∀ fuel', fuel ≤ fuel' → Optic.traceSplit niter (Dbl.fin m) fuel' false o b = some (.ok (.lists f r)) := by
  obtain ⟨fuel, x, hx⟩ := C54_traceSplit_ends niter hq1 hm o hP false b hb
  obtain ⟨f, r, rfl⟩ := (split_ok niter (Dbl.fin m) fuel).1 false o b x (by simpa using hF) (hx fuel le_rfl)
  exact ⟨fuel, f, r, hx⟩

/-! ## Concrete cases -/

/-- A plane baffle without obscuration at the origin. -/
noncomputable def demoBaffle (nm : String) : Iface Dbl := { demoMirror with kind := .baffle, name := nm.toList, obscuration := none }

theorem plane_crisp (W : Set Dbl) (d : Iface Dbl) (hs : d.surface = Surface.plane)
    (hf : ∃ z : ℝ, d.coordSys = (CoordSys.mk ⟨0, 0, z⟩ M3.one).fin)
    (h1 : d.inMedium = ⟨fun _ => Dbl.fin 1⟩) (h2 : d.outMedium = ⟨fun _ => Dbl.fin 1⟩) : Crisp W d where
  frame := by
    obtain ⟨z, hz⟩ := hf
    exact ⟨_, M3.orth_one, hz⟩
  meet := by
    intro niter r v hv h
    rw [hs] at h ⊢
    by_cases h0 : v.z = 0
    · simp [Surface.plane, V3.fin, h0] at h
    · exact ⟨-r.z / v.z, ⟨0, 0, 1⟩, by simp [Surface.plane, V3.fin, h0, Dbl.div_fin h0], by simp [Surface.plane, V3.fin], demo_unit⟩
  media := by
    intro w _
    rw [h1, h2]
    exact ⟨⟨1, one_pos, rfl⟩, 1, one_pos, rfl⟩

theorem demoRay_sharp {v : V3 ℝ} (hv : v ≠ ⟨0, 0, 0⟩) : Sharp Set.univ (demoRay v) := ⟨rfl, trivial, _, _, rfl, rfl, hv⟩

/-- The pair of half-silvered plates of `SplitEnds`, in front of a detector: splitting returns two lists, and every beam whose path
has at least two interfaces is found by tracing along its path. -/
example (niter : ℕ) (v : V3 ℝ) (hv : v ≠ ⟨0, 0, 0⟩) : ∃ fuel f r, Optic.traceSplit niter (Dbl.fin (1 / 1000)) fuel false
    (demoComp "T" [.iface (demoGlass "A" (1 / 2) (1 / 2)), .iface (demoGlass "B" (1 / 3) (1 / 2)),
      .iface { demoFlat "D" (-1) with forwardCoating := some (.simple (Dbl.fin (1 / 9)) (Dbl.fin 0)) }])
    ⟨⟨[demoRay v], (CoordSys.std ℝ).fin⟩, none⟩ = some (.ok (.lists f r)) ∧
    ∀ b, some b ∈ f ++ r → ∀ path, b.path = some path → 2 ≤ path.length → ∃ out,
      (demoComp "T" [.iface (demoGlass "A" (1 / 2) (1 / 2)), .iface (demoGlass "B" (1 / 3) (1 / 2)),
        .iface { demoFlat "D" (-1) with forwardCoating := some (.simple (Dbl.fin (1 / 9)) (Dbl.fin 0)) }]).tracePath niter path
        ⟨[demoRay v], (CoordSys.std ℝ).fin⟩ = .ok out ∧ SpotsOf b.rv out := by
  obtain ⟨fuel, f, r, h⟩ := C110_returns niter (q := 1 / 2) (m := 1 / 1000) (by norm_num) (by norm_num)
    (demoComp "T" [.iface (demoGlass "A" (1 / 2) (1 / 2)), .iface (demoGlass "B" (1 / 3) (1 / 2)),
      .iface { demoFlat "D" (-1) with forwardCoating := some (.simple (Dbl.fin (1 / 9)) (Dbl.fin 0)) }])
    ⟨demoGlass_passive _ (by norm_num) (by norm_num) (by norm_num) (by norm_num),
      demoGlass_passive _ (by norm_num) (by norm_num) (by norm_num) (by norm_num),
      ⟨by
        intro c hc
        simp only [Option.some.injEq] at hc
        subst hc
        exact fun w a => ⟨1 / 9, 0, rfl, rfl, by norm_num, by norm_num, le_rfl, by norm_num⟩, by intro c hc; cases hc⟩, trivial⟩
    (.compound (items := [_, _]) rfl (by
      intro o ho
      simp only [List.mem_cons, List.not_mem_nil, or_false] at ho
      rcases ho with rfl | rfl <;>
        exact .iface ⟨rfl, .inr (.inr ⟨rfl, by simp [demoGlass], by simp [demoGlass]⟩)⟩) (.detector rfl rfl (by simp)))
    ⟨⟨[demoRay v], (CoordSys.std ℝ).fin⟩, none⟩ (by
      intro ray hr
      simp at hr
      subst hr
      exact ⟨⟨1, by norm_num, rfl⟩, by simp [demoRay]⟩)
  refine ⟨fuel, f, r, h fuel le_rfl, fun b hb path hp hlen => ?_⟩
  refine C110_trace_path (W := Set.univ) ?_ ?_ ?_ ?_ ⟨_, M3.orth_one, rfl⟩ ?_ (h fuel le_rfl) hb hp hlen
  · simp [flats, flat, demoGlass, demoFlat]
  · intro d hd
    simp only [flats, flat, List.append_nil, List.cons_append, List.nil_append, List.mem_cons, List.not_mem_nil, or_false] at hd
    rcases hd with rfl | rfl | rfl <;> rfl
  · intro d hd
    simp only [flats, flat, List.append_nil, List.cons_append, List.nil_append, List.mem_cons, List.not_mem_nil, or_false] at hd
    rcases hd with rfl | rfl | rfl
    · exact plane_crisp _ _ rfl ⟨0, rfl⟩ rfl rfl
    · exact plane_crisp _ _ rfl ⟨0, rfl⟩ rfl rfl
    · exact plane_crisp _ _ rfl ⟨-1, rfl⟩ rfl rfl
  · intro d hd
    simp only [flats, flat, List.append_nil, List.cons_append, List.nil_append, List.dropLast_cons_cons, List.dropLast_singleton,
      List.mem_cons, List.not_mem_nil, or_false] at hd
    rcases hd with rfl | rfl <;> simp [demoGlass]
  · intro ray hr
    simp at hr
    subst hr
    exact demoRay_sharp hv

/-- A vertical ray at height `z` meeting the baffle. -/
theorem baffle_leg (nm : String) (z : ℝ) : Leg 5 (Dbl.fin (1 / 2)) (demoBaffle nm) false false
    ⟨[{ demoRay ⟨0, 0, -1⟩ with r := (⟨1, 2, z⟩ : V3 ℝ).fin, t := .fin (11 - z) }], (CoordSys.std ℝ).fin⟩
    ⟨[{ demoRay ⟨0, 0, -1⟩ with r := (⟨1, 2, 0⟩ : V3 ℝ).fin, t := .fin 11 }], (CoordSys.std ℝ).fin⟩ := by
  have key : Ray.intersect Surface.plane (CoordTransform.make (CoordSys.std ℝ).fin (CoordSys.std ℝ).fin) none 5
      { demoRay ⟨0, 0, -1⟩ with r := (⟨1, 2, z⟩ : V3 ℝ).fin, t := .fin (11 - z) } =
      { demoRay ⟨0, 0, -1⟩ with r := (⟨1, 2, 0⟩ : V3 ℝ).fin, t := .fin 11 } := by
    have h1 : (CoordTransform.make (CoordSys.std ℝ).fin (CoordSys.std ℝ).fin).forward (⟨1, 2, z⟩ : V3 ℝ).fin =
        (⟨1, 2, z⟩ : V3 ℝ).fin := by
      simp only [CoordTransform.forward_fin, V3.fin_inj]
      simp [CoordTransform.forward, CoordTransform.make, CoordSys.std, M3.mulVec, M3.mul, M3.tr]
    have h2 : (CoordTransform.make (CoordSys.std ℝ).fin (CoordSys.std ℝ).fin).forwardVel (⟨0, 0, -1⟩ : V3 ℝ).fin =
        (⟨0, 0, -1⟩ : V3 ℝ).fin := by
      simp only [CoordTransform.forwardVel_fin, V3.fin_inj]
      simp [CoordTransform.forwardVel, CoordTransform.make, CoordSys.std, M3.mulVec, M3.mul, M3.tr]
    unfold Ray.intersect
    simp only [demoRay, Bool.false_eq_true, if_false, h1, h2]
    have e : (⟨1, 2, z⟩ : V3 ℝ).fin + ((⟨0, 0, -1⟩ : V3 ℝ).fin).smulR (Dbl.fin z) = (⟨1, 2, 0⟩ : V3 ℝ).fin := by
      simp only [V3.fin_smulR, V3.fin_add, V3.fin_inj]
      ext <;> simp [V3.smulR]
    simp [Surface.plane]
    simpa using e
  refine ⟨_, _, rfl, rfl, ?_, by simp⟩
  have hk : bright (Dbl.fin (1 / 2)) { demoRay ⟨0, 0, -1⟩ with r := (⟨1, 2, 0⟩ : V3 ℝ).fin, t := .fin 11 } = true := by
    simp only [bright, demoRay, Dbl.ge_fin]
    norm_num
  show _ = (⟨([Ray.intersect Surface.plane (CoordTransform.make (CoordSys.std ℝ).fin (CoordSys.std ℝ).fin) none 5
      { demoRay ⟨0, 0, -1⟩ with r := (⟨1, 2, z⟩ : V3 ℝ).fin, t := .fin (11 - z) }] : List (Ray Dbl)).filter _, _⟩ : RayVec Dbl)
  rw [key, List.filter_cons, hk]
  rfl

/-- Some beams do have such paths: light through two baffles. -/
example : ∃ fuel f r b, Optic.traceSplit 5 (Dbl.fin (1 / 2)) fuel false
    (demoComp "T" [.iface (demoBaffle "A"), .iface (demoBaffle "B")])
    ⟨⟨[demoRay ⟨0, 0, -1⟩], (CoordSys.std ℝ).fin⟩, none⟩ = some (.ok (.lists f r)) ∧ some b ∈ f ∧
    b.path = some ["A".toList, "B".toList] := by
  obtain ⟨fuel, f, r, h⟩ := C110_returns 5 (q := 1 / 2) (m := 1 / 2) (by norm_num) (by norm_num)
    (demoComp "T" [.iface (demoBaffle "A"), .iface (demoBaffle "B")])
    ⟨⟨(by intro c hc; cases hc), (by intro c hc; cases hc)⟩, ⟨(by intro c hc; cases hc), (by intro c hc; cases hc)⟩, trivial⟩
    (.both (.compound rfl (by simp) (by
      intro o ho
      simp only [List.mem_cons, List.not_mem_nil, or_false] at ho
      rcases ho with rfl | rfl <;> exact .iface ⟨rfl, .inr (.inl rfl)⟩)))
    ⟨⟨[demoRay ⟨0, 0, -1⟩], (CoordSys.std ℝ).fin⟩, none⟩ (by
      intro ray hr
      simp at hr
      subst hr
      exact ⟨⟨1, by norm_num, rfl⟩, by simp [demoRay]⟩)
  obtain ⟨f', r', rfl, rfl, E, -, h2, h3, -⟩ := C110_routes 5 _ fuel false _ _ _ f r (h fuel le_rfl)
  have hA := baffle_leg "A" 4
  have hB := baffle_leg "B" 0
  rw [show (11 - 4 : ℝ) = 7 by norm_num] at hA
  rw [sub_zero] at hB
  have hroute := Route.pass (l := []) (r := [demoBaffle "B"]) hA rfl (Route.pass (r := []) hB rfl (Route.front _ _))
  let b : Beam Dbl := ⟨⟨[{ demoRay ⟨0, 0, -1⟩ with r := (⟨1, 2, 0⟩ : V3 ℝ).fin, t := .fin 11 }], (CoordSys.std ℝ).fin⟩,
    some ["A".toList, "B".toList]⟩
  refine ⟨fuel, _, _, b, h fuel le_rfl, List.mem_map_of_mem (h3.mem_iff.2 ?_), rfl⟩
  refine List.mem_map.2 ⟨⟨[("A".toList, false), ("B".toList, false)], false, b⟩, List.mem_filter.2 ⟨?_, rfl⟩, rfl⟩
  exact (h2 _).2 ⟨hroute, rfl⟩

end Batoid.Props
