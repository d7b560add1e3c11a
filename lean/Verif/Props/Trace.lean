import Verif.Optic
import Verif.Props.Optics

/-!
# Properties C18, C51, C52, C55: tracing interfaces and trees

The specification vocabulary is the list of interfaces a tree presents to a ray (`visits`), and for one interface
the vocabulary of `Props/Optics` (`Hit`, `mirror`, `snellSin2`).
-/

namespace Batoid.Props
open Batoid

/-! ## C18 -/

/-- C18: for every kind of interface, arithmetic, direction and ray vector, `trace` leaves the rays in the frame of the
interface, keeps their number and order, and is the kernel of the kind followed by the obscuration at the new position. -/
theorem C18_trace_frame_and_order {F : Type} [Arith F] (d : Iface F) (niter : ℕ) (reverse : Bool) (rv : RayVec F) :
    (d.trace niter reverse rv).coordSys = d.coordSys ∧
    (d.trace niter reverse rv).rays.length = rv.rays.length := by
  unfold Iface.trace Iface.applyObscuration Iface.interact
  constructor
  · cases d.obscuration <;> cases d.kind <;> cases reverse <;> rfl
  · cases d.obscuration <;> cases d.kind <;> cases reverse <;>
      simp [RayVec.obscure, RayVec.intersect, RayVec.reflect, RayVec.refract, RayVec.refractScreen, RayVec.runKernel]

/-- What happens to one ray, before the obscuration. -/
noncomputable def Iface.onRay {F : Type} [Arith F] (d : Iface F) (niter : ℕ) (reverse : Bool) (ct : CoordTransform F) (ray : Ray F) : Ray F :=
  match d.kind with
  | .refractive => Ray.refract d.surface ct (if reverse then d.inMedium else d.outMedium) none niter ray
  | .mirror => Ray.reflect d.surface ct none niter ray
  | .screen s => Ray.refractScreen d.surface ct s niter ray
  | _ => Ray.intersect d.surface ct none niter ray

theorem interact_rays {F : Type} [Arith F] (d : Iface F) (niter : ℕ) (reverse : Bool) (rv : RayVec F) :
    d.interact niter reverse rv
      = ⟨rv.rays.map (Iface.onRay d niter reverse (CoordTransform.make rv.coordSys d.coordSys)), d.coordSys⟩ := by
  unfold Iface.interact Iface.onRay
  cases d.kind <;> cases reverse <;> rfl

theorem trace_ray {F : Type} [Arith F] (d : Iface F) (niter : ℕ) (reverse : Bool) (rv : RayVec F) (i : ℕ) (ray : Ray F)
    (hi : rv.rays[i]? = some ray) :
    ∃ out, (d.trace niter reverse rv).rays[i]? = some out ∧
      (let k := Iface.onRay d niter reverse (CoordTransform.make rv.coordSys d.coordSys) ray
       out = { k with vignetted := out.vignetted } ∧
       (out.vignetted = true ↔ k.vignetted = true ∨ ∃ o, d.obscuration = some o ∧ o.contains k.r.x k.r.y = true)) := by
  unfold Iface.trace Iface.applyObscuration
  rw [interact_rays]
  cases ho : d.obscuration with
  | none =>
    refine ⟨Iface.onRay d niter reverse (CoordTransform.make rv.coordSys d.coordSys) ray,
      by simp only [List.getElem?_map, hi, Option.map_some], ?_⟩
    simp
  | some o =>
    refine ⟨Ray.obscure o (Iface.onRay d niter reverse (CoordTransform.make rv.coordSys d.coordSys) ray),
      by simp only [RayVec.obscure, List.getElem?_map, hi, Option.map_some], ?_⟩
    simp [Ray.obscure]

/-- C18: physics of each kind, for a ray that meets the surface.  `p` is the meeting point, `v` the incoming velocity and
`n` the normal, all in the frame of the interface.  Mirrors reflect.  Plain interfaces, detectors and baffles keep the
velocity.  Refractive interfaces apply Snell's law into `outMedium`, or `inMedium` when traced in reverse.  Afterwards
the ray is vignetted exactly when it was before, or failed by total internal reflection, or `p` is in the obscuration. -/
theorem C18_physics (d : Iface Dbl) (niter : ℕ) (reverse : Bool) (rv : RayVec Dbl) (i : ℕ) (ray : Ray Dbl)
    (hi : rv.rays[i]? = some ray) {r v n : V3 ℝ} {dt : ℝ}
    (h : Hit d.surface (CoordTransform.make rv.coordSys d.coordSys) niter ray r v n dt)
    (hv : v ≠ ⟨0, 0, 0⟩) (hn : IsUnit' n)
    (hscreen : ∀ s, d.kind ≠ .screen s)
    {n2 : ℝ} (h2 : 0 < n2)
    (hm : (if reverse then d.inMedium else d.outMedium).getN ray.wavelength = Dbl.fin n2) :
    let p := r + v.smulR dt
    let sin2 := V3.normSq (V3.cross (v.smulR (1 / speed v)) n)
    let tir := d.kind = .refractive ∧ 1 < (1 / speed v / n2) ^ 2 * sin2
    ∃ out, (d.trace niter reverse rv).rays[i]? = some out ∧
      out.r = p.fin ∧ out.t = ray.t + Dbl.fin dt ∧ out.wavelength = ray.wavelength ∧
      (out.failed = true ↔ tir) ∧
      (d.kind = .mirror → ∃ u : V3 ℝ, out.v = u.fin ∧ speed u = speed v ∧ tangential u n = tangential v n ∧
        V3.dot u n = -V3.dot v n) ∧
      (d.kind = .plain ∨ d.kind = .detector ∨ d.kind = .baffle → out.v = v.fin) ∧
      (d.kind = .refractive → ¬ tir → ∃ u : V3 ℝ, out.v = u.fin ∧ speed u = 1 / n2 ∧
        V3.smul n2 (V3.cross (u.smulR n2) n) = V3.smul (1 / speed v) (V3.cross (v.smulR (1 / speed v)) n)) ∧
      (out.vignetted = true ↔ ray.vignetted = true ∨ tir ∨
        ∃ o, d.obscuration = some o ∧ o.contains (Dbl.fin p.x) (Dbl.fin p.y) = true) := by
  intro p sin2 tir
  obtain ⟨out, ho, hk, hvig⟩ := trace_ray d niter reverse rv i ray hi
  refine ⟨out, ho, ?_⟩
  generalize hct : CoordTransform.make rv.coordSys d.coordSys = ct at h hk hvig
  have hmirror : ∃ u : V3 ℝ, (Ray.reflect d.surface ct none niter ray).v = u.fin ∧ speed u = speed v ∧
      tangential u n = tangential v n ∧ V3.dot u n = -V3.dot v n := by
    obtain ⟨u, h1, -, h3, h4, h5, -⟩ := C08_law_of_reflection h hn none
    exact ⟨u, h1, h3, h4, h5⟩
  have hrefl := reflect_hit h none
  have hrefr := refract_hit h hv hn h2 _ hm none
  have hint := C11_intersect_keeps_velocity h none
  have hintr : (Ray.intersect d.surface ct none niter ray).r = p.fin ∧
      (Ray.intersect d.surface ct none niter ray).t = ray.t + Dbl.fin dt ∧
      (Ray.intersect d.surface ct none niter ray).wavelength = ray.wavelength := by
    simp only [Ray.intersect, h.live, h.pos, h.vel, h.time]
    simp [p]
  have hsn : snellSin2 n2 n v = (1 / speed v / n2) ^ 2 * sin2 := rfl
  have hpass : ∀ k : Ray Dbl, k = Ray.intersect d.surface ct none niter ray → d.kind ≠ .refractive → d.kind ≠ .mirror →
      out = { k with vignetted := out.vignetted } →
      (out.vignetted = true ↔ k.vignetted = true ∨ ∃ o, d.obscuration = some o ∧ o.contains k.r.x k.r.y = true) → 
      out.r = p.fin ∧ out.t = ray.t + Dbl.fin dt ∧ out.wavelength = ray.wavelength ∧
      (out.failed = true ↔ tir) ∧ out.v = v.fin ∧
      (out.vignetted = true ↔ ray.vignetted = true ∨ tir ∨
        ∃ o, d.obscuration = some o ∧ o.contains (Dbl.fin p.x) (Dbl.fin p.y) = true) := by
    intro k hkk hnr hnm he hvg
    have htir : ¬ tir := fun ht => hnr ht.1
    have hr : k.r = p.fin := by rw [hkk]; exact hintr.1
    refine ⟨?_, ?_, ?_, ?_, ?_, ?_⟩
    · rw [he]; exact hr
    · rw [he, hkk]; exact hintr.2.1
    · rw [he, hkk]; exact hintr.2.2
    · rw [he]; simp only [htir, iff_false]; rw [hkk, hint.2.1]; simp
    · rw [he, hkk]; exact hint.1
    · rw [hvg, hkk, hint.2.2, ← hkk, hr]; simp [htir]
  cases hkind : d.kind with
  | screen s => exact absurd hkind (hscreen s)
  | mirror =>
    simp only [Iface.onRay, hkind] at hk hvig
    have htir : ¬ tir := by intro ht; have := ht.1; rw [hkind] at this; cases this
    rw [hrefl.2.2.2.2.1, hrefl.1] at hvig
    refine ⟨?_, ?_, ?_, ?_, ?_, ?_, ?_, ?_⟩
    · rw [hk]; exact hrefl.1
    · rw [hk]; exact hrefl.2.2.1
    · rw [hk]; exact hrefl.2.2.2.2.2
    · rw [hk]; simp only [htir, iff_false]; rw [hrefl.2.2.2.1]; simp
    · intro _; rw [hk]; exact hmirror
    · intro hh; rcases hh with hh | hh | hh <;> cases hh
    · intro hh; cases hh
    · rw [hvig]; simp [htir, p]
  | refractive =>
    simp only [Iface.onRay, hkind] at hk hvig
    have htir : tir ↔ 1 < snellSin2 n2 n v := by rw [hsn]; simp [tir, hkind]
    rw [hrefr.1] at hvig
    obtain ⟨hr1, hr2, hr3, hr4⟩ := hrefr
    by_cases hs : 1 < snellSin2 n2 n v
    · simp only [hs, if_true] at hr4
      have ht := htir.2 hs
      refine ⟨?_, ?_, ?_, ?_, ?_, ?_, ?_, ?_⟩
      · rw [hk]; exact hr1
      · rw [hk]; exact hr2
      · rw [hk]; exact hr3
      · rw [hk]; simp only [ht, iff_true]; exact hr4.1
      · intro hh; cases hh
      · intro hh; rcases hh with hh | hh | hh <;> cases hh
      · intro _ hh; exact absurd ht hh
      · rw [hvig]; simp [ht, hr4.2]
    · simp only [hs, if_false] at hr4
      have ht : ¬ tir := fun t => hs (htir.1 t)
      refine ⟨?_, ?_, ?_, ?_, ?_, ?_, ?_, ?_⟩
      · rw [hk]; exact hr1
      · rw [hk]; exact hr2
      · rw [hk]; exact hr3
      · rw [hk]; simp only [ht, iff_false]; rw [hr4.2.1]; simp
      · intro hh; cases hh
      · intro hh; rcases hh with hh | hh | hh <;> cases hh
      · intro _ _
        refine ⟨refractR n2 n v, by rw [hk]; exact hr4.1, ?_, refractR_cross hv h2⟩
        rw [speed, refractR_normSq hv hn h2 (not_lt.mp hs)]
        exact Real.sqrt_mul_self (by positivity)
      · rw [hvig, hr4.2.2]; simp [ht, p]
  | plain =>
    simp only [Iface.onRay, hkind] at hk hvig
    obtain ⟨a, b, c, e, f, g⟩ := hpass _ rfl (by rw [hkind]; simp) (by rw [hkind]; simp) hk hvig
    exact ⟨a, b, c, e, fun hh => (by cases hh), fun _ => f, fun hh => (by cases hh), g⟩
  | detector =>
    simp only [Iface.onRay, hkind] at hk hvig
    obtain ⟨a, b, c, e, f, g⟩ := hpass _ rfl (by rw [hkind]; simp) (by rw [hkind]; simp) hk hvig
    exact ⟨a, b, c, e, fun hh => (by cases hh), fun _ => f, fun hh => (by cases hh), g⟩
  | baffle =>
    simp only [Iface.onRay, hkind] at hk hvig
    obtain ⟨a, b, c, e, f, g⟩ := hpass _ rfl (by rw [hkind]; simp) (by rw [hkind]; simp) hk hvig
    exact ⟨a, b, c, e, fun hh => (by cases hh), fun _ => f, fun hh => (by cases hh), g⟩

/-- A mirror in a frame shifted along z, used as a concrete case. -/
noncomputable def demoMirror : Iface Dbl where
  kind := .mirror
  name := "M1".toList
  surface := Surface.plane
  obscuration := some (.circle (Dbl.fin 1) (Dbl.fin 0) (Dbl.fin 0))
  coordSys := (CoordSys.std ℝ).fin
  inMedium := ⟨fun _ => Dbl.fin 1⟩
  outMedium := ⟨fun _ => Dbl.fin 1⟩
  skip := false
  forwardCoating := none
  reverseCoating := none
  stop := none


example : ∃ out, (demoMirror.trace 5 false ⟨[demoRay ⟨3 / 5, 0, -4 / 5⟩], (CoordSys.std ℝ).fin⟩).rays[0]? = some out ∧
    ∃ u : V3 ℝ, out.v = u.fin ∧ V3.dot u ⟨0, 0, 1⟩ = 4 / 5 := by
  obtain ⟨out, h1, -, -, -, -, h2, -⟩ := C18_physics demoMirror 5 false ⟨[demoRay ⟨3 / 5, 0, -4 / 5⟩], (CoordSys.std ℝ).fin⟩
    0 _ rfl (demo_hit (v := ⟨3 / 5, 0, -4 / 5⟩) (by norm_num)) (by simp) demo_unit (by intro s h; cases h)
    (n2 := 1) (by norm_num) rfl
  obtain ⟨u, hu, -, -, h3⟩ := h2 rfl
  exact ⟨out, h1, u, hu, by rw [h3]; simp [V3.dot]; norm_num⟩

/-! ## C52 -/

mutual
/-- The interfaces that a tree presents to a ray, in order: all leaves not below a skipped item. -/
def visits {F : Type} : Optic F → List (Iface F)
  | .iface d => [d]
  | .compound _ items => visitsItems items
def visitsItems {F : Type} : List (Optic F) → List (Iface F)
  | [] => []
  | o :: os => (if o.skip then [] else visits o) ++ visitsItems os
end

/-- The interface with its two media exchanged. -/
def swapMedia {F : Type} (d : Iface F) : Iface F := { d with inMedium := d.outMedium, outMedium := d.inMedium }

theorem trace_reverse_swap {F : Type} [Arith F] (d : Iface F) (niter : ℕ) (rv : RayVec F) :
    d.trace niter true rv = (swapMedia d).trace niter false rv := by
  unfold Iface.trace Iface.interact Iface.applyObscuration swapMedia
  cases d.kind <;> rfl

section
variable {F : Type} [Arith F]

mutual
theorem trace_visits (niter : ℕ) : ∀ (o : Optic F) (rv : RayVec F),
    o.trace niter false rv = (visits o).foldl (fun rv d => d.trace niter false rv) rv
  | .iface d, rv => by simp [Optic.trace, visits]
  | .compound d items, rv => by
    simp only [Optic.trace, visits, Bool.false_eq_true, if_false]
    exact traceItems_visits niter items rv
theorem traceItems_visits (niter : ℕ) : ∀ (items : List (Optic F)) (rv : RayVec F),
    Optic.traceItems niter items rv = (visitsItems items).foldl (fun rv d => d.trace niter false rv) rv
  | [], rv => by simp [Optic.traceItems, visitsItems]
  | o :: os, rv => by
    rw [Optic.traceItems, traceItems_visits niter os, visitsItems, List.foldl_append]
    cases h : o.skip
    · simp only [Bool.false_eq_true, if_false]; rw [trace_visits niter o]
    · simp
end

mutual
theorem trace_visits_rev (niter : ℕ) : ∀ (o : Optic F) (rv : RayVec F),
    o.trace niter true rv = (visits o).reverse.foldl (fun rv d => d.trace niter true rv) rv
  | .iface d, rv => by simp [Optic.trace, visits]
  | .compound d items, rv => by
    simp only [Optic.trace, visits, if_true]
    exact traceItemsRev_visits niter items rv
theorem traceItemsRev_visits (niter : ℕ) : ∀ (items : List (Optic F)) (rv : RayVec F),
    Optic.traceItemsRev niter items rv = (visitsItems items).reverse.foldl (fun rv d => d.trace niter true rv) rv
  | [], rv => by simp [Optic.traceItemsRev, visitsItems]
  | o :: os, rv => by
    rw [Optic.traceItemsRev, traceItemsRev_visits niter os, visitsItems, List.reverse_append, List.foldl_append]
    cases h : o.skip
    · simp only [Bool.false_eq_true, if_false]; rw [trace_visits_rev niter o]
    · simp
end

/-- C52: tracing forward applies the visible interfaces one after the other, and tracing in reverse applies the same
interfaces in the opposite order, each as a forward interface with its media exchanged; for every tree, nesting depth,
assignment of `skip`, arithmetic and ray vector. -/
theorem C52_reverse_order (niter : ℕ) (o : Optic F) (rv : RayVec F) :
    o.trace niter false rv = (visits o).foldl (fun rv d => d.trace niter false rv) rv ∧
    o.trace niter true rv = ((visits o).map swapMedia).reverse.foldl (fun rv d => d.trace niter false rv) rv := by
  refine ⟨trace_visits niter o rv, ?_⟩
  rw [trace_visits_rev, ← List.map_reverse, List.foldl_map]
  simp only [trace_reverse_swap]

/-- C52: the frame of the traced rays is that of the last interface visited (the first one in reverse), or unchanged when
nothing is visited. -/
theorem C52_final_frame (niter : ℕ) (o : Optic F) (rv : RayVec F) :
    (o.trace niter false rv).coordSys = (((visits o).getLast?).map (·.coordSys)).getD rv.coordSys ∧
    (o.trace niter true rv).coordSys = (((visits o).head?).map (·.coordSys)).getD rv.coordSys := by
  have key : ∀ (rev : Bool) (l : List (Iface F)) (rv : RayVec F),
      (l.foldl (fun rv d => d.trace niter rev rv) rv).coordSys = ((l.getLast?).map (·.coordSys)).getD rv.coordSys := by
    intro rev l
    induction l with
    | nil => intro rv; rfl
    | cons d l ih =>
      intro rv
      rw [List.foldl_cons, ih, (C18_trace_frame_and_order d niter rev rv).1]
      cases l with
      | nil => rfl
      | cons e l => simp [List.getLast?_cons_cons, List.getLast?_eq_some_getLast]
  constructor
  · rw [trace_visits, key]
  · rw [trace_visits_rev, key, List.getLast?_reverse]

end

/-! ## C55 -/

section
variable {F : Type} [Arith F]

theorem visitsItems_append : ∀ (a b : List (Optic F)), visitsItems (a ++ b) = visitsItems a ++ visitsItems b
  | [], b => by simp [visitsItems]
  | o :: a, b => by simp [visitsItems, visitsItems_append a b]

/-- Every context in which an item can stand: a tree with one hole. -/
inductive Ctx (F : Type) where
  | hole
  | inside (d : Comp F) (before : List (Optic F)) (c : Ctx F) (after : List (Optic F))

/-- Put a list of sibling items in the hole (which must be below a compound); the empty list removes the item. -/
def Ctx.fill (F : Type) : Ctx F → List (Optic F) → List (Optic F)
  | .hole, os => os
  | .inside d a c b, os => [.compound d (a ++ Ctx.fill F c os ++ b)]

theorem visits_fill_skipped (c : Ctx F) (o : Optic F) (ho : o.skip = true) :
    visitsItems (Ctx.fill F c [o]) = visitsItems (Ctx.fill F c []) := by
  induction c with
  | hole => simp [Ctx.fill, visitsItems, ho]
  | inside d a c b ih =>
    simp only [Ctx.fill, visitsItems, Optic.skip, visits, visitsItems_append, ih]

/-- C55 for `trace`: an item with `skip` set, anywhere below a compound, is transparent to `trace` in both directions: the
result is that of the tree without it. -/
theorem C55_trace_transparent (niter : ℕ) (reverse : Bool) (d : Comp F) (a b : List (Optic F)) (c : Ctx F)
    (o : Optic F) (ho : o.skip = true) (rv : RayVec F) :
    (Optic.compound d (a ++ Ctx.fill F c [o] ++ b)).trace niter reverse rv
      = (Optic.compound d (a ++ Ctx.fill F c [] ++ b)).trace niter reverse rv := by
  have h : visits (Optic.compound d (a ++ Ctx.fill F c [o] ++ b)) = visits (Optic.compound d (a ++ Ctx.fill F c [] ++ b)) := by
    simp only [visits, visitsItems_append, visits_fill_skipped c o ho]
  cases reverse
  · rw [trace_visits, trace_visits, h]
  · rw [trace_visits_rev, trace_visits_rev, h]

end

/-! ## C51 -/

section
variable {F : Type} [Arith F]

/-- The record of a sequence of interfaces traversed one after the other: each input is the previous output. -/
def history (niter : ℕ) (reverse : Bool) : List (Iface F) → RayVec F → List (Name × Record F)
  | [], _ => []
  | d :: ds, rv => (d.name, ⟨d.name, rv, d.trace niter reverse rv⟩) :: history niter reverse ds (d.trace niter reverse rv)

theorem history_keys (niter : ℕ) (reverse : Bool) : ∀ (ds : List (Iface F)) (rv : RayVec F),
    (history niter reverse ds rv).map Prod.fst = ds.map (·.name)
  | [], _ => rfl
  | d :: ds, rv => by simp [history, history_keys niter reverse ds]

theorem history_append (niter : ℕ) (reverse : Bool) : ∀ (ds es : List (Iface F)) (rv : RayVec F),
    history niter reverse (ds ++ es) rv
      = history niter reverse ds rv ++ history niter reverse es (ds.foldl (fun rv d => d.trace niter reverse rv) rv)
  | [], _, _ => rfl
  | d :: ds, es, rv => by simp [history, history_append niter reverse ds es]

theorem set_fresh {α β : Type} [DecidableEq α] : ∀ (d : Dict α β) (k : α) (v : β), k ∉ d.map Prod.fst → d.set k v = d ++ [(k, v)]
  | [], _, _, _ => rfl
  | (k', v') :: d, k, v, h => by
    simp only [List.map_cons, List.mem_cons, not_or] at h
    rw [Dict.set, if_neg (fun e => h.1 e.symm), set_fresh d k v h.2]; rfl

theorem merge_history (niter : ℕ) (reverse : Bool) : ∀ (ds : List (Iface F)) (acc : Dict Name (Record F)) (rv : RayVec F),
    (acc.map Prod.fst ++ ds.map (·.name)).Nodup →
    Optic.mergeFull (history niter reverse ds rv) (acc, rv)
      = (acc ++ history niter reverse ds rv, ds.foldl (fun rv d => d.trace niter reverse rv) rv)
  | [], acc, rv, _ => by simp [history, Optic.mergeFull]
  | d :: ds, acc, rv, h => by
    have hf : d.name ∉ acc.map Prod.fst := by
      intro hm
      rw [List.nodup_append] at h
      exact h.2.2 _ hm d.name (by simp) rfl
    simp only [history, Optic.mergeFull, set_fresh acc d.name _ hf]
    rw [merge_history niter reverse ds _ _ (by simpa using h)]
    simp

mutual
theorem full_history (niter : ℕ) : ∀ (o : Optic F) (rv : RayVec F), ((visits o).map (·.name)).Nodup → o.skip = false →
    o.traceFull niter false rv = history niter false (visits o) rv
  | .iface d, rv, _, hs => by
    simp only [Optic.skip] at hs
    simp [Optic.traceFull, visits, history, hs]
  | .compound d items, rv, h, hs => by
    simp only [Optic.skip] at hs
    rw [visits] at h
    have := fullItems_history niter items [] rv (by simpa using h)
    simp [Optic.traceFull, hs, visits, this]
theorem fullItems_history (niter : ℕ) : ∀ (items : List (Optic F)) (acc : Dict Name (Record F)) (rv : RayVec F),
    (acc.map Prod.fst ++ (visitsItems items).map (·.name)).Nodup →
    Optic.fullItems niter items (acc, rv) = (acc ++ history niter false (visitsItems items) rv,
      (visitsItems items).foldl (fun rv d => d.trace niter false rv) rv)
  | [], acc, rv, _ => by simp [Optic.fullItems, visitsItems, history]
  | o :: os, acc, rv, h => by
    rw [Optic.fullItems, visitsItems]
    rw [visitsItems] at h
    cases hs : o.skip with
    | true =>
      have h0 : o.traceFull niter false rv = [] := by
        cases o <;> simp only [Optic.skip] at hs <;> simp [Optic.traceFull, hs]
      rw [h0]
      simp only [hs, if_true, List.nil_append] at h ⊢
      exact fullItems_history niter os acc rv h
    | false =>
      simp only [hs, Bool.false_eq_true, if_false] at h ⊢
      have hn : ((visits o).map (·.name)).Nodup := by
        rw [List.map_append] at h
        exact (List.nodup_append.1 (List.nodup_append.1 h).2.1).1
      rw [full_history niter o rv hn hs, merge_history _ _ _ _ _ (by
        rw [List.map_append, ← List.append_assoc] at h
        exact (List.nodup_append.1 h).1)]
      rw [fullItems_history niter os _ _ (by
        rw [List.map_append, history_keys]; simpa using h)]
      rw [history_append, List.foldl_append, List.append_assoc]
end

mutual
theorem fullRev_history (niter : ℕ) : ∀ (o : Optic F) (rv : RayVec F), ((visits o).map (·.name)).Nodup → o.skip = false →
    o.traceFull niter true rv = history niter true (visits o).reverse rv
  | .iface d, rv, _, hs => by
    simp only [Optic.skip] at hs
    simp [Optic.traceFull, visits, history, hs]
  | .compound d items, rv, h, hs => by
    simp only [Optic.skip] at hs
    rw [visits] at h
    have := fullItemsRev_history niter items [] rv (by simpa using h)
    simp [Optic.traceFull, hs, visits, this]
theorem fullItemsRev_history (niter : ℕ) : ∀ (items : List (Optic F)) (acc : Dict Name (Record F)) (rv : RayVec F),
    (acc.map Prod.fst ++ (visitsItems items).map (·.name)).Nodup →
    Optic.fullItemsRev niter items (acc, rv) = (acc ++ history niter true (visitsItems items).reverse rv,
      (visitsItems items).reverse.foldl (fun rv d => d.trace niter true rv) rv)
  | [], acc, rv, _ => by simp [Optic.fullItemsRev, visitsItems, history]
  | o :: os, acc, rv, h => by
    rw [Optic.fullItemsRev, visitsItems]
    rw [visitsItems] at h
    cases hs : o.skip with
    | true =>
      have h0 : ∀ rv, o.traceFull niter true rv = [] := by
        intro rv
        cases o <;> simp only [Optic.skip] at hs <;> simp [Optic.traceFull, hs]
      simp only [h0, Optic.mergeFull]
      simp only [hs, if_true, List.nil_append] at h ⊢
      exact fullItemsRev_history niter os acc rv h
    | false =>
      simp only [hs, Bool.false_eq_true, if_false] at h ⊢
      have hn : ((visits o).map (·.name)).Nodup := by
        rw [List.map_append] at h
        exact (List.nodup_append.1 (List.nodup_append.1 h).2.1).1
      have hos : (acc.map Prod.fst ++ (visitsItems os).map (·.name)).Nodup := by
        rw [List.map_append] at h
        refine h.sublist ?_
        simp
      rw [fullItemsRev_history niter os acc rv hos]
      simp only
      rw [fullRev_history niter o _ hn hs, merge_history _ _ _ _ _ (by
        rw [List.map_append, history_keys]
        refine (List.Perm.nodup_iff ?_).1 h
        rw [List.append_assoc]
        refine List.Perm.append_left _ ?_
        rw [List.map_append, List.map_reverse, List.map_reverse]
        refine List.perm_append_comm.trans ?_
        exact List.Perm.append (List.reverse_perm _).symm (List.reverse_perm _).symm)]
      rw [List.reverse_append, history_append, List.foldl_append, List.append_assoc]
end

/-- The interfaces in the order of traversal. -/
def order (reverse : Bool) (o : Optic F) : List (Iface F) := if reverse then (visits o).reverse else visits o

theorem history_chain (niter : ℕ) (reverse : Bool) : ∀ (ds : List (Iface F)) (rv : RayVec F) (i : ℕ) (d : Iface F),
    ds[i]? = some d → ∃ rec, (history niter reverse ds rv)[i]? = some (d.name, rec) ∧ rec.name = d.name ∧
      rec.output = d.trace niter reverse rec.input ∧
      rec.input = (if i = 0 then rv else (((history niter reverse ds rv)[i-1]?).map (·.2.output)).getD rv)
  | [], _, i, d, h => by simp at h
  | d' :: ds, rv, 0, d, h => by
    simp at h; subst h
    exact ⟨_, rfl, rfl, rfl, rfl⟩
  | d' :: ds, rv, i + 1, d, h => by
    obtain ⟨rec, h1, h2, h3, h4⟩ := history_chain niter reverse ds (d'.trace niter reverse rv) i d (by simpa using h)
    refine ⟨rec, by simpa [history] using h1, h2, h3, ?_⟩
    rw [h4]
    cases i with
    | zero => simp [history]
    | succ j =>
      have hj : ∃ e, ds[j]? = some e := by
        have hlt : j + 1 < ds.length := by
          simp only [List.getElem?_cons_succ] at h
          exact (List.getElem?_eq_some_iff.1 h).1
        exact ⟨ds[j], by simp⟩
      obtain ⟨e, he⟩ := hj
      obtain ⟨rec', h1', -⟩ := history_chain niter reverse ds (d'.trace niter reverse rv) j e he
      simp [history, h1']

/-- C51 for trees whose visible interfaces have distinct names: the keys of `traceFull` are the names of the interfaces in
the order of traversal, every record holds the result of tracing that interface on its input, the first input is the
given ray vector (unmodified), every other input is the previous output, and the last output (the given rays if nothing is
visited) is the result of `trace`.  Missing from the full statement: interfaces sharing a name overwrite each other
(`C51_same_name_violated`, `C51_same_name_nested_violated`). -/
theorem C51_traceFull_partial (niter : ℕ) (reverse : Bool) (o : Optic F) (rv : RayVec F)
    (hnames : ((visits o).map (·.name)).Nodup) (hs : o.skip = false) :
    let tf := o.traceFull niter reverse rv
    tf.map Prod.fst = (order reverse o).map (·.name) ∧
    (∀ (i : ℕ) (d : Iface F), (order reverse o)[i]? = some d → ∃ rec, tf[i]? = some (d.name, rec) ∧
      rec.name = d.name ∧ rec.output = d.trace niter reverse rec.input ∧
      rec.input = (if i = 0 then rv else ((tf[i-1]?).map (·.2.output)).getD rv)) ∧
    ((tf.getLast?).map (·.2.output)).getD rv = o.trace niter reverse rv := by
  have htf : o.traceFull niter reverse rv = history niter reverse (order reverse o) rv := by
    cases reverse
    · exact full_history niter o rv hnames hs
    · exact fullRev_history niter o rv hnames hs
  have htr : o.trace niter reverse rv = (order reverse o).foldl (fun rv d => d.trace niter reverse rv) rv := by
    cases reverse
    · exact trace_visits niter o rv
    · exact trace_visits_rev niter o rv
  have hlast : ∀ (ds : List (Iface F)) (rv : RayVec F),
      ((history niter reverse ds rv).getLast?.map (·.2.output)).getD rv = ds.foldl (fun rv d => d.trace niter reverse rv) rv := by
    intro ds
    induction ds with
    | nil => intro rv; rfl
    | cons d ds ih =>
      intro rv
      rw [List.foldl_cons, ← ih]
      cases ds with
      | nil => rfl
      | cons e es => simp [history, List.getLast?_cons_cons, List.getLast?_eq_some_getLast]
  intro tf
  refine ⟨?_, ?_, ?_⟩
  · simp only [tf]; rw [htf, history_keys]
  · intro i d hi
    simp only [tf]; rw [htf]
    exact history_chain niter reverse _ rv i d hi
  · simp only [tf]; rw [htf, hlast, htr]

end

/-- A flat detector at height `z`. -/
noncomputable def demoFlat (nm : String) (z : ℝ) : Iface Dbl :=
  { demoMirror with kind := .detector, name := nm.toList, obscuration := none, coordSys := (CoordSys.mk ⟨0, 0, z⟩ M3.one).fin }

/-- A compound with the given name and items. -/
noncomputable def demoComp (nm : String) (items : List (Optic Dbl)) : Optic Dbl :=
  .compound ⟨false, nm.toList, (CoordSys.std ℝ).fin, ⟨fun _ => Dbl.fin 1⟩, ⟨fun _ => Dbl.fin 1⟩, false, none⟩ items

theorem demo_frame_ne {y z : ℝ} (h : y ≠ z) : (CoordSys.mk ⟨0, 0, y⟩ M3.one).fin ≠ (CoordSys.mk ⟨0, 0, z⟩ M3.one).fin := by
  intro e
  apply h
  have := congrArg (fun c : CoordSys Dbl => c.origin.z) e
  simpa [CoordSys.fin, V3.fin] using this

/-- Distinct names: the hypotheses of `C51_traceFull_partial` hold. -/
example (rv : RayVec Dbl) : (((demoComp "T" [.iface (demoFlat "A" 0), demoComp "U" [.iface (demoFlat "B" 1)]]).traceFull
    5 false rv).map Prod.fst) = ["A".toList, "B".toList] := by
  have := (C51_traceFull_partial 5 false (demoComp "T" [.iface (demoFlat "A" 0), demoComp "U" [.iface (demoFlat "B" 1)]]) rv
    (by simp [demoComp, visits, visitsItems, demoFlat, Optic.skip, demoMirror]) rfl).1
  rw [this]
  simp [demoComp, visits, visitsItems, demoFlat, Optic.skip, demoMirror, order]

/-- C51 fails for a beam passing two interfaces of the same name: with items `A`, `B`, `A` the record of the second `A`
replaces that of the first one in place, so the last record is that of `B` and its output is not the result of `trace`. -/
theorem C51_same_name_violated : ∃ (o : Optic Dbl), o.skip = false ∧ ∀ rv : RayVec Dbl,
    ((o.traceFull 5 false rv).getLast?.map (·.2.output)).getD rv ≠ o.trace 5 false rv := by
  refine ⟨demoComp "T" [.iface (demoFlat "A" 0), .iface (demoFlat "B" 1), .iface (demoFlat "A" 2)], rfl, ?_⟩
  intro rv e
  have e2 := congrArg RayVec.coordSys e
  rw [(C52_final_frame 5 _ rv).1] at e2
  simp [demoComp, Optic.traceFull, Optic.fullItems, Optic.mergeFull, Dict.set, demoFlat, demoMirror, visits, visitsItems,
    Optic.skip] at e2
  rw [(C18_trace_frame_and_order _ 5 false _).1] at e2
  exact demo_frame_ne (by norm_num) e2

/-- C51 fails worse when the repeated name is inside a nested compound: the interface after the nested compound is traced
from the output of `B`, not from what the nested compound puts out, so its recorded rays are wrong too. -/
theorem C51_same_name_nested_violated : ∃ (d : Comp Dbl) (sub : Optic Dbl) (c : Iface Dbl), d.skip = false ∧ sub.skip = false ∧
    c.skip = false ∧ ∀ rv : RayVec Dbl, ∃ rec, ((Optic.compound d [sub, .iface c]).traceFull 5 false rv).get? c.name = some rec ∧
      rec.input ≠ sub.trace 5 false rv := by
  refine ⟨⟨false, "T".toList, (CoordSys.std ℝ).fin, ⟨fun _ => Dbl.fin 1⟩, ⟨fun _ => Dbl.fin 1⟩, false, none⟩,
    demoComp "U" [.iface (demoFlat "A" 0), .iface (demoFlat "B" 1), .iface (demoFlat "A" 2)], demoFlat "C" 3, rfl, rfl, rfl,
    fun rv => ⟨⟨"C".toList, (demoFlat "B" 1).trace 5 false ((demoFlat "A" 0).trace 5 false rv),
      (demoFlat "C" 3).trace 5 false ((demoFlat "B" 1).trace 5 false ((demoFlat "A" 0).trace 5 false rv))⟩, ?_, ?_⟩⟩
  · simp [demoComp, Optic.traceFull, Optic.fullItems, Optic.mergeFull, Dict.set, Dict.get?, demoFlat, demoMirror]
  · intro e
    have e2 := congrArg RayVec.coordSys e
    rw [(C52_final_frame 5 _ rv).1, (C18_trace_frame_and_order _ 5 false _).1] at e2
    simp [demoComp, visits, visitsItems, Optic.skip, demoFlat, demoMirror] at e2
    exact demo_frame_ne (by norm_num) e2

/-! ## C55, continued -/

section
variable {F : Type} [Arith F]

theorem fullItems_append (niter : ℕ) : ∀ (a b : List (Optic F)) (s : Dict Name (Record F) × RayVec F),
    Optic.fullItems niter (a ++ b) s = Optic.fullItems niter b (Optic.fullItems niter a s)
  | [], b, s => by simp [Optic.fullItems]
  | o :: a, b, s => by simp [Optic.fullItems, fullItems_append niter a b]

theorem fullItemsRev_append (niter : ℕ) : ∀ (a b : List (Optic F)) (s : Dict Name (Record F) × RayVec F),
    Optic.fullItemsRev niter (a ++ b) s = Optic.fullItemsRev niter a (Optic.fullItemsRev niter b s)
  | [], b, s => by simp [Optic.fullItemsRev]
  | o :: a, b, s => by simp [Optic.fullItemsRev, fullItemsRev_append niter a b]

theorem traceFull_skip (niter : ℕ) (reverse : Bool) (o : Optic F) (ho : o.skip = true) (rv : RayVec F) :
    o.traceFull niter reverse rv = [] := by
  cases o <;> simp only [Optic.skip] at ho <;> simp [Optic.traceFull, ho]

/-- C55 for `traceFull`: an item with `skip` set, anywhere below a compound, leaves no record and changes no other record
(no assumption on names). -/
theorem C55_traceFull_transparent (niter : ℕ) (reverse : Bool) (d : Comp F) (a b : List (Optic F)) (c : Ctx F)
    (o : Optic F) (ho : o.skip = true) (rv : RayVec F) :
    (Optic.compound d (a ++ Ctx.fill F c [o] ++ b)).traceFull niter reverse rv
      = (Optic.compound d (a ++ Ctx.fill F c [] ++ b)).traceFull niter reverse rv := by
  have h1 : ∀ s, Optic.fullItems niter (Ctx.fill F c [o]) s = Optic.fullItems niter (Ctx.fill F c []) s := by
    induction c with
    | hole => intro s; simp [Ctx.fill, Optic.fullItems, traceFull_skip niter false o ho, Optic.mergeFull]
    | inside d a c b ih =>
      intro s
      simp only [Ctx.fill, Optic.fullItems, Optic.traceFull, fullItems_append, ih, Bool.false_eq_true, if_false]
  have h2 : ∀ s, Optic.fullItemsRev niter (Ctx.fill F c [o]) s = Optic.fullItemsRev niter (Ctx.fill F c []) s := by
    clear h1
    induction c with
    | hole => intro s; simp [Ctx.fill, Optic.fullItemsRev, traceFull_skip niter true o ho, Optic.mergeFull]
    | inside d a c b ih =>
      intro s
      simp only [Ctx.fill, Optic.fullItemsRev, Optic.traceFull, fullItemsRev_append, ih, if_true]
  cases reverse <;> simp only [Optic.traceFull, fullItems_append, fullItemsRev_append, h1, h2]

/-- C55 fails for `traceSplit`: a compound with a skipped item met by the rays raises `TypeError`, for every choice of
items, rays and threshold. -/
theorem C55_traceSplit_skip_violated (niter fuel : ℕ) (minFlux : F) (d : Comp F) (hd : d.skip = false)
    (o : Optic F) (ho : o.skip = true) (rest : List (Optic F)) (b : Beam F) :
    Optic.traceSplit niter minFlux (fuel + 3) false (.compound d (o :: rest)) b = some (.error .typeError) := by
  have hc : (Optic.compound d (o :: rest)).skip = false := hd
  simp [Optic.traceSplit, hc, Optic.splitLoop, ho, Except.map]

/-- C55 fails for the constructors: whatever `skip` is given, the constructed optic is not skipped. -/
theorem C55_constructor_ignores_skip_violated :
    (∀ (d d' : Iface F), Iface.init d = .ok d' → d'.skip = false) ∧
    (∀ (d : Comp F) (items : List (Optic F)) (o : Optic F), Optic.mkCompound d items = .ok o → o.skip = false) := by
  constructor
  · intro d d' h
    have key : ∀ e : Iface F, e.skip = false → e.resetCoatings.skip = false := by
      intro e he; unfold Iface.resetCoatings; cases e.kind <;> exact he
    unfold Iface.init at h
    split at h
    · split at h
      · cases h; exact key _ rfl
      · cases h
    · cases h; exact key _ rfl
  · intro d items o h
    unfold Optic.mkCompound at h
    split at h
    · split at h
      · split at h
        · cases h; rfl
        · cases h
      · cases h
    · cases h; rfl

/-- C55 fails for copies: a shifted, rotated or re-surfaced copy of any optic is not skipped. -/
theorem C55_copies_lose_skip_violated (o o' : Optic F) :
    (∀ shift, o.withGlobalShift shift = .ok o' → o'.skip = false) ∧
    (∀ rot ce cs, o.withGlobalRotation rot ce cs = .ok o' → o'.skip = false) := by
  obtain ⟨h1, h2⟩ := C55_constructor_ignores_skip_violated (F := F)
  constructor
  · intro shift h
    cases o with
    | iface d =>
      simp only [Optic.withGlobalShift, Iface.withGlobalShift] at h
      cases hi : Iface.init { d with coordSys := d.coordSys.shiftGlobal shift, stop := d.stop.map (·.globalShift shift) } with
      | error e => rw [hi] at h; cases h
      | ok d' => rw [hi] at h; cases h; exact h1 _ _ hi
    | compound d items =>
      simp only [Optic.withGlobalShift] at h
      cases hi : Optic.shiftItems shift items with
      | error e => rw [hi] at h; cases h
      | ok l => rw [hi] at h; exact h2 _ _ _ h
  · intro rot ce cs h
    cases o with
    | iface d =>
      simp only [Optic.withGlobalRotation, Iface.withGlobalRotation] at h
      cases hi : Iface.init { d with coordSys := d.coordSys.rotateGlobal rot ce cs,
                                     stop := d.stop.map (·.globalRotation rot ce cs) } with
      | error e => rw [hi] at h; cases h
      | ok d' => rw [hi] at h; cases h; exact h1 _ _ hi
    | compound d items =>
      simp only [Optic.withGlobalRotation] at h
      cases hi : Optic.rotateItems rot ce cs items with
      | error e => rw [hi] at h; cases h
      | ok l => rw [hi] at h; exact h2 _ _ _ h

end

/-- The consequence for a user: skipping an interface of a telescope and then shifting the telescope changes what is traced.
Here the skipped detector `B` is visited again after a shift by zero. -/
theorem C55_shift_unskips_violated : ∃ (o o' : Optic Dbl), o.withGlobalShift ⟨Dbl.fin 0, Dbl.fin 0, Dbl.fin 0⟩ = .ok o' ∧
    (visits o).map (·.name) = ["A".toList] ∧ (visits o').map (·.name) = ["A".toList, "B".toList] := by
  refine ⟨demoComp "T" [.iface (demoFlat "A" 0), .iface { demoFlat "B" 1 with skip := true }], _, rfl, ?_, ?_⟩
  · simp [demoComp, visits, visitsItems, Optic.skip, demoFlat, demoMirror]
  · rfl

/-- C55 fails for the optic on which `trace` is called: its own `skip` is not looked at (`traceFull` does look at it and
records nothing). -/
theorem C55_own_skip_violated : ∃ o : Optic Dbl, o.skip = true ∧ ∀ rv : RayVec Dbl, rv.coordSys = (CoordSys.std ℝ).fin →
    o.trace 5 false rv ≠ rv ∧ o.traceFull 5 false rv = [] := by
  refine ⟨.iface { demoFlat "A" 1 with skip := true }, rfl, fun rv hrv => ⟨fun e => ?_, rfl⟩⟩
  have e2 := congrArg RayVec.coordSys e
  rw [hrv, Optic.trace, (C18_trace_frame_and_order _ 5 false _).1] at e2
  exact demo_frame_ne (y := 1) (z := 0) (by norm_num) e2

end Batoid.Props
