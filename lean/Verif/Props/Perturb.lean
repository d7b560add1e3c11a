/-
C94: withPerturbedSurface adds the perturbation to one surface and changes nothing else.
-/
import Verif.Props.Edits
import Verif.Props.Normals
import Verif.Props.Trace

namespace Batoid.Props
open Batoid Arith Surface

/-- `x'` is the interface `x` with `q` added to its surface: heights add, slopes add where both are smooth, rays land within
1e-12 of the summed surface, and rays that miss the original surface miss. -/
structure PerturbedBy (q : Surface Dbl) (x x' : Iface Dbl) : Prop where
  kind : x'.kind = x.kind
  name : x'.name = x.name
  obscuration : x'.obscuration = x.obscuration
  inMedium : x'.inMedium = x.inMedium
  outMedium : x'.outMedium = x.outMedium
  coordSys : x'.coordSys = x.coordSys
  stop : x'.stop = x.stop
  sag : ∀ u w, x'.surface.sag u w = x.surface.sag u w + q.sag u w
  normal : ∀ D : Set (ℝ × ℝ), IsOpen D → TrueNormals x.surface D → TrueNormals q D → TrueNormals x'.surface D
  lands : ∀ (r v : V3 ℝ) dt niter, (x'.surface.timeToIntersect r.fin v.fin dt niter).1 = true →
    ∃ t a b : ℝ, (x'.surface.timeToIntersect r.fin v.fin dt niter).2 = .fin t ∧
      x.surface.sag (.fin (pointAt r v t).x) (.fin (pointAt r v t).y) = .fin a ∧
      q.sag (.fin (pointAt r v t).x) (.fin (pointAt r v t).y) = .fin b ∧ |a + b - (pointAt r v t).z| < 1 / 10 ^ 12
  misses : ∀ r v dt niter, (x.surface.timeToIntersect r v dt niter).1 = false →
    (x'.surface.timeToIntersect r v dt niter).1 = false

theorem sum_two_sag (s q : Surface Dbl) (u w : Dbl) : (Surface.sum [s, q]).sag u w = s.sag u w + q.sag u w := by
  show sumSag _ _ _ = _
  rw [sumSag_eq]; simp only [List.map_cons, List.map_nil, dsum, List.foldr_cons, List.foldr_nil]
  rw [Dbl.add_comm' (q.sag u w), Dbl.zero_add']

theorem fin_add_fin {A B : Dbl} {z : ℝ} (h : A + B = .fin z) : ∃ a b : ℝ, A = .fin a ∧ B = .fin b ∧ a + b = z := by
  cases A <;> cases B <;> first | (exact ⟨_, _, rfl, rfl, by simpa using h⟩) | (exact absurd h (by intro h; cases h))

theorem editedAt_mono {F : Type} {R S : Optic F → Optic F → Prop} (h : ∀ a b, R a b → S a b) {p : List Name} {o o' : Optic F}
    (e : EditedAt R p o o') : EditedAt S p o o' := by
  induction e with
  | here hr => exact .here (h _ _ hr)
  | inside _ ih => exact .inside ih

theorem perturbedBy_of_resurfaced {q : Surface Dbl} {x x' : Iface Dbl} (h : Resurfaced (Surface.sum [x.surface, q]) x x') :
    PerturbedBy q x x' where
  kind := h.kind
  name := h.name
  obscuration := h.obscuration
  inMedium := h.inMedium
  outMedium := h.outMedium
  coordSys := h.coordSys
  stop := h.stop
  sag u w := by rw [h.surface, sum_two_sag]
  normal D hD hs hq := by
    rw [h.surface]
    refine C28_normal hD fun s hs' => ?_
    simp only [List.mem_cons, List.not_mem_nil, or_false] at hs'
    rcases hs' with rfl | rfl <;> assumption
  lands r v dt niter ht := by
    rw [h.surface] at ht ⊢
    obtain ⟨t, z, h1, h2, h3⟩ := C28_intersection _ r v dt niter ht
    rw [← sumSag_eq] at h2
    have h4 := sum_two_sag x.surface q (.fin (pointAt r v t).x) (.fin (pointAt r v t).y)
    rw [show (Surface.sum [x.surface, q]).sag (.fin (pointAt r v t).x) (.fin (pointAt r v t).y) = .fin z from h2] at h4
    obtain ⟨a, b, ha, hb, e⟩ := fin_add_fin h4.symm
    exact ⟨t, a, b, h1, ha, hb, by rw [e]; exact h3⟩
  misses r v dt niter hm := by
    rw [h.surface]
    show (sumTime _ _ _ _ _).1 = _
    rw [sumTime]
    revert hm
    generalize x.surface.timeToIntersect r v dt niter = T
    rcases T with ⟨_ | _, t⟩ <;> intro hm
    · rfl
    · cases hm

/-- **C94** for one interface. -/
theorem C94_interface (x : Iface Dbl) (q : Surface Dbl) (hw : WellFormed (.iface x)) :
    ∃ x', x.withPerturbedSurface q = .ok x' ∧ PerturbedBy q x x' := by
  have h1 : Iface.init { x with surface := Surface.sum [x.surface, q] } =
    .ok { x with surface := Surface.sum [x.surface, q], skip := false }.resetCoatings := init_ok hw
  obtain ⟨r1, r2, r3, r4, r5, r6, r7, r8, -⟩ :=
    resetCoatings_fields ({ x with surface := Surface.sum [x.surface, q], skip := false } : Iface Dbl)
  exact ⟨_, h1, perturbedBy_of_resurfaced ⟨r1, r2, r3, r4, r5, r6, r7, r8⟩⟩

/-- **C94** for compounds, in trees where no name is a prefix of that of a later sibling: `o.withPerturbedSurface(key, q)`
perturbs the interface returned by `o[key]` and leaves everything else as it is.  Naming a compound raises
`AttributeError`; a key that denotes nothing raises `KeyError` (not `ValueError` as in `o[key]`).  Missing: prefix related
siblings (C50). -/
theorem C94_named_partial (d : Comp Dbl) (items : List (Optic Dbl)) (ht : Tidy (.compound d items)) (key : Name)
    (q : Surface Dbl) :
    (∀ x, (Optic.compound d items).getItem key = .ok (.iface x) → ∃ p o', (p, .iface x) ∈ nodes (.compound d items) ∧
      (Optic.compound d items).withPerturbedSurface key q = .ok o' ∧
      EditedAt (fun a b => a = .iface x ∧ ∃ x', b = .iface x' ∧ PerturbedBy q x x') p (.compound d items) o') ∧
    (∀ c its, (Optic.compound d items).getItem key = .ok (.compound c its) →
      (Optic.compound d items).withPerturbedSurface key q = .error .attributeError) ∧
    (∀ e, (Optic.compound d items).getItem key = .error e →
      (Optic.compound d items).withPerturbedSurface key q = .error .keyError) := by
  have hget : ∀ x, (Optic.compound d items).getItem key = .ok x → ∃ p, Denotes (.compound d items) key p x ∧
      ((Optic.compound d items).names.get? key).getD key = dotted p ∧
      (Optic.compound d items).itemDict.get? (dotted p) = some x ∧ (Optic.compound d items).getItem (dotted p) = .ok x := by
    intro x hx
    obtain ⟨p, hd⟩ := ((C48_lookup_partial d items ht.good key).1 _).1 hx
    have h1 := (itemDict_get ht.good (dotted p) x).2 ⟨p, hd.1, rfl⟩
    refine ⟨p, hd, resolve_denotes ht.good hd, h1, ?_⟩
    simp only [Optic.getItem, h1]
  refine ⟨fun x hx => ?_, fun c its hx => ?_, fun e he => ?_⟩
  · obtain ⟨p, hd, h1, h2, h3⟩ := hget _ hx
    obtain ⟨p', o', m, h4, h5⟩ := (C50_withSurface_partial d items ht (dotted p) (Surface.sum [x.surface, q])).1 x h3
    refine ⟨p', o', m, ?_, editedAt_mono ?_ h5⟩
    · simp only [Optic.withPerturbedSurface, h1, h2]; exact h4
    · rintro a b ⟨e1, x', e2, e3⟩
      exact ⟨e1, x', e2, perturbedBy_of_resurfaced e3⟩
  · obtain ⟨p, hd, h1, h2, h3⟩ := hget _ hx
    simp only [Optic.withPerturbedSurface, h1, h2]
  · have h1 : (Optic.compound d items).itemDict.get? (((Optic.compound d items).names.get? key).getD key) = none := by
      obtain ⟨h1, h2⟩ := resolve_none ht.good (key := key) (by
        rintro ⟨p, x, hd⟩
        rw [((C48_lookup_partial d items ht.good key).1 x).2 ⟨p, hd⟩] at he
        cases he)
      simp only [h1, Option.getD_none, h2]
    simp only [Optic.withPerturbedSurface, h1]

/-! ### The order of perturbations -/

/-- The sag of a twice perturbed surface. -/
theorem sum_twice_sag (s p q : Surface Dbl) (u w : Dbl) :
    (Surface.sum [Surface.sum [s, p], q]).sag u w = (Surface.sum [Surface.sum [s, q], p]).sag u w := by
  rw [sum_two_sag, sum_two_sag, sum_two_sag, sum_two_sag]
  generalize s.sag u w = a; generalize p.sag u w = b; generalize q.sag u w = c
  rw [Dbl.add_assoc', Dbl.add_assoc', Dbl.add_comm' b c]

/-- **C94** Perturbations may be applied in any order: heights are the same everywhere, normals wherever all three surfaces
are smooth. -/
theorem C94_order (x : Iface Dbl) (p q : Surface Dbl) (hw : WellFormed (.iface x)) :
    ∃ a b a' b', x.withPerturbedSurface p = .ok a ∧ a.withPerturbedSurface q = .ok b ∧
      x.withPerturbedSurface q = .ok a' ∧ a'.withPerturbedSurface p = .ok b' ∧
      (∀ u w, b.surface.sag u w = b'.surface.sag u w) ∧
      (∀ (D : Set (ℝ × ℝ)), IsOpen D → TrueNormals x.surface D → TrueNormals p D → TrueNormals q D →
        ∀ z ∈ D, b.surface.normal (.fin z.1) (.fin z.2) = b'.surface.normal (.fin z.1) (.fin z.2)) := by
  have key : ∀ (x : Iface Dbl) (s : Surface Dbl), WellFormed (.iface x) → ∃ a, x.withPerturbedSurface s = .ok a ∧
      a.surface = Surface.sum [x.surface, s] ∧ WellFormed (.iface a) := by
    intro x s hw
    have h1 : Iface.init { x with surface := Surface.sum [x.surface, s] } =
      .ok { x with surface := Surface.sum [x.surface, s], skip := false }.resetCoatings := init_ok hw
    obtain ⟨r1, r2, r3, r4, r5, r6, r7, r8, -⟩ :=
      resetCoatings_fields ({ x with surface := Surface.sum [x.surface, s], skip := false } : Iface Dbl)
    refine ⟨_, h1, r3, ?_⟩
    simpa only [WellFormed, r1, r5, r6] using hw
  obtain ⟨a, h1, e1, w1⟩ := key x p hw
  obtain ⟨b, h2, e2, -⟩ := key a q w1
  obtain ⟨a', h3, e3, w3⟩ := key x q hw
  obtain ⟨b', h4, e4, -⟩ := key a' p w3
  refine ⟨a, b, a', b', h1, h2, h3, h4, fun u w => ?_, fun D hD hs hp hq z hz => ?_⟩
  · rw [e2, e4, e1, e3, sum_twice_sag]
  · have pair : ∀ {s t : Surface Dbl}, TrueNormals s D → TrueNormals t D → TrueNormals (Surface.sum [s, t]) D := by
      intro s t h1 h2
      exact C28_normal hD (by simp only [List.mem_cons, List.not_mem_nil, or_false, forall_eq_or_imp, forall_eq]; exact ⟨h1, h2⟩)
    obtain ⟨n, hn, hN⟩ := (pair (pair hs hp) hq).normal z hz
    obtain ⟨m, hm, hM⟩ := (pair (pair hs hq) hp).normal z hz
    simp only [sum_twice_sag x.surface p q] at hN
    rw [e2, e4, e1, e3, hn, hm, hN.unique hM]

/-! ### Perturbations that are zero -/

theorem step_pointAt (r v : V3 ℝ) (t : ℝ) : r.fin + v.fin.smulR (Dbl.fin t) = (pointAt r v t).fin := by
  ext <;> simp only [V3.add_x, V3.add_y, V3.add_z, V3.smulR_x, V3.smulR_y, V3.smulR_z, V3.fin_x, V3.fin_y, V3.fin_z,
    Dbl.mul_fin, Dbl.add_fin, pointAt, mul_comm t]

/-- An exact guess stays where it is. -/
theorem newtonIter_exact {sag : Dbl → Dbl → Dbl} {normal : Dbl → Dbl → V3 Dbl} {r v n : V3 ℝ} {t : ℝ}
    (hs : sag (.fin (pointAt r v t).x) (.fin (pointAt r v t).y) = .fin (pointAt r v t).z)
    (hn : normal (.fin (pointAt r v t).x) (.fin (pointAt r v t).y) = n.fin) (hv : V3.dot n v ≠ 0) (k : ℕ) :
    newtonIter sag normal r.fin v.fin k (.fin t) = .fin t := by
  induction k with
  | zero => rfl
  | succ k ih =>
    rw [newtonIter]
    have : newtonStep sag normal r.fin v.fin (.fin t) = .fin t := by
      have e := step_pointAt r v t
      simp only [newtonStep, e, V3.fin_x, V3.fin_y, V3.fin_z, hs, hn]
      simp only [V3.dot, V3.fin_x, V3.fin_y, V3.fin_z, Dbl.sub_fin, Dbl.mul_fin, Dbl.add_fin]
      rw [Dbl.div_fin (by simpa [V3.dot] using hv)]
      congr 1
      rw [div_eq_iff (by simpa [V3.dot] using hv)]
      simp only [pointAt]; ring
    rw [this, ih]

/-- `s` and `s'` do the same to the ray at `r` with velocity `v`. -/
def SameHit (s s' : Surface Dbl) (niter : ℕ) (r v : V3 Dbl) : Prop :=
  s'.timeToIntersect r v 0 niter = s.timeToIntersect r v 0 niter ∧
  ((s.timeToIntersect r v 0 niter).1 = true →
    s'.normal (r + v.smulR (s.timeToIntersect r v 0 niter).2).x (r + v.smulR (s.timeToIntersect r v 0 niter).2).y =
      s.normal (r + v.smulR (s.timeToIntersect r v 0 niter).2).x (r + v.smulR (s.timeToIntersect r v 0 niter).2).y)

/-- What a ray may do at the surface `s` with smooth part `D`: miss, or hit it exactly inside `D` without grazing. -/
def CleanHit (s : Surface Dbl) (D : Set (ℝ × ℝ)) (niter : ℕ) (r v : V3 ℝ) : Prop :=
  (s.timeToIntersect r.fin v.fin 0 niter).1 = false ∨
  ∃ (t : ℝ) (n : V3 ℝ), s.timeToIntersect r.fin v.fin 0 niter = (true, .fin t) ∧
    ((pointAt r v t).x, (pointAt r v t).y) ∈ D ∧
    s.sag (.fin (pointAt r v t).x) (.fin (pointAt r v t).y) = .fin (pointAt r v t).z ∧
    s.normal (.fin (pointAt r v t).x) (.fin (pointAt r v t).y) = n.fin ∧ V3.dot n v ≠ 0

theorem sameHit_zero {s q : Surface Dbl} {D : Set (ℝ × ℝ)} (hD : IsOpen D) (hs : TrueNormals s D) (hq : TrueNormals q D)
    (h0 : ∀ u w, q.sag (.fin u) (.fin w) = .fin 0) {niter : ℕ} {r v : V3 ℝ} (hc : CleanHit s D niter r v) :
    SameHit s (Surface.sum [s, q]) niter r.fin v.fin := by
  have hsum : TrueNormals (Surface.sum [s, q]) D :=
    C28_normal hD (by simp only [List.mem_cons, List.not_mem_nil, or_false, forall_eq_or_imp, forall_eq]; exact ⟨hs, hq⟩)
  have hsag : ∀ u w, (Surface.sum [s, q]).sag (.fin u) (.fin w) = s.sag (.fin u) (.fin w) := by
    intro u w
    rw [sum_two_sag, h0, Dbl.add_comm']; exact Dbl.zero_add' (s.sag (.fin u) (.fin w))
  have hnorm : ∀ z ∈ D, (Surface.sum [s, q]).normal (.fin z.1) (.fin z.2) = s.normal (.fin z.1) (.fin z.2) := by
    intro z hz
    obtain ⟨n, hn, hN⟩ := hsum.normal z hz
    obtain ⟨m, hm, hM⟩ := hs.normal z hz
    simp only [hsag] at hN
    rw [hn, hm, hN.unique hM]
  rcases hc with hm | ⟨t, n, ht, hz, hsg, hn, hv⟩
  · constructor
    · show sumTime [s, q] r.fin v.fin 0 niter = _
      rw [sumTime]
      revert hm
      generalize s.timeToIntersect r.fin v.fin 0 niter = T
      rcases T with ⟨_ | _, t⟩ <;> intro hm
      · rfl
      · cases hm
    · intro h; rw [hm] at h; cases h
  · have e := step_pointAt r v t
    constructor
    · show sumTime [s, q] r.fin v.fin 0 niter = _
      simp only [sumTime, ht]
      have h1 := newtonIter_exact (sag := sumSag [s, q]) (normal := sumNormal [s, q]) (r := r) (v := v) (n := n) (t := t)
        ((hsag _ _).trans hsg) ((hnorm _ hz).trans hn) hv niter
      simp only [newton, h1, e, V3.fin_x, V3.fin_y, V3.fin_z]
      rw [show sumSag [s, q] (.fin (pointAt r v t).x) (.fin (pointAt r v t).y) = .fin (pointAt r v t).z from (hsag _ _).trans hsg]
      simp
    · intro _
      simp only [ht, e]
      exact hnorm _ hz

/-- **C94** A perturbation that is zero everywhere changes nothing: every ray that misses, or hits the surface exactly where
it is smooth and without grazing, leaves the perturbed interface as it leaves the original one, whatever the kind of the
interface and its coatings. -/
theorem C94_zero (x x' : Iface Dbl) (q : Surface Dbl) (D : Set (ℝ × ℝ)) (hD : IsOpen D) (hs : TrueNormals x.surface D)
    (hq : TrueNormals q D) (h0 : ∀ u w, q.sag (.fin u) (.fin w) = .fin 0) (niter : ℕ) (reverse : Bool)
    (ct : CoordTransform Dbl) (ray : Ray Dbl) (r v : V3 ℝ) (hr : ct.forward ray.r = r.fin) (hv : ct.forwardVel ray.v = v.fin)
    (hc : CleanHit x.surface D niter r v) (hx : x.withPerturbedSurface q = .ok x') :
    Iface.onRay x' niter reverse ct ray = Iface.onRay x niter reverse ct ray := by
  have hx' : x' = ({ x with surface := Surface.sum [x.surface, q], skip := false } : Iface Dbl).resetCoatings := by
    simp only [Iface.withPerturbedSurface, Iface.withSurface, Iface.init] at hx
    split at hx
    · split at hx
      · exact (Except.ok.inj hx).symm
      · cases hx
    · exact (Except.ok.inj hx).symm
  obtain ⟨r1, -, r3, -, r5, r6, -⟩ :=
    resetCoatings_fields ({ x with surface := Surface.sum [x.surface, q], skip := false } : Iface Dbl)
  rw [← hx'] at r1 r3 r5 r6
  simp only at r1 r3 r5 r6
  obtain ⟨h1, h2⟩ := sameHit_zero hD hs hq h0 hc
  unfold Iface.onRay
  rw [r1, r3, r5, r6]
  revert h2
  cases x.kind <;> simp only [Ray.intersect, Ray.reflect, Ray.refract, Ray.refractScreen, hr, hv, h1] <;>
    rcases hT : x.surface.timeToIntersect r.fin v.fin 0 niter with ⟨_ | _, t⟩ <;> intro h2 <;>
    simp only [forall_const, reduceCtorEq] at h2 <;> simp_all

/-! ### Prefix related names -/

/-- The data of a compound at the origin, for examples. -/
noncomputable def nestComp (nm : String) : Comp Dbl := ⟨false, nm.toList, (CoordSys.std ℝ).fin, ⟨fun _ => Dbl.fin 1⟩, ⟨fun _ => Dbl.fin 1⟩, false, none⟩

/-- C94 fails for compounds in which the name of an item is a prefix of that of a later one: `o['L10']` exists, but perturbing it raises, because the
item `L1` is selected. -/
theorem C94_prefix_violated (q : Surface Dbl) : ∃ (d : Comp Dbl) (items : List (Optic Dbl)) (x : Iface Dbl),
    Good (.compound d items) ∧ WellFormed (.compound d items) ∧ (Optic.compound d items).getItem "L10".toList = .ok (.iface x) ∧
    (Optic.compound d items).withPerturbedSurface "L10".toList q = .error .typeError := by
  refine ⟨nestComp "T", [.iface (demoFlat "L1" 0), .iface (demoFlat "L10" 1)], demoFlat "L10" 1, ?_, ?_, rfl, rfl⟩
  · simp [nestComp, Good, GoodItems, demoFlat, Optic.name]
  · simp [nestComp, WellFormed, WellFormedItems, demoFlat]

/-- An interface `L10` inside of `L1` and one beside it, for the next theorem. -/
noncomputable def nestFlat (nm : String) (s : Surface Dbl) : Iface Dbl where
  kind := .plain
  name := nm.toList
  surface := s
  obscuration := none
  coordSys := (CoordSys.std ℝ).fin
  inMedium := ⟨fun _ => Dbl.fin 1⟩
  outMedium := ⟨fun _ => Dbl.fin 1⟩
  skip := false
  forwardCoating := none
  reverseCoating := none
  stop := none
theorem nest_good (i s : Surface Dbl) : Good (.compound (nestComp "T") [.compound (nestComp "L1") [.iface (nestFlat "L10" i)], .iface (nestFlat "L10" s)]) := by
  simp [nestComp, Good, GoodItems, nestFlat, Optic.name]

theorem nest_node (i s : Surface Dbl) : (["T".toList, "L10".toList], .iface (nestFlat "L10" s)) ∈
    nodes (.compound (nestComp "T") [.compound (nestComp "L1") [.iface (nestFlat "L10" i)], .iface (nestFlat "L10" s)]) := by
  simp [nodes, nodesItems, nestComp, nestFlat]

theorem nest_inner_good (i : Surface Dbl) : Good (.compound (nestComp "L1") [.iface (nestFlat "L10" i)]) := by
  simp [nestComp, Good, GoodItems, nestFlat, Optic.name]

theorem nest_inner_node (i : Surface Dbl) : (["L1".toList, "L10".toList], .iface (nestFlat "L10" i)) ∈
    nodes (.compound (nestComp "L1") [.iface (nestFlat "L10" i)]) := by
  simp [nodes, nodesItems, nestComp, nestFlat]

theorem nest_inner_set (i t : Surface Dbl) : (Optic.compound (nestComp "L1") [.iface (nestFlat "L10" i)]).withSurface "L10".toList t =
    .ok (.compound (nestComp "L1") [.iface (nestFlat "L10" t)]) := rfl

theorem nest_set (i s t : Surface Dbl) :
    (Optic.compound (nestComp "T") [.compound (nestComp "L1") [.iface (nestFlat "L10" i)], .iface (nestFlat "L10" s)]).withSurface "T.L10".toList t =
    .ok (.compound (nestComp "T") [.compound (nestComp "L1") [.iface (nestFlat "L10" t)], .iface (nestFlat "L10" s)]) := by
  have hin := nest_inner_set i t
  have hr := resolve_denotes (nest_good i s) (⟨nest_node i s, .inl rfl⟩ : Denotes _ "T.L10".toList _ _)
  have hh := has_of_node (nest_good i s) (nest_node i s)
  have hd : dotted ["T".toList, "L10".toList] = "T.L10".toList := rfl
  rw [hd] at hr hh
  have c1 : "T.L10".toList ≠ (nestComp "T").name := by decide
  have c2 : "T.L10".toList.take ((nestComp "T").name.length + 1) = (nestComp "T").name ++ ['.'] := rfl
  have c3 : "T.L10".toList.drop ((nestComp "T").name.length + 1) = "L10".toList := rfl
  have c4 : (Optic.compound (nestComp "L1") [.iface (nestFlat "L10" i)]).name.isPrefixOf "L10".toList = true := rfl
  have c5 : "L10".toList ≠ (Optic.compound (nestComp "L1") [.iface (nestFlat "L10" i)]).name := by
    show "L10".toList ≠ "L1".toList
    decide
  unfold Optic.withSurface at hin ⊢
  rw [Optic.applyNamed]
  simp only [hr, hh, c2, c3, Optic.applyItems]
  rw [if_neg c1, c4]
  simp only [if_true, if_neg c5, hin, Bool.not_true, Bool.false_eq_true, if_false]
  rfl

/-- C94 fails worse: with an item `L1` that itself contains an `L10`, perturbing `T.L10` silently changes `T.L1.L10`, which even gets the surface of
the other one with the perturbation on top. -/
theorem C94_wrong_optic_violated (q s : Surface Dbl) : ∃ (d d1 : Comp Dbl) (inner inner' outer : Iface Dbl),
    Good (.compound d [.compound d1 [.iface inner], .iface outer]) ∧ outer.surface = s ∧
    (Optic.compound d [.compound d1 [.iface inner], .iface outer]).getItem "T.L10".toList = .ok (.iface outer) ∧
    (Optic.compound d [.compound d1 [.iface inner], .iface outer]).withPerturbedSurface "T.L10".toList q =
      .ok (.compound d [.compound d1 [.iface inner'], .iface outer]) ∧
    inner'.surface = Surface.sum [s, q] := by
  have hr := resolve_denotes (nest_good plane s) (⟨nest_node plane s, .inl rfl⟩ : Denotes _ "T.L10".toList _ _)
  have hd : dotted ["T".toList, "L10".toList] = "T.L10".toList := rfl
  have hi := (itemDict_get (nest_good plane s) "T.L10".toList (.iface (nestFlat "L10" s))).2 ⟨_, nest_node plane s, rfl⟩
  rw [hd] at hr
  refine ⟨nestComp "T", nestComp "L1", nestFlat "L10" plane, nestFlat "L10" (Surface.sum [s, q]), nestFlat "L10" s, nest_good _ _, rfl, ?_, ?_, rfl⟩
  · simp only [Optic.getItem, hi]
  · simp only [Optic.withPerturbedSurface, hr, hi]
    exact nest_set _ _ _

/-! ### Concrete cases -/

/-- A parabolic mirror of focal length 5 with a flat perturbation, and a ray falling on it at x = 1. -/
example : CleanHit (paraboloid (Dbl.fin 10)) Set.univ 5 ⟨1, 0, 3⟩ ⟨0, 0, -1⟩ := by
  refine .inr ⟨3 - 1 / 20, unitNormal (1 / 10) 0, ?_, trivial, ?_, ?_, ?_⟩
  · show paraboloidTime _ _ _ _ = _
    rw [paraboloidTime_fin (by norm_num), if_pos (by norm_num [parA])]
    rw [Dbl.div_fin' ]
    norm_num [parB, parC]
  · show paraboloidSag _ _ _ = _
    rw [paraboloidSag_fin (by norm_num)]
    norm_num [pointAt]
  · show paraboloidNormal _ _ _ = _
    rw [paraboloidNormal_fin (by norm_num)]
    norm_num [pointAt]
  · simp [V3.dot, unitNormal]
    positivity

/-- A flat mirror made parabolic: one unit off axis it is 1/20 higher than before. -/
example : ∃ x', (demoFlat "M" 0).withPerturbedSurface (paraboloid (Dbl.fin 10)) = .ok x' ∧
    x'.surface.sag (.fin 1) (.fin 0) = .fin (1 / 20) := by
  obtain ⟨x', h, hp⟩ := C94_interface (demoFlat "M" 0) (paraboloid (Dbl.fin 10)) (by simp [WellFormed, demoFlat])
  refine ⟨x', h, ?_⟩
  rw [hp.sag, show (paraboloid (Dbl.fin 10)).sag (.fin 1) (.fin 0) = _ from paraboloidSag_fin (by norm_num) 1 0]
  show (0 : Dbl) + _ = _
  rw [Dbl.zero_dbl, Dbl.add_fin]
  norm_num

/-- The tree of `demoTree` is tidy, so its interface `B` can be perturbed by name. -/
example : ∃ o', demoTree.withPerturbedSurface "B".toList (paraboloid (Dbl.fin 10)) = .ok o' := by
  have ht : Tidy demoTree := by
    refine ⟨demoTree_good, ?_, ?_⟩
    · simp [demoTree, demoComp, WellFormed, WellFormedItems, demoFlat]
    · simp [demoTree, demoComp, PrefixFree, PrefixFreeItems, demoFlat, Optic.name]
  obtain ⟨p, o', -, h, -⟩ := (C94_named_partial _ _ ht "B".toList (paraboloid (Dbl.fin 10))).1 (demoFlat "B" 2) (by rfl)
  exact ⟨o', h⟩

end Batoid.Props
