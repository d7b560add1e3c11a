import Verif.Props.Kernels
import Verif.Props.Trace

/-!
# Property C54: `traceSplit`
-/

namespace Batoid.Props
open Batoid

/-! ## Specification vocabulary -/

/-- The real number in a double (zero for infinities and not-a-number). -/
def val : Dbl → ℝ
  | .fin r => r
  | _ => 0

/-- All rays of a list of beams, `None` entries dropped. -/
def raysOf {F : Type} (l : List (Option (Beam F))) : List (Ray F) := (l.filterMap id).flatMap (·.rv.rays)

/-- Total flux of some rays. -/
noncomputable def totalFlux (l : List (Ray Dbl)) : ℝ := (l.map (fun ray => val ray.flux)).sum

/-- A legitimate ray: finite flux, not negative; rays that failed are vignetted (every operation of the library sees to
it, see C16). -/
def Fine (ray : Ray Dbl) : Prop := (∃ f : ℝ, 0 ≤ f ∧ ray.flux = .fin f) ∧ (ray.failed = true → ray.vignetted = true)

/-- A coating that creates no flux and reflects at most the fraction `q`. -/
def Passive (q : ℝ) (c : Coating Dbl) : Prop :=
  ∀ w a, ∃ R T : ℝ, c.getReflect w a = .fin R ∧ c.getTransmit w a = .fin T ∧ 0 ≤ R ∧ R ≤ q ∧ 0 ≤ T ∧ R + T ≤ 1

/-- Both coatings of the interface, where present, are so. -/
def PassiveIface (q : ℝ) (d : Iface Dbl) : Prop :=
  (∀ c, d.forwardCoating = some c → Passive q c) ∧ (∀ c, d.reverseCoating = some c → Passive q c)

mutual
/-- Every interface of the tree has the property. -/
def AllIface {F : Type} (P : Iface F → Prop) : Optic F → Prop
  | .iface d => P d
  | .compound _ items => AllIfaces P items
def AllIfaces {F : Type} (P : Iface F → Prop) : List (Optic F) → Prop
  | [] => True
  | o :: os => AllIface P o ∧ AllIfaces P os
end

theorem allIfaces_mem {F : Type} {P : Iface F → Prop} : ∀ {items : List (Optic F)}, AllIfaces P items →
    ∀ o ∈ items, AllIface P o
  | [], _, o, h => by cases h
  | x :: xs, hp, o, h => by
    rcases List.mem_cons.1 h with rfl | h
    · exact hp.1
    · exact allIfaces_mem hp.2 o h

mutual
theorem allIface_imp {F : Type} {P Q : Iface F → Prop} (h : ∀ d, P d → Q d) : ∀ o, AllIface P o → AllIface Q o
  | .iface d, hp => h d hp
  | .compound _ items, hp => allIfaces_imp h items hp
theorem allIfaces_imp {F : Type} {P Q : Iface F → Prop} (h : ∀ d, P d → Q d) : ∀ os, AllIfaces P os → AllIfaces Q os
  | [], _ => trivial
  | o :: os, hp => ⟨allIface_imp h o hp.1, allIfaces_imp h os hp.2⟩
end

/-! ## Sifting and queueing -/

section lists
variable {F : Type} [Arith F]

/-- All rays of a list of beams. -/
def raysB (l : List (Beam F)) : List (Ray F) := l.flatMap (·.rv.rays)

/-- All rays of a queue. -/
def raysJ (l : List (Optic.Job F)) : List (Ray F) := l.flatMap (·.beam.rv.rays)

theorem raysOf_some (l : List (Beam F)) : raysOf (l.map some) = raysB l := by
  unfold raysOf raysB
  congr 1
  induction l with
  | nil => rfl
  | cons a l ih => simp

theorem raysB_sift (m : F) (l : List (Option (Beam F))) :
    raysB (Optic.sift m l) = (raysOf l).filter (Optic.keep m) := by
  unfold Optic.sift raysOf raysB
  generalize l.filterMap id = l'
  induction l' with
  | nil => rfl
  | cons b l ih =>
    rw [List.flatMap_cons, List.filter_append, ← ih, List.filterMap_cons]
    by_cases h : b.rv.rays = []
    · simp [h]
    · have : b.rv.rays.isEmpty = false := by simpa using h
      simp [this, List.flatMap_cons]

theorem raysB_nonEmpty (l : List (Beam F)) : raysB (Optic.nonEmpty l) = raysB l := by
  unfold Optic.nonEmpty raysB
  induction l with
  | nil => rfl
  | cons b l ih =>
    rw [List.flatMap_cons, ← ih, List.filter_cons]
    by_cases h : b.rv.rays = []
    · simp [h]
    · have : b.rv.rays.isEmpty = false := by simpa using h
      simp [this, List.flatMap_cons]

theorem mem_raysB {l : List (Beam F)} {ray : Ray F} : ray ∈ raysB l ↔ ∃ b ∈ l, ray ∈ b.rv.rays := by
  simp [raysB, List.mem_flatMap]

theorem raysB_append (a b : List (Beam F)) : raysB (a ++ b) = raysB a ++ raysB b := by simp [raysB]

end lists

/-! ## Predicates kept along -/

section gen
variable {F : Type} [Arith F]

/-- Splitting at the interface keeps the predicates `P false` of forward rays and `P true` of backward rays. -/
def Preserves (niter : ℕ) (P : Bool → Ray F → Prop) (d : Iface F) : Prop :=
  ∀ reverse b f r, (∀ ray ∈ b.rv.rays, P reverse ray) → d.traceSplit niter reverse b = .ok (f, r) →
    (∀ ray ∈ raysOf f, P false ray) ∧ (∀ ray ∈ raysOf r, P true ray)

theorem pushJobs_mem {n i : ℕ} {fwd rev : List (Beam F)} {j : Optic.Job F} (h : j ∈ Optic.pushJobs n i fwd rev) :
    (j.beam ∈ fwd ∧ j.beam.rv.rays ≠ [] ∧ j.back = false ∧ j.index = i + 1 ∧ i + 1 ≠ n) ∨
    (j.beam ∈ rev ∧ j.beam.rv.rays ≠ [] ∧ j.back = true ∧ j.index + 1 = i) := by
  unfold Optic.pushJobs at h
  rw [List.mem_append] at h
  rcases h with h | h
  · left
    split at h
    · simp at h
    · rw [List.mem_map] at h
      obtain ⟨b, hb, rfl⟩ := h
      unfold Optic.nonEmpty at hb
      rw [List.mem_filter] at hb
      exact ⟨hb.1, by simpa using hb.2, rfl, rfl, by assumption⟩
  · right
    split at h
    · simp at h
    · rw [List.mem_map] at h
      obtain ⟨b, hb, rfl⟩ := h
      unfold Optic.nonEmpty at hb
      rw [List.mem_filter] at hb
      exact ⟨hb.1, by simpa using hb.2, rfl, by simp; omega⟩

theorem gen (niter : ℕ) (m : F) (P : Bool → Ray F → Prop) : ∀ fuel : ℕ,
    (∀ reverse o b f r, AllIface (Preserves niter P) o → (∀ ray ∈ b.rv.rays, P reverse ray) →
      Optic.traceSplit niter m fuel reverse o b = some (.ok (.lists f r)) →
      (∀ ray ∈ raysOf f, P false ray) ∧ (∀ ray ∈ raysOf r, P true ray)) ∧
    (∀ items queue outF outR f r, AllIfaces (Preserves niter P) items →
      (∀ j ∈ queue, ∀ ray ∈ j.beam.rv.rays, P j.back ray) → (∀ ray ∈ raysB outF, P false ray) → (∀ ray ∈ raysB outR, P true ray) →
      Optic.splitLoop niter m fuel items queue outF outR = some (.ok (f, r)) →
      (∀ ray ∈ raysB f, P false ray) ∧ (∀ ray ∈ raysB r, P true ray)) := by
  intro fuel
  induction fuel with
  | zero => exact ⟨by intro reverse o b f r _ _ h; simp [Optic.traceSplit] at h,
      by intro items queue outF outR f r _ _ _ _ h; simp [Optic.splitLoop] at h⟩
  | succ fuel ih =>
    obtain ⟨ih1, ih2⟩ := ih
    constructor
    · intro reverse o b f r hP hb h
      cases o with
      | iface d =>
        rw [Optic.traceSplit] at h
        split at h
        · cases h
        · cases hd : d.traceSplit niter reverse b with
          | error e => rw [hd] at h; cases h
          | ok s =>
            rw [hd] at h
            cases h
            exact hP reverse b s.1 s.2 hb hd
      | compound d items =>
        rw [Optic.traceSplit] at h
        split at h
        · cases h
        · split at h
          · cases h
          · cases hl : Optic.splitLoop niter m fuel items [⟨b, reverse, if reverse then items.length - 1 else 0⟩] [] [] with
            | none => rw [hl] at h; cases h
            | some res =>
              rw [hl] at h
              cases res with
              | error e => cases h
              | ok s =>
                cases h
                rw [raysOf_some, raysOf_some]
                refine ih2 items _ [] [] s.1 s.2 hP ?_ (by simp [raysB]) (by simp [raysB]) hl
                intro j hj
                rw [List.mem_singleton] at hj
                subst hj
                exact hb
    · intro items queue outF outR f r hP hq hF hR h
      cases queue with
      | nil =>
        rw [Optic.splitLoop] at h
        cases h
        exact ⟨hF, hR⟩
      | cons job queue =>
        rw [Optic.splitLoop] at h
        cases ho : items[job.index]? with
        | none => rw [ho] at h; cases h
        | some o =>
          rw [ho] at h
          simp only at h
          cases ht : Optic.traceSplit niter m fuel job.back o job.beam with
          | none => rw [ht] at h; cases h
          | some res =>
            rw [ht] at h
            cases res with
            | error e => cases h
            | ok res =>
              cases res with
              | skipped b => cases h
              | lists f' r' =>
                simp only at h
                obtain ⟨a1, a2⟩ := ih1 job.back o job.beam f' r' (allIfaces_mem hP o (List.mem_of_getElem? ho))
                  (hq job (by simp)) ht
                have s1 : ∀ ray ∈ raysB (Optic.sift m f'), P false ray := by
                  intro ray hr
                  rw [raysB_sift, List.mem_filter] at hr
                  exact a1 ray hr.1
                have s2 : ∀ ray ∈ raysB (Optic.sift m r'), P true ray := by
                  intro ray hr
                  rw [raysB_sift, List.mem_filter] at hr
                  exact a2 ray hr.1
                refine ih2 items _ _ _ f r hP ?_ ?_ ?_ h
                · intro j hj ray hray
                  rw [List.mem_append, List.mem_reverse] at hj
                  rcases hj with hj | hj
                  · rcases pushJobs_mem hj with ⟨hb, -, hd, -⟩ | ⟨hb, -, hd, -⟩
                    · rw [hd]; exact s1 ray (mem_raysB.2 ⟨_, hb, hray⟩)
                    · rw [hd]; exact s2 ray (mem_raysB.2 ⟨_, hb, hray⟩)
                  · exact hq j (by simp [hj]) ray hray
                · intro ray hr
                  rw [raysB_append, List.mem_append] at hr
                  rcases hr with hr | hr
                  · exact hF ray hr
                  · unfold Optic.outForward at hr
                    split at hr
                    · rw [raysB_nonEmpty] at hr; exact s1 ray hr
                    · simp [raysB] at hr
                · intro ray hr
                  rw [raysB_append, List.mem_append] at hr
                  rcases hr with hr | hr
                  · exact hR ray hr
                  · unfold Optic.outReverse at hr
                    split at hr
                    · rw [raysB_nonEmpty] at hr; exact s2 ray hr
                    · simp [raysB] at hr

/-- What the loop returns has been sifted. -/
theorem loop_kept (niter : ℕ) (m : F) : ∀ (fuel : ℕ) items queue outF outR f r,
    (∀ ray ∈ raysB outF, Optic.keep m ray = true) → (∀ ray ∈ raysB outR, Optic.keep m ray = true) →
    Optic.splitLoop niter m fuel items queue outF outR = some (.ok (f, r)) →
    (∀ ray ∈ raysB f, Optic.keep m ray = true) ∧ (∀ ray ∈ raysB r, Optic.keep m ray = true) := by
  intro fuel
  induction fuel with
  | zero => intro items queue outF outR f r _ _ h; simp [Optic.splitLoop] at h
  | succ fuel ih =>
    intro items queue outF outR f r hF hR h
    cases queue with
    | nil =>
      rw [Optic.splitLoop] at h
      cases h
      exact ⟨hF, hR⟩
    | cons job queue =>
      rw [Optic.splitLoop] at h
      cases ho : items[job.index]? with
      | none => rw [ho] at h; cases h
      | some o =>
        rw [ho] at h
        simp only at h
        cases ht : Optic.traceSplit niter m fuel job.back o job.beam with
        | none => rw [ht] at h; cases h
        | some res =>
          rw [ht] at h
          cases res with
          | error e => cases h
          | ok res =>
            cases res with
            | skipped b => cases h
            | lists f' r' =>
              simp only at h
              refine ih items _ _ _ f r ?_ ?_ h
              · intro ray hr
                rw [raysB_append, List.mem_append] at hr
                rcases hr with hr | hr
                · exact hF ray hr
                · unfold Optic.outForward at hr
                  split at hr
                  · rw [raysB_nonEmpty, raysB_sift, List.mem_filter] at hr; exact hr.2
                  · simp [raysB] at hr
              · intro ray hr
                rw [raysB_append, List.mem_append] at hr
                rcases hr with hr | hr
                · exact hR ray hr
                · unfold Optic.outReverse at hr
                  split at hr
                  · rw [raysB_nonEmpty, raysB_sift, List.mem_filter] at hr; exact hr.2
                  · simp [raysB] at hr

/-- C54, what is dropped: every ray returned by `traceSplit` of a compound is not vignetted and has at least the minimum flux,
in any arithmetic, for every tree and all coatings. -/
theorem C54_returned_rays (niter : ℕ) (m : F) (fuel : ℕ) (reverse : Bool) (d : Comp F) (items : List (Optic F)) (b : Beam F)
    (f r : List (Option (Beam F)))
    (h : Optic.traceSplit niter m fuel reverse (.compound d items) b = some (.ok (.lists f r))) :
    ∀ ray ∈ raysOf f ++ raysOf r, ray.vignetted = false ∧ Arith.ge ray.flux m = true := by
  cases fuel with
  | zero => simp [Optic.traceSplit] at h
  | succ fuel =>
    rw [Optic.traceSplit] at h
    split at h
    · cases h
    · split at h
      · cases h
      · cases hl : Optic.splitLoop niter m fuel items [⟨b, reverse, if reverse then items.length - 1 else 0⟩] [] [] with
        | none => rw [hl] at h; cases h
        | some res =>
          rw [hl] at h
          cases res with
          | error e => cases h
          | ok s =>
            cases h
            obtain ⟨k1, k2⟩ := loop_kept niter m fuel items _ [] [] s.1 s.2 (by simp [raysB]) (by simp [raysB]) hl
            intro ray hr
            rw [raysOf_some, raysOf_some, List.mem_append] at hr
            have : Optic.keep m ray = true := by rcases hr with hr | hr; exact k1 ray hr; exact k2 ray hr
            simpa [Optic.keep] using this

end gen

/-! ## Flux of one interaction -/

/-- Flux of a ray, not counted when it is vignetted. -/
noncomputable def live (ray : Ray Dbl) : ℝ := if ray.vignetted then 0 else val ray.flux

theorem live_nonneg {ray : Ray Dbl} (h : Fine ray) : 0 ≤ live ray := by
  obtain ⟨⟨f, hf, e⟩, -⟩ := h
  unfold live
  split
  · exact le_refl _
  · rw [e]; exact hf

theorem live_le {ray : Ray Dbl} (h : Fine ray) : live ray ≤ val ray.flux := by
  obtain ⟨⟨f, hf, e⟩, -⟩ := h
  unfold live
  split
  · rw [e]; exact hf
  · exact le_refl _

/-- What one interaction does to a ray, passing on (`gs`) and thrown back (`go`). -/
structure Splits (q : ℝ) (gs go : Ray Dbl → Ray Dbl) : Prop where
  fine : ∀ ray, Fine ray → Fine (gs ray) ∧ Fine (go ray)
  sum : ∀ ray, Fine ray → live (gs ray) + live (go ray) ≤ live ray
  back : ∀ ray, Fine ray → live (go ray) ≤ q * live ray

/-- A ray lost for good. -/
noncomputable def lost (ray : Ray Dbl) : Ray Dbl := { ray with vignetted := true }

theorem fine_vig {ray : Ray Dbl} (h : Fine ray) (b : Bool) (hb : ray.failed = true → b = true) :
    Fine { ray with vignetted := b } := ⟨h.1, hb⟩

theorem split_obscure {q : ℝ} {gs go : Ray Dbl → Ray Dbl} (h : Splits q gs go) (o : Obsc Dbl) :
    Splits q (fun ray => Ray.obscure o (gs ray)) (fun ray => Ray.obscure o (go ray)) := by
  have key : ∀ ray, Fine ray → Fine (Ray.obscure o ray) ∧ live (Ray.obscure o ray) ≤ live ray := by
    intro ray hr
    constructor
    · refine ⟨hr.1, fun hf => ?_⟩
      have := hr.2 hf
      simp [Ray.obscure, this]
    · have := live_nonneg hr
      unfold live at *
      simp only [Ray.obscure]
      by_cases hv : ray.vignetted = true
      · simp [hv]
      · simp only [Bool.not_eq_true] at hv
        simp only [hv, Bool.false_or] at *
        split <;> simp_all
  constructor
  · intro ray hr; exact ⟨(key _ (h.fine ray hr).1).1, (key _ (h.fine ray hr).2).1⟩
  · intro ray hr
    have := h.sum ray hr
    have := (key _ (h.fine ray hr).1).2
    have := (key _ (h.fine ray hr).2).2
    linarith
  · intro ray hr
    have := h.back ray hr
    have := (key _ (h.fine ray hr).2).2
    linarith

theorem split_rSplit {q : ℝ} (hq : 0 ≤ q) (s : Surface Dbl) (ct : CoordTransform Dbl) (m2 : Medium Dbl) (c : Coating Dbl) (hc : Passive q c)
    (niter : ℕ) : Splits q (fun ray => (Ray.rSplit s ct m2 c niter ray).1) (fun ray => (Ray.rSplit s ct m2 c niter ray).2) := by
  have key : ∀ ray, Fine ray → Fine (Ray.rSplit s ct m2 c niter ray).1 ∧ Fine (Ray.rSplit s ct m2 c niter ray).2 ∧
      live (Ray.rSplit s ct m2 c niter ray).1 + live (Ray.rSplit s ct m2 c niter ray).2 ≤ live ray ∧
      live (Ray.rSplit s ct m2 c niter ray).2 ≤ q * live ray := by
    intro ray hr
    have hl := live_nonneg hr
    obtain ⟨⟨x, hx, e⟩, hv⟩ := hr
    unfold Ray.rSplit
    split
    · rename_i hf
      have h0 : live ray = 0 := by unfold live; rw [hv hf]; rfl
      exact ⟨⟨⟨x, hx, e⟩, hv⟩, ⟨⟨x, hx, e⟩, hv⟩, by simp [h0], by simp [h0]⟩
    · rename_i hf
      simp only [Bool.not_eq_true] at hf
      rcases ht : s.timeToIntersect (ct.forward ray.r) (ct.forwardVel ray.v) 0 niter with ⟨b, dt⟩
      simp only [ht]
      cases b with
      | false =>
        have hm : Fine ray.markFailed := ⟨⟨x, hx, e⟩, fun _ => rfl⟩
        have h0 : live ray.markFailed = 0 := rfl
        exact ⟨hm, hm, by simp only [h0]; linarith, by simp only [h0]; positivity⟩
      | true =>
        simp only [Coating.getCoefs, e]
        generalize ((Ray.orient (s.normal (ct.forward ray.r + (ct.forwardVel ray.v).smulR dt).x
          (ct.forward ray.r + (ct.forwardVel ray.v).smulR dt).y) ((ct.forwardVel ray.v).smulR (Ray.invSpeed (ct.forwardVel ray.v)))).2) = ca
        obtain ⟨R, T, hR, hT, r0, rq, t0, rt⟩ := hc ray.wavelength ca
        simp only [hR, hT, Dbl.mul_fin]
        have fx : Fine { ray with flux := .fin (x * R) } := ⟨⟨x * R, by positivity, rfl⟩, hv⟩
        refine ⟨?_, ⟨⟨x * R, by positivity, rfl⟩, hv⟩, ?_, ?_⟩
        · split
          · exact ⟨⟨x * T, by positivity, rfl⟩, fun _ => rfl⟩
          · exact ⟨⟨x * T, by positivity, rfl⟩, hv⟩
        · unfold live
          split
          · simp only [if_true, e, val]
            split
            · simp
            · have : x * R ≤ x * 1 := mul_le_mul_of_nonneg_left (by linarith) hx
              linarith
          · simp only [e, val]
            split
            · simp
            · have : x * (R + T) ≤ x * 1 := mul_le_mul_of_nonneg_left rt hx
              linarith
        · unfold live
          simp only [e, val]
          split
          · simp
          · have : x * R ≤ x * q := mul_le_mul_of_nonneg_left rq hx
            linarith
  exact ⟨fun ray hr => ⟨(key ray hr).1, (key ray hr).2.1⟩, fun ray hr => (key ray hr).2.2.1, fun ray hr => (key ray hr).2.2.2⟩

/-- An interaction that keeps the flux and throws nothing back. -/
theorem split_pass {q : ℝ} (hq : 0 ≤ q) (g : Ray Dbl → Ray Dbl)
    (hg : ∀ ray, (g ray).flux = ray.flux ∧ ((g ray).failed = true → ray.failed = true ∨ (g ray).vignetted = true) ∧
      (ray.vignetted = true → (g ray).vignetted = true)) : Splits q g lost := by
  have hlost : ∀ ray, live (lost ray) = 0 := fun ray => rfl
  constructor
  · intro ray hr
    refine ⟨⟨?_, ?_⟩, ⟨hr.1, fun _ => rfl⟩⟩
    · rw [(hg ray).1]; exact hr.1
    · intro hf
      rcases (hg ray).2.1 hf with h | h
      · exact (hg ray).2.2 (hr.2 h)
      · exact h
  · intro ray hr
    rw [hlost, add_zero]
    have := live_nonneg hr
    unfold live at *
    rw [(hg ray).1]
    by_cases hv : ray.vignetted = true
    · rw [(hg ray).2.2 hv, hv]
    · rw [if_neg hv] at this ⊢
      split
      · exact this
      · exact le_refl _
  · intro ray hr
    rw [hlost]
    exact mul_nonneg hq (live_nonneg hr)

theorem reflect_keeps (s : Surface Dbl) (ct : CoordTransform Dbl) (niter : ℕ) (ray : Ray Dbl) :
    (Ray.reflect s ct none niter ray).flux = ray.flux ∧
    ((Ray.reflect s ct none niter ray).failed = true → ray.failed = true ∨ (Ray.reflect s ct none niter ray).vignetted = true) ∧
    (ray.vignetted = true → (Ray.reflect s ct none niter ray).vignetted = true) := by
  unfold Ray.reflect
  split
  · simp_all
  · rename_i hf
    rcases ht : s.timeToIntersect (ct.forward ray.r) (ct.forwardVel ray.v) 0 niter with ⟨b, dt⟩
    simp only [ht]
    cases b
    · exact ⟨rfl, fun _ => .inr rfl, fun _ => rfl⟩
    · exact ⟨rfl, fun h => .inl h, fun h => h⟩

theorem intersect_keeps (s : Surface Dbl) (ct : CoordTransform Dbl) (niter : ℕ) (ray : Ray Dbl) :
    (Ray.intersect s ct none niter ray).flux = ray.flux ∧
    ((Ray.intersect s ct none niter ray).failed = true → ray.failed = true ∨ (Ray.intersect s ct none niter ray).vignetted = true) ∧
    (ray.vignetted = true → (Ray.intersect s ct none niter ray).vignetted = true) := by
  unfold Ray.intersect
  split
  · simp_all
  · rename_i hf
    rcases ht : s.timeToIntersect (ct.forward ray.r) (ct.forwardVel ray.v) 0 niter with ⟨b, dt⟩
    simp only [ht]
    cases b
    · exact ⟨rfl, fun _ => .inr rfl, fun _ => rfl⟩
    · exact ⟨rfl, fun h => .inl h, fun h => h⟩

/-- The two outputs of an interface, as seen from the direction of travel. -/
theorem iface_split {q : ℝ} (hq : 0 ≤ q) (d : Iface Dbl) (hd : PassiveIface q d) (niter : ℕ) (reverse : Bool) (b : Beam Dbl)
    (f r : List (Option (Beam Dbl))) (h : d.traceSplit niter reverse b = .ok (f, r)) :
    ∃ gs go, Splits q gs go ∧
      (raysOf (if reverse then r else f) = b.rv.rays.map gs ∨ raysOf (if reverse then r else f) = []) ∧
      (raysOf (if reverse then f else r) = b.rv.rays.map go ∨ raysOf (if reverse then f else r) = []) := by
  have hob : ∀ (gs go : Ray Dbl → Ray Dbl), Splits q gs go → ∀ (x y : RayVec Dbl), x.rays = b.rv.rays.map gs →
      y.rays = b.rv.rays.map go →
      ∃ gs' go', Splits q gs' go' ∧ (d.applyObscuration x).rays = b.rv.rays.map gs' ∧
        (d.applyObscuration y).rays = b.rv.rays.map go' := by
    intro gs go hs x y hx hy
    unfold Iface.applyObscuration
    cases d.obscuration with
    | none => exact ⟨gs, go, hs, hx, hy⟩
    | some o =>
      refine ⟨_, _, split_obscure hs o, ?_, ?_⟩
      · simp [RayVec.obscure, hx]
      · simp [RayVec.obscure, hy]
  have two : ∀ (s : RayVec Dbl × RayVec Dbl) (c : Coating Dbl) (m1 m2 : Medium Dbl), Passive q c →
      s = b.rv.rSplit d.surface m1 m2 c (some d.coordSys) niter → d.isMirror = false →
      d.rSplit niter reverse b.rv = .ok (some s.1, some s.2) →
      ∃ gs go, Splits q gs go ∧
        (raysOf (if reverse then r else f) = b.rv.rays.map gs ∨ raysOf (if reverse then r else f) = []) ∧
        (raysOf (if reverse then f else r) = b.rv.rays.map go ∨ raysOf (if reverse then f else r) = []) := by
    intro s c m1 m2 hc hs hmir hr
    obtain ⟨gs, go, h1, h2, h3⟩ := hob _ _ (split_rSplit hq d.surface (CoordTransform.make b.rv.coordSys d.coordSys) m2 c hc niter)
      s.1 s.2 (by rw [hs]; rfl) (by rw [hs]; rfl)
    refine ⟨gs, go, h1, .inl ?_, .inl ?_⟩
    all_goals
      unfold Iface.traceSplit at h
      rw [hr] at h
      simp only [bind, Except.bind, hmir, Option.map_some, pure, Except.pure] at h
      cases reverse <;> simp at h <;> obtain ⟨rfl, rfl⟩ := h <;> simp [raysOf, h2, h3]
  have one : ∀ (g : Ray Dbl → Ray Dbl) (x : RayVec Dbl), Splits q g lost → x.rays = b.rv.rays.map g →
      ((d.isMirror = true ∧ d.rSplit niter reverse b.rv = .ok (none, some x)) ∨
        (d.isMirror = false ∧ d.rSplit niter reverse b.rv = .ok (some x, none))) →
      ∃ gs go, Splits q gs go ∧
        (raysOf (if reverse then r else f) = b.rv.rays.map gs ∨ raysOf (if reverse then r else f) = []) ∧
        (raysOf (if reverse then f else r) = b.rv.rays.map go ∨ raysOf (if reverse then f else r) = []) := by
    intro g x hs hx hr
    obtain ⟨gs, go, h1, h2, -⟩ := hob _ _ hs x ⟨b.rv.rays.map lost, b.rv.coordSys⟩ hx rfl
    refine ⟨gs, go, h1, .inl ?_, .inr ?_⟩
    all_goals
      unfold Iface.traceSplit at h
      rcases hr with ⟨hmir, hr⟩ | ⟨hmir, hr⟩ <;>
      · rw [hr] at h
        simp only [bind, Except.bind, hmir, Option.map_some, Option.map_none, pure, Except.pure] at h
        cases reverse <;> simp at h <;> obtain ⟨rfl, rfl⟩ := h <;> simp [raysOf, h2]
  cases hk : d.kind with
  | plain => simp [Iface.traceSplit, Iface.rSplit, hk, bind, Except.bind] at h
  | screen s => simp [Iface.traceSplit, Iface.rSplit, hk, bind, Except.bind] at h
  | refractive =>
    have hmir : d.isMirror = false := by simp [Iface.isMirror, hk]
    have hc0 : ∀ c, (if reverse then d.forwardCoating else d.reverseCoating) = some c → Passive q c := by
      intro c hc; cases reverse
      · exact hd.2 c hc
      · exact hd.1 c hc
    cases hc : (if reverse then d.forwardCoating else d.reverseCoating) with
    | none => simp [Iface.traceSplit, Iface.rSplit, hk, bind, Except.bind, hc] at h
    | some c =>
      cases reverse with
      | true => exact two (b.rv.rSplit d.surface d.outMedium d.inMedium c (some d.coordSys) niter) c _ _ (hc0 c hc) rfl hmir (by simp only [if_true] at hc; simp [Iface.rSplit, hk, hc])
      | false => exact two (b.rv.rSplit d.surface d.inMedium d.outMedium c (some d.coordSys) niter) c _ _ (hc0 c hc) rfl hmir (by simp only [Bool.false_eq_true, if_false] at hc; simp [Iface.rSplit, hk, hc])
  | detector =>
    have hmir : d.isMirror = false := by simp [Iface.isMirror, hk]
    cases reverse with
    | true => simp [Iface.traceSplit, Iface.rSplit, hk, bind, Except.bind] at h
    | false =>
      cases hc : d.forwardCoating with
      | none => simp [Iface.traceSplit, Iface.rSplit, hk, bind, Except.bind, hc] at h
      | some c => exact two (b.rv.rSplit d.surface d.inMedium d.outMedium c (some d.coordSys) niter) c _ _ (hd.1 c hc) rfl hmir (by simp only [Iface.rSplit, hk, hc, if_false, Bool.false_eq_true])
  | mirror =>
    exact one _ (b.rv.reflect d.surface (some d.coordSys) none niter) (split_pass hq _ (reflect_keeps d.surface _ niter)) rfl
      (.inl ⟨by simp [Iface.isMirror, hk], by simp only [Iface.rSplit, hk]⟩)
  | baffle =>
    exact one _ (b.rv.intersect d.surface (some d.coordSys) none niter) (split_pass hq _ (intersect_keeps d.surface _ niter)) rfl
      (.inr ⟨by simp [Iface.isMirror, hk], by simp only [Iface.rSplit, hk]⟩)

/-! ## C54, conservation -/

/-- Live flux of some rays. -/
noncomputable def liveFlux (l : List (Ray Dbl)) : ℝ := (l.map live).sum

theorem liveFlux_append (a b : List (Ray Dbl)) : liveFlux (a ++ b) = liveFlux a + liveFlux b := by simp [liveFlux]

theorem liveFlux_nonneg {l : List (Ray Dbl)} (h : ∀ ray ∈ l, Fine ray) : 0 ≤ liveFlux l := by
  apply List.sum_nonneg
  intro x hx
  rw [List.mem_map] at hx
  obtain ⟨ray, hr, rfl⟩ := hx
  exact live_nonneg (h ray hr)

theorem liveFlux_filter (p : Ray Dbl → Bool) : ∀ (l : List (Ray Dbl)), (∀ ray ∈ l, Fine ray) → liveFlux (l.filter p) ≤ liveFlux l
  | [], _ => le_refl _
  | x :: l, h => by
    have ih := liveFlux_filter p l (fun ray hr => h ray (by simp [hr]))
    have hx := live_nonneg (h x (by simp))
    rw [List.filter_cons]
    split <;> simp only [liveFlux, List.map_cons, List.sum_cons] at * <;> linarith

theorem splits_sum {q : ℝ} {gs go : Ray Dbl → Ray Dbl} (hs : Splits q gs go) : ∀ (l : List (Ray Dbl)), (∀ ray ∈ l, Fine ray) →
    liveFlux (l.map gs) + liveFlux (l.map go) ≤ liveFlux l
  | [], _ => by simp [liveFlux]
  | x :: l, h => by
    have ih := splits_sum hs l (fun ray hr => h ray (by simp [hr]))
    have hx := hs.sum x (h x (by simp))
    simp only [liveFlux, List.map_cons, List.sum_cons] at *
    linarith

theorem iface_preserves {q : ℝ} (hq : 0 ≤ q) (hq1 : q ≤ 1) (niter : ℕ) (dir : Bool) (M : ℝ) (hM : 0 ≤ M) (d : Iface Dbl)
    (hd : PassiveIface q d) :
    Preserves niter (fun back ray => Fine ray ∧ live ray ≤ if back = dir then M else q * M) d := by
  intro reverse b f r hb h
  obtain ⟨gs, go, hs, h1, h2⟩ := iface_split hq d hd niter reverse b f r h
  have hqM : q * M ≤ M := by nlinarith
  have e1 : ∀ ray ∈ raysOf (if reverse then r else f), Fine ray ∧ live ray ≤ if reverse = dir then M else q * M := by
    intro ray hr
    rcases h1 with h1 | h1 <;> rw [h1] at hr
    · rw [List.mem_map] at hr
      obtain ⟨x, hx, rfl⟩ := hr
      obtain ⟨fx, lx⟩ := hb x hx
      refine ⟨(hs.fine x fx).1, le_trans ?_ lx⟩
      have := hs.sum x fx
      have := live_nonneg (hs.fine x fx).2
      linarith
    · simp at hr
  have e2 : ∀ ray ∈ raysOf (if reverse then f else r), Fine ray ∧ live ray ≤ if (!reverse) = dir then M else q * M := by
    intro ray hr
    rcases h2 with h2 | h2 <;> rw [h2] at hr
    · rw [List.mem_map] at hr
      obtain ⟨x, hx, rfl⟩ := hr
      obtain ⟨fx, lx⟩ := hb x hx
      refine ⟨(hs.fine x fx).2, le_trans (hs.back x fx) ?_⟩
      have hl := live_nonneg fx
      by_cases hrd : reverse = dir
      · rw [if_pos hrd] at lx
        have : ¬ (!reverse) = dir := by rw [← hrd]; simp
        rw [if_neg this]
        exact mul_le_mul_of_nonneg_left lx hq
      · rw [if_neg hrd] at lx
        have : (!reverse) = dir := by cases reverse <;> cases dir <;> simp_all
        rw [if_pos this]
        nlinarith
    · simp at hr
  cases reverse with
  | true => exact ⟨by simpa using e2, by simpa using e1⟩
  | false => exact ⟨by simpa using e1, by simpa using e2⟩

theorem iface_fine {q : ℝ} (hq : 0 ≤ q) (niter : ℕ) (d : Iface Dbl) (hd : PassiveIface q d) :
    Preserves niter (fun _ ray => Fine ray) d := by
  intro reverse b f r hb h
  obtain ⟨gs, go, hs, h1, h2⟩ := iface_split hq d hd niter reverse b f r h
  have e : ∀ ray, ray ∈ raysOf (if reverse then r else f) ∨ ray ∈ raysOf (if reverse then f else r) → Fine ray := by
    intro ray hr
    rcases hr with hr | hr
    · rcases h1 with h1 | h1 <;> rw [h1] at hr
      · rw [List.mem_map] at hr
        obtain ⟨x, hx, rfl⟩ := hr
        exact (hs.fine x (hb x hx)).1
      · simp at hr
    · rcases h2 with h2 | h2 <;> rw [h2] at hr
      · rw [List.mem_map] at hr
        obtain ⟨x, hx, rfl⟩ := hr
        exact (hs.fine x (hb x hx)).2
      · simp at hr
  cases reverse with
  | true => exact ⟨fun ray hr => e ray (.inr (by simpa using hr)), fun ray hr => e ray (.inl (by simpa using hr))⟩
  | false => exact ⟨fun ray hr => e ray (.inl (by simpa using hr)), fun ray hr => e ray (.inr (by simpa using hr))⟩

theorem raysJ_push (n i : ℕ) (fwd rev : List (Beam Dbl)) :
    liveFlux (raysJ (Optic.pushJobs n i fwd rev).reverse) + liveFlux (raysB (Optic.outForward n i fwd))
      + liveFlux (raysB (Optic.outReverse i rev)) = liveFlux (raysB fwd) + liveFlux (raysB rev) := by
  have hrev : ∀ l : List (Optic.Job Dbl), liveFlux (raysJ l.reverse) = liveFlux (raysJ l) := by
    intro l
    induction l with
    | nil => rfl
    | cons a l ih =>
      simp only [raysJ, liveFlux, List.reverse_cons, List.flatMap_append, List.map_append, List.sum_append, List.flatMap_cons,
        List.flatMap_nil, List.append_nil] at *
      rw [ih, add_comm]
  have hmap : ∀ (l : List (Beam Dbl)) (dir : Bool) (k : ℕ), raysJ (l.map (fun b => (⟨b, dir, k⟩ : Optic.Job Dbl))) = raysB l := by
    intro l dir k
    induction l with
    | nil => rfl
    | cons a l ih => simp only [raysJ, raysB, List.map_cons, List.flatMap_cons] at *; rw [ih]
  have happ : ∀ a b : List (Optic.Job Dbl), raysJ (a ++ b) = raysJ a ++ raysJ b := by intro a b; simp [raysJ]
  rw [hrev]
  unfold Optic.pushJobs Optic.outForward Optic.outReverse
  rw [happ, liveFlux_append]
  split <;> split <;> simp only [hmap, raysB_nonEmpty] <;> simp [raysJ, raysB, liveFlux] <;> ring

theorem conserve {q : ℝ} (hq : 0 ≤ q) (niter : ℕ) (m : Dbl) : ∀ fuel : ℕ,
    (∀ reverse o b f r, AllIface (PassiveIface q) o → (∀ ray ∈ b.rv.rays, Fine ray) →
      Optic.traceSplit niter m fuel reverse o b = some (.ok (.lists f r)) →
      liveFlux (raysOf f) + liveFlux (raysOf r) ≤ liveFlux b.rv.rays) ∧
    (∀ items queue outF outR f r, AllIfaces (PassiveIface q) items → (∀ ray ∈ raysJ queue, Fine ray) →
      Optic.splitLoop niter m fuel items queue outF outR = some (.ok (f, r)) →
      liveFlux (raysB f) + liveFlux (raysB r) ≤ liveFlux (raysB outF) + liveFlux (raysB outR) + liveFlux (raysJ queue)) := by
  intro fuel
  induction fuel with
  | zero => exact ⟨by intro reverse o b f r _ _ h; simp [Optic.traceSplit] at h,
      by intro items queue outF outR f r _ _ h; simp [Optic.splitLoop] at h⟩
  | succ fuel ih =>
    obtain ⟨ih1, ih2⟩ := ih
    constructor
    · intro reverse o b f r hP hb h
      cases o with
      | iface d =>
        rw [Optic.traceSplit] at h
        split at h
        · cases h
        · cases hd : d.traceSplit niter reverse b with
          | error e => rw [hd] at h; cases h
          | ok s =>
            rw [hd] at h
            cases h
            obtain ⟨gs, go, hs, h1, h2⟩ := iface_split hq d hP niter reverse b s.1 s.2 hd
            have key := splits_sum hs b.rv.rays hb
            have n1 : 0 ≤ liveFlux (b.rv.rays.map gs) := liveFlux_nonneg (by
              intro ray hr; rw [List.mem_map] at hr; obtain ⟨x, hx, rfl⟩ := hr; exact (hs.fine x (hb x hx)).1)
            have n2 : 0 ≤ liveFlux (b.rv.rays.map go) := liveFlux_nonneg (by
              intro ray hr; rw [List.mem_map] at hr; obtain ⟨x, hx, rfl⟩ := hr; exact (hs.fine x (hb x hx)).2)
            have k1 : liveFlux (raysOf (if reverse then s.2 else s.1)) ≤ liveFlux (b.rv.rays.map gs) := by
              rcases h1 with h1 | h1 <;> rw [h1]
              simpa [liveFlux] using n1
            have k2 : liveFlux (raysOf (if reverse then s.1 else s.2)) ≤ liveFlux (b.rv.rays.map go) := by
              rcases h2 with h2 | h2 <;> rw [h2]
              simpa [liveFlux] using n2
            cases reverse <;> simp only [if_true, if_false, Bool.false_eq_true] at k1 k2 <;> linarith
      | compound d items =>
        rw [Optic.traceSplit] at h
        split at h
        · cases h
        · split at h
          · cases h
          · cases hl : Optic.splitLoop niter m fuel items [⟨b, reverse, if reverse then items.length - 1 else 0⟩] [] [] with
            | none => rw [hl] at h; cases h
            | some res =>
              rw [hl] at h
              cases res with
              | error e => cases h
              | ok s =>
                cases h
                rw [raysOf_some, raysOf_some]
                have := ih2 items _ [] [] s.1 s.2 hP (by simpa [raysJ] using hb) hl
                simpa [raysB, raysJ, liveFlux] using this
    · intro items queue outF outR f r hP hq' h
      cases queue with
      | nil =>
        rw [Optic.splitLoop] at h
        cases h
        simp [raysJ, liveFlux]
      | cons job queue =>
        rw [Optic.splitLoop] at h
        cases ho : items[job.index]? with
        | none => rw [ho] at h; cases h
        | some o =>
          rw [ho] at h
          simp only at h
          cases ht : Optic.traceSplit niter m fuel job.back o job.beam with
          | none => rw [ht] at h; cases h
          | some res =>
            rw [ht] at h
            cases res with
            | error e => cases h
            | ok res =>
              cases res with
              | skipped b => cases h
              | lists f' r' =>
                simp only at h
                have hPo := allIfaces_mem hP o (List.mem_of_getElem? ho)
                have hjob : ∀ ray ∈ job.beam.rv.rays, Fine ray := fun ray hr => hq' ray (by simp [raysJ]; exact .inl hr)
                have hqueue : ∀ ray ∈ raysJ queue, Fine ray := fun ray hr => hq' ray (by
                  simp only [raysJ, List.flatMap_cons, List.mem_append]; exact .inr hr)
                have a := ih1 job.back o job.beam f' r' hPo hjob ht
                obtain ⟨f1, f2⟩ := (gen niter m (fun _ ray => Fine ray) fuel).1 job.back o job.beam f' r'
                  (allIface_imp (fun d hd => iface_fine hq niter d hd) o hPo) hjob ht
                have s1 := liveFlux_filter (Optic.keep m) (raysOf f') f1
                have s2 := liveFlux_filter (Optic.keep m) (raysOf r') f2
                rw [← raysB_sift] at s1 s2
                have c := ih2 items _ _ _ f r hP ?_ h
                · have p := raysJ_push items.length job.index (Optic.sift m f') (Optic.sift m r')
                  have happ : ∀ a b : List (Optic.Job Dbl), raysJ (a ++ b) = raysJ a ++ raysJ b := by intro a b; simp [raysJ]
                  rw [happ, raysB_append, raysB_append, liveFlux_append, liveFlux_append, liveFlux_append] at c
                  have e : liveFlux (raysJ (job :: queue)) = liveFlux job.beam.rv.rays + liveFlux (raysJ queue) := by
                    simp [raysJ, liveFlux]
                  rw [e]
                  linarith
                · intro ray hr
                  simp only [raysJ, List.flatMap_append, List.mem_append] at hr
                  rcases hr with hr | hr
                  · rw [List.mem_flatMap] at hr
                    obtain ⟨j, hj, hray⟩ := hr
                    rw [List.mem_reverse] at hj
                    rcases pushJobs_mem hj with ⟨hb, -⟩ | ⟨hb, -⟩
                    · have : ray ∈ raysB (Optic.sift m f') := mem_raysB.2 ⟨_, hb, hray⟩
                      rw [raysB_sift, List.mem_filter] at this
                      exact f1 ray this.1
                    · have : ray ∈ raysB (Optic.sift m r') := mem_raysB.2 ⟨_, hb, hray⟩
                      rw [raysB_sift, List.mem_filter] at this
                      exact f2 ray this.1
                  · exact hqueue ray hr

/-- C54, conservation: for every tree all of whose coatings satisfy `0 ≤ R`, `0 ≤ T`, `R + T ≤ 1`, every set of rays, threshold
and direction, the total flux of all rays `traceSplit` of a compound returns is at most the total flux of the rays put in
(indeed of those not yet vignetted). -/
theorem C54_flux_not_created (niter : ℕ) (m : Dbl) (fuel : ℕ) (reverse : Bool) (d : Comp Dbl) (items : List (Optic Dbl))
    (hP : AllIface (PassiveIface 1) (.compound d items)) (b : Beam Dbl) (hb : ∀ ray ∈ b.rv.rays, Fine ray)
    (f r : List (Option (Beam Dbl)))
    (h : Optic.traceSplit niter m fuel reverse (.compound d items) b = some (.ok (.lists f r))) :
    totalFlux (raysOf f ++ raysOf r) ≤ totalFlux (b.rv.rays.filter (fun ray => !ray.vignetted)) ∧
    totalFlux (raysOf f ++ raysOf r) ≤ totalFlux b.rv.rays := by
  have key := (conserve (q := 1) zero_le_one niter m fuel).1 reverse _ b f r hP hb h
  have hkept := C54_returned_rays niter m fuel reverse d items b f r h
  have e1 : ∀ l : List (Ray Dbl), (∀ ray ∈ l, ray.vignetted = false) → liveFlux l = totalFlux l := by
    intro l hl
    unfold liveFlux totalFlux
    congr 1
    apply List.map_congr_left
    intro ray hr
    simp [live, hl ray hr]
  have e2 : ∀ l : List (Ray Dbl), liveFlux l = totalFlux (l.filter (fun ray => !ray.vignetted)) := by
    intro l
    induction l with
    | nil => rfl
    | cons x l ih =>
      rw [List.filter_cons]
      by_cases hv : x.vignetted = true
      · simp only [hv]
        simp only [liveFlux, List.map_cons, List.sum_cons] at ih ⊢
        rw [ih]; simp [live, hv]
      · simp only [hv]
        simp only [liveFlux, totalFlux, List.map_cons, List.sum_cons] at ih ⊢
        simp only [Bool.not_eq_true] at hv
        simp only [hv, Bool.not_false, if_true, List.map_cons, List.sum_cons]
        rw [ih]; simp [live, hv]
  have e3 : liveFlux b.rv.rays ≤ totalFlux b.rv.rays := by
    unfold liveFlux totalFlux
    refine List.sum_le_sum ?_
    intro ray hr
    exact live_le (hb ray hr)
  rw [← liveFlux_append, e1 _ (fun ray hr => (hkept ray hr).1)] at key
  exact ⟨by rw [← e2]; exact key, le_trans key e3⟩

end Batoid.Props
