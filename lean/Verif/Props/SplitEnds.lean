import Verif.Props.Split

/-!
# Property C54, termination of `traceSplit`
-/

namespace Batoid.Props
open Batoid

section fuel
variable {F : Type} [Arith F]

theorem fuel_mono (niter : ℕ) (m : F) : ∀ fuel : ℕ,
    (∀ reverse o b x, Optic.traceSplit niter m fuel reverse o b = some x →
      Optic.traceSplit niter m (fuel + 1) reverse o b = some x) ∧
    (∀ items queue outF outR x, Optic.splitLoop niter m fuel items queue outF outR = some x →
      Optic.splitLoop niter m (fuel + 1) items queue outF outR = some x) := by
  intro fuel
  induction fuel with
  | zero => exact ⟨by intro reverse o b x h; simp [Optic.traceSplit] at h,
      by intro items queue outF outR x h; simp [Optic.splitLoop] at h⟩
  | succ fuel ih =>
    obtain ⟨ih1, ih2⟩ := ih
    constructor
    · intro reverse o b x h
      cases o with
      | iface d => rw [Optic.traceSplit] at h ⊢; exact h
      | compound d items =>
        rw [Optic.traceSplit] at h ⊢
        split
        · rename_i hs; rw [if_pos hs] at h; exact h
        · rename_i hs
          rw [if_neg hs] at h
          split
          · rename_i he; rw [if_pos he] at h; exact h
          · rename_i he
            rw [if_neg he] at h
            cases hl : Optic.splitLoop niter m fuel items [⟨b, reverse, if reverse then items.length - 1 else 0⟩] [] [] with
            | none => rw [hl] at h; cases h
            | some res => rw [ih2 _ _ _ _ _ hl]; rw [hl] at h; exact h
    · intro items queue outF outR x h
      cases queue with
      | nil => rw [Optic.splitLoop] at h ⊢; exact h
      | cons job queue =>
        rw [Optic.splitLoop] at h ⊢
        cases ho : items[job.index]? with
        | none => rw [ho] at h; exact h
        | some o =>
          rw [ho] at h
          simp only at h ⊢
          cases ht : Optic.traceSplit niter m fuel job.back o job.beam with
          | none => rw [ht] at h; cases h
          | some res =>
            rw [ih1 _ _ _ _ ht]
            rw [ht] at h
            cases res with
            | error e => exact h
            | ok res =>
              cases res with
              | skipped b => exact h
              | lists f' r' => exact ih2 _ _ _ _ _ h

theorem trace_mono (niter : ℕ) (m : F) {n k : ℕ} (h : n ≤ k) {reverse : Bool} {o : Optic F} {b : Beam F} {x}
    (hx : Optic.traceSplit niter m n reverse o b = some x) : Optic.traceSplit niter m k reverse o b = some x := by
  induction h with
  | refl => exact hx
  | step _ ih => exact (fuel_mono niter m _).1 _ _ _ _ ih

theorem loop_mono (niter : ℕ) (m : F) {n k : ℕ} (h : n ≤ k) {items : List (Optic F)} {queue : List (Optic.Job F)}
    {outF outR : List (Beam F)} {x}
    (hx : Optic.splitLoop niter m n items queue outF outR = some x) :
    Optic.splitLoop niter m k items queue outF outR = some x := by
  induction h with
  | refl => exact hx
  | step _ ih => exact (fuel_mono niter m _).2 _ _ _ _ _ ih

/-- The call returns (a value or an exception) after finitely many steps. -/
def Ends (niter : ℕ) (m : F) (reverse : Bool) (o : Optic F) (b : Beam F) : Prop :=
  ∃ fuel x, Optic.traceSplit niter m fuel reverse o b = some x

/-- The work loop returns after finitely many steps. -/
def LoopEnds (niter : ℕ) (m : F) (items : List (Optic F)) (queue : List (Optic.Job F)) : Prop :=
  ∀ outF outR, ∃ fuel x, Optic.splitLoop niter m fuel items queue outF outR = some x

/-- Whenever the rest of the queue gets done, so does the queue with this job on top. -/
def GoodJob (niter : ℕ) (m : F) (items : List (Optic F)) (job : Optic.Job F) : Prop :=
  ∀ queue, LoopEnds niter m items queue → LoopEnds niter m items (job :: queue)

theorem goodJobs_append {niter : ℕ} {m : F} {items : List (Optic F)} : ∀ (jobs queue : List (Optic.Job F)),
    (∀ j ∈ jobs, GoodJob niter m items j) → LoopEnds niter m items queue → LoopEnds niter m items (jobs ++ queue)
  | [], _, _, hq => hq
  | j :: jobs, queue, h, hq => h j (by simp) _ (goodJobs_append jobs queue (fun j hj => h j (by simp [hj])) hq)

/-- A job is good if its item returns and the jobs it leaves behind are good. -/
theorem goodJob_step {niter : ℕ} {m : F} {items : List (Optic F)} {job : Optic.Job F}
    (h : ∀ o, items[job.index]? = some o → Ends niter m job.back o job.beam ∧
      ∀ fuel f r, Optic.traceSplit niter m fuel job.back o job.beam = some (.ok (.lists f r)) →
        ∀ j ∈ Optic.pushJobs items.length job.index (Optic.sift m f) (Optic.sift m r), GoodJob niter m items j) :
    GoodJob niter m items job := by
  intro queue hq outF outR
  cases ho : items[job.index]? with
  | none => exact ⟨1, .error .indexError, by rw [Optic.splitLoop, ho]⟩
  | some o =>
    obtain ⟨⟨fuel, x, hx⟩, hj⟩ := h o ho
    cases x with
    | error e => exact ⟨fuel + 1, .error e, by rw [Optic.splitLoop, ho]; simp only [hx]⟩
    | ok x =>
      cases x with
      | skipped b => exact ⟨fuel + 1, .error .typeError, by rw [Optic.splitLoop, ho]; simp only [hx]⟩
      | lists f r =>
        obtain ⟨fuel', y, hy⟩ := goodJobs_append _ queue
          (fun j hj' => hj fuel f r hx j (List.mem_reverse.1 hj')) hq
          (outF ++ Optic.outForward items.length job.index (Optic.sift m f))
          (outR ++ Optic.outReverse job.index (Optic.sift m r))
        refine ⟨max fuel fuel' + 1, y, ?_⟩
        rw [Optic.splitLoop, ho]
        simp only [trace_mono niter m (le_max_left fuel fuel') hx]
        exact loop_mono niter m (le_max_right fuel fuel') hy

end fuel

/-- Distance a job still has to go in its direction. -/
def distOf (n : ℕ) (job : Optic.Job Dbl) : ℕ := if job.back then job.index + 1 else n - job.index

theorem goodJob_all {q : ℝ} (hq : 0 ≤ q) (hq1 : q ≤ 1) (niter : ℕ) {m : ℝ} (items : List (Optic Dbl))
    (hP : AllIfaces (PassiveIface q) items)
    (hends : ∀ o ∈ items, ∀ reverse b, (∀ ray ∈ b.rv.rays, Fine ray) → Ends niter (Dbl.fin m) reverse o b) :
    ∀ (k dist : ℕ) (job : Optic.Job Dbl) (M : ℝ), 0 ≤ M → M * q ^ k < m → distOf items.length job ≤ dist →
      (∀ ray ∈ job.beam.rv.rays, Fine ray ∧ live ray ≤ M) → GoodJob niter (Dbl.fin m) items job := by
  intro k
  induction k with
  | zero =>
    intro dist
    induction dist with
    | zero =>
      intro job M hM hk hd hb
      apply goodJob_step
      intro o ho
      have hlt := (List.getElem?_eq_some_iff.1 ho).1
      unfold distOf at hd
      split at hd <;> omega
    | succ dist ihd =>
      intro job M hM hk hd hb
      apply goodJob_step
      intro o ho
      have hlt := (List.getElem?_eq_some_iff.1 ho).1
      have ho' := List.mem_of_getElem? ho
      refine ⟨hends o ho' _ _ (fun ray hr => (hb ray hr).1), fun fuel f r hx j hj => ?_⟩
      obtain ⟨g1, g2⟩ := (gen niter (Dbl.fin m) (fun back ray => Fine ray ∧ live ray ≤ if back = job.back then M else q * M)
        fuel).1 job.back o job.beam f r
        (allIface_imp (fun d hd => iface_preserves hq hq1 niter job.back M hM d hd) o (allIfaces_mem hP o ho'))
        (by simpa using hb) hx
      exfalso
      have hqM : q * M ≤ M := by nlinarith
      have contra : ∀ ray : Ray Dbl, Fine ray → live ray ≤ M → Optic.keep (Dbl.fin m) ray = true → False := by
        intro ray hf hl hkeep
        obtain ⟨⟨x, hx0, e⟩, -⟩ := hf
        simp only [Optic.keep, e, Bool.and_eq_true, Bool.not_eq_true', Dbl.ge_fin, decide_eq_true_eq] at hkeep
        simp only [live, hkeep.1, e, val] at hl
        simp at hl hk
        linarith [hkeep.2]
      rcases pushJobs_mem hj with ⟨hb', hne, -⟩ | ⟨hb', hne, -⟩
      all_goals
        obtain ⟨ray, hray⟩ := List.exists_mem_of_ne_nil _ hne
        have hs := mem_raysB.2 ⟨_, hb', hray⟩
        rw [raysB_sift, List.mem_filter] at hs
      · obtain ⟨a1, a2⟩ := g1 ray hs.1
        exact contra ray a1 (by split at a2 <;> linarith) hs.2
      · obtain ⟨a1, a2⟩ := g2 ray hs.1
        exact contra ray a1 (by split at a2 <;> linarith) hs.2
  | succ k ihk =>
    intro dist
    induction dist with
    | zero =>
      intro job M hM hk hd hb
      apply goodJob_step
      intro o ho
      have hlt := (List.getElem?_eq_some_iff.1 ho).1
      unfold distOf at hd
      split at hd <;> omega
    | succ dist ihd =>
      intro job M hM hk hd hb
      apply goodJob_step
      intro o ho
      have hlt := (List.getElem?_eq_some_iff.1 ho).1
      have ho' := List.mem_of_getElem? ho
      refine ⟨hends o ho' _ _ (fun ray hr => (hb ray hr).1), fun fuel f r hx j hj => ?_⟩
      obtain ⟨g1, g2⟩ := (gen niter (Dbl.fin m) (fun back ray => Fine ray ∧ live ray ≤ if back = job.back then M else q * M)
        fuel).1 job.back o job.beam f r
        (allIface_imp (fun d hd => iface_preserves hq hq1 niter job.back M hM d hd) o (allIfaces_mem hP o ho'))
        (by simpa using hb) hx
      have hk' : q * M * q ^ k < m := by rw [pow_succ] at hk; linarith [hk]
      rcases pushJobs_mem hj with ⟨hb', -, hback, hidx, hn⟩ | ⟨hb', -, hback, hidx⟩
      · have hrays : ∀ ray ∈ j.beam.rv.rays, Fine ray ∧ live ray ≤ if false = job.back then M else q * M := by
          intro ray hray
          have hs := mem_raysB.2 ⟨_, hb', hray⟩
          rw [raysB_sift, List.mem_filter] at hs
          exact g1 ray hs.1
        cases hjb : job.back with
        | false =>
          refine ihd j M hM hk ?_ (by simpa [hjb] using hrays)
          simp only [distOf, hjb, hback] at hd ⊢
          simp at hd ⊢
          omega
        | true =>
          refine ihk (distOf items.length j) j (q * M) (by positivity) hk' (le_refl _) (by simpa [hjb] using hrays)
      · have hrays : ∀ ray ∈ j.beam.rv.rays, Fine ray ∧ live ray ≤ if true = job.back then M else q * M := by
          intro ray hray
          have hs := mem_raysB.2 ⟨_, hb', hray⟩
          rw [raysB_sift, List.mem_filter] at hs
          exact g2 ray hs.1
        cases hjb : job.back with
        | true =>
          refine ihd j M hM hk ?_ (by simpa [hjb] using hrays)
          simp only [distOf, hjb, hback] at hd ⊢
          simp at hd ⊢
          omega
        | false =>
          refine ihk (distOf items.length j) j (q * M) (by positivity) hk' (le_refl _) (by simpa [hjb] using hrays)

theorem exists_bound : ∀ l : List (Ray Dbl), ∃ M : ℝ, 0 ≤ M ∧ ∀ ray ∈ l, live ray ≤ M
  | [] => ⟨0, le_refl _, by simp⟩
  | x :: l => by
    obtain ⟨M, h0, h⟩ := exists_bound l
    refine ⟨max M (live x), le_max_of_le_left h0, fun ray hr => ?_⟩
    rcases List.mem_cons.1 hr with rfl | hr
    · exact le_max_right _ _
    · exact le_max_of_le_left (h ray hr)

mutual
theorem ends_all {q : ℝ} (hq : 0 ≤ q) (hq1 : q < 1) (niter : ℕ) {m : ℝ} (hm : 0 < m) : ∀ (o : Optic Dbl),
    AllIface (PassiveIface q) o → ∀ reverse b, (∀ ray ∈ b.rv.rays, Fine ray) → Ends niter (Dbl.fin m) reverse o b
  | .iface d, _, reverse, b, _ => by
    refine ⟨1, ?_⟩
    rw [Optic.traceSplit]
    split
    · exact ⟨_, rfl⟩
    · exact ⟨_, rfl⟩
  | .compound d items, hP, reverse, b, hb => by
    obtain ⟨M, hM, hbM⟩ := exists_bound b.rv.rays
    obtain ⟨k, hk⟩ : ∃ k : ℕ, M * q ^ k < m := by
      obtain ⟨k, hk⟩ := exists_pow_lt_of_lt_one (show 0 < m / (M + 1) by positivity) hq1
      refine ⟨k, ?_⟩
      have h1 : (M + 1) * q ^ k < m := by rw [mul_comm]; exact (lt_div_iff₀ (by positivity)).1 hk
      have h2 : 0 ≤ q ^ k := by positivity
      nlinarith
    have hg := goodJob_all hq hq1.le niter (m := m) items hP (ends_items hq hq1 niter hm items hP) k _
      ⟨b, reverse, if reverse then items.length - 1 else 0⟩ M hM hk (le_refl _) (fun ray hr => ⟨hb ray hr, hbM ray hr⟩)
    obtain ⟨fuel, x, hx⟩ := hg [] (fun outF outR => ⟨1, _, rfl⟩) [] []
    refine ⟨fuel + 1, ?_⟩
    rw [Optic.traceSplit]
    split
    · exact ⟨_, rfl⟩
    · split
      · exact ⟨_, rfl⟩
      · exact ⟨_, by rw [hx]; rfl⟩
theorem ends_items {q : ℝ} (hq : 0 ≤ q) (hq1 : q < 1) (niter : ℕ) {m : ℝ} (hm : 0 < m) : ∀ (items : List (Optic Dbl)),
    AllIfaces (PassiveIface q) items → ∀ o ∈ items, ∀ reverse b, (∀ ray ∈ b.rv.rays, Fine ray) →
      Ends niter (Dbl.fin m) reverse o b
  | [], _, o, h => by cases h
  | x :: xs, hP, o, h => fun reverse b hb => by
    rcases List.mem_cons.1 h with h | h
    · rw [h]; exact ends_all hq hq1 niter hm x hP.1 reverse b hb
    · exact ends_items hq hq1 niter hm xs hP.2 o h reverse b hb
end

/-- C54, termination: if no coating in the tree creates flux and none reflects more than a fraction `q < 1`, then `traceSplit`
with any positive minimum flux returns (or raises) after finitely many steps, for every tree, direction and set of rays; and
giving it more steps does not change the outcome. -/
theorem C54_traceSplit_ends (niter : ℕ) {q m : ℝ} (hq1 : q < 1) (hm : 0 < m) (o : Optic Dbl)
    (hP : AllIface (PassiveIface q) o) (reverse : Bool) (b : Beam Dbl) (hb : ∀ ray ∈ b.rv.rays, Fine ray) :
    ∃ fuel x, ∀ fuel', fuel ≤ fuel' → Optic.traceSplit niter (Dbl.fin m) fuel' reverse o b = some x := by
  have hP' : AllIface (PassiveIface (max q 0)) o := by
    refine allIface_imp (fun d hd => ?_) o hP
    have : ∀ c, Passive q c → Passive (max q 0) c := by
      intro c hc w a
      obtain ⟨R, T, h1, h2, h3, h4, h5⟩ := hc w a
      exact ⟨R, T, h1, h2, h3, le_max_of_le_left h4, h5⟩
    exact ⟨fun c hc => this c (hd.1 c hc), fun c hc => this c (hd.2 c hc)⟩
  obtain ⟨fuel, x, hx⟩ := ends_all (le_max_right q 0) (max_lt hq1 one_pos) niter hm o hP' reverse b hb
  exact ⟨fuel, x, fun fuel' h => trace_mono niter _ h hx⟩

/-! ## Concrete cases -/

/-- A glass surface reflecting and transmitting the given fractions both ways. -/
noncomputable def demoGlass (nm : String) (R T : ℝ) : Iface Dbl :=
  { demoMirror with
    kind := .refractive
    name := nm.toList
    obscuration := none
    forwardCoating := some (.simple (Dbl.fin R) (Dbl.fin T))
    reverseCoating := some (.simple (Dbl.fin R) (Dbl.fin T)) }

theorem demoGlass_passive (nm : String) {R T q : ℝ} (h1 : 0 ≤ R) (h2 : R ≤ q) (h3 : 0 ≤ T) (h4 : R + T ≤ 1) :
    PassiveIface q (demoGlass nm R T) := by
  constructor <;> intro c hc <;> simp only [demoGlass, Option.some.injEq] at hc <;> subst hc <;>
    exact fun w a => ⟨R, T, rfl, rfl, h1, h2, h3, h4⟩

/-- Two such surfaces facing each other: the light bounces between them, and `traceSplit` returns. -/
example (niter : ℕ) (v : V3 ℝ) : ∃ fuel x, ∀ fuel', fuel ≤ fuel' → Optic.traceSplit niter (Dbl.fin (1 / 1000)) fuel' false
    (demoComp "T" [.iface (demoGlass "A" (1 / 2) (1 / 2)), .iface (demoGlass "B" (1 / 3) (1 / 2))])
    ⟨⟨[demoRay v], (CoordSys.std ℝ).fin⟩, none⟩ = some x := by
  refine C54_traceSplit_ends niter (q := 1 / 2) (by norm_num) (by norm_num) _ ?_ false _ ?_
  · exact ⟨demoGlass_passive _ (by norm_num) (by norm_num) (by norm_num) (by norm_num),
      demoGlass_passive _ (by norm_num) (by norm_num) (by norm_num) (by norm_num), trivial⟩
  · intro ray hr
    simp at hr
    subst hr
    exact ⟨⟨1, by norm_num, rfl⟩, by simp [demoRay]⟩

/-- A call that returns two lists, whose total flux is therefore at most the flux put in. -/
example (v : V3 ℝ) : ∃ f r, Optic.traceSplit 5 (Dbl.fin (1 / 1000)) 3 false (demoComp "T" [.iface (demoGlass "A" (1 / 2) (1 / 2))])
    ⟨⟨[demoRay v], (CoordSys.std ℝ).fin⟩, none⟩ = some (.ok (.lists f r)) ∧ totalFlux (raysOf f ++ raysOf r) ≤ 1 := by
  have h : ∃ f r, Optic.traceSplit 5 (Dbl.fin (1 / 1000)) 3 false (demoComp "T" [.iface (demoGlass "A" (1 / 2) (1 / 2))])
      ⟨⟨[demoRay v], (CoordSys.std ℝ).fin⟩, none⟩ = some (.ok (.lists f r)) := by
    generalize demoRay v = ray
    exact ⟨_, _, rfl⟩
  obtain ⟨f, r, h⟩ := h
  refine ⟨f, r, h, ?_⟩
  have := (C54_flux_not_created 5 _ 3 false _ _ (by
    exact ⟨demoGlass_passive _ (by norm_num) (by norm_num) (by norm_num) (by norm_num), trivial⟩) _ (by
      intro ray hr
      simp at hr
      subst hr
      exact ⟨⟨1, by norm_num, rfl⟩, by simp [demoRay]⟩) f r h).2
  simpa [totalFlux, demoRay, val] using this

/-- A ray marked failed but not vignetted, as a user can construct it. -/
noncomputable def oddRay : Ray Dbl := { demoRay ⟨0, 0, -1⟩ with failed := true }

theorem oddRay_split (nm : String) (R T : ℝ) (niter : ℕ) (reverse : Bool) (cs : CoordSys Dbl) (p : Option (List Name)) :
    ∃ cs' p' b, (demoGlass nm R T).traceSplit niter reverse ⟨⟨[oddRay], cs⟩, p⟩ = .ok ([some b], [some b]) ∧
      b = ⟨⟨[oddRay], cs'⟩, p'⟩ := by
  cases reverse <;>
  · refine ⟨_, _, _, rfl, rfl⟩

theorem oddRay_keep : Optic.keep (Dbl.fin (1 / 1000)) oddRay = true := by
  simp only [Optic.keep, oddRay, demoRay, Dbl.ge_fin]
  norm_num

theorem oddRay_loop (niter : ℕ) (R T : ℝ) : ∀ (fuel : ℕ) (back : Bool) (cs : CoordSys Dbl) (p : Option (List Name))
    (outF outR : List (Beam Dbl)),
    Optic.splitLoop niter (Dbl.fin (1 / 1000)) fuel [.iface (demoGlass "A" R T), .iface (demoGlass "B" R T)]
      [⟨⟨⟨[oddRay], cs⟩, p⟩, back, if back then 0 else 1⟩] outF outR = none
  | 0, _, _, _, _, _ => by simp [Optic.splitLoop]
  | fuel + 1, back, cs, p, outF, outR => by
    cases fuel with
    | zero =>
      rw [Optic.splitLoop]
      cases back <;> simp [Optic.traceSplit]
    | succ fuel =>
      have hs : ∀ (cs' : CoordSys Dbl) (p' : Option (List Name)),
          Optic.sift (Dbl.fin (1 / 1000)) [some (⟨⟨[oddRay], cs'⟩, p'⟩ : Beam Dbl)] = [⟨⟨[oddRay], cs'⟩, p'⟩] := by
        intro cs' p'
        simp [Optic.sift, -one_div, List.filter_cons, oddRay_keep]
      cases back with
      | false =>
        obtain ⟨cs', p', b, h, rfl⟩ := oddRay_split "B" R T niter false cs p
        have ht : Optic.traceSplit niter (Dbl.fin (1 / 1000)) (fuel + 1) false (.iface (demoGlass "B" R T)) ⟨⟨[oddRay], cs⟩, p⟩
            = some (.ok (.lists [some ⟨⟨[oddRay], cs'⟩, p'⟩] [some ⟨⟨[oddRay], cs'⟩, p'⟩])) := by
          rw [Optic.traceSplit, h]; rfl
        rw [Optic.splitLoop]
        simp only [Bool.false_eq_true, if_false, List.getElem?_cons_succ, List.getElem?_cons_zero, ht, hs]
        exact oddRay_loop niter R T (fuel + 1) true cs' p' _ _
      | true =>
        obtain ⟨cs', p', b, h, rfl⟩ := oddRay_split "A" R T niter true cs p
        have ht : Optic.traceSplit niter (Dbl.fin (1 / 1000)) (fuel + 1) true (.iface (demoGlass "A" R T)) ⟨⟨[oddRay], cs⟩, p⟩
            = some (.ok (.lists [some ⟨⟨[oddRay], cs'⟩, p'⟩] [some ⟨⟨[oddRay], cs'⟩, p'⟩])) := by
          rw [Optic.traceSplit, h]; rfl
        rw [Optic.splitLoop]
        simp only [if_true, List.getElem?_cons_zero, ht, hs]
        exact oddRay_loop niter R T (fuel + 1) false cs' p' _ _

/-- C54 fails for rays that are marked failed but not vignetted (a user can construct them; the library never does): with two
surfaces that absorb most of the light, `traceSplit` of one such ray runs for ever. -/
theorem C54_failed_ray_loops_violated (niter fuel : ℕ) : Optic.traceSplit niter (Dbl.fin (1 / 1000)) fuel false
    (demoComp "T" [.iface (demoGlass "A" (1 / 10) (1 / 10)), .iface (demoGlass "B" (1 / 10) (1 / 10))])
    ⟨⟨[oddRay], (CoordSys.std ℝ).fin⟩, none⟩ = none := by
  match fuel with
  | 0 => simp [Optic.traceSplit]
  | 1 => simp [demoComp, Optic.traceSplit, Optic.splitLoop, Optic.skip]
  | 2 => simp [demoComp, Optic.traceSplit, Optic.splitLoop, Optic.skip]
  | fuel + 3 =>
    obtain ⟨cs', p', b, h, rfl⟩ := oddRay_split "A" (1 / 10) (1 / 10) niter false (CoordSys.std ℝ).fin none
    have ht : Optic.traceSplit niter (Dbl.fin (1 / 1000)) (fuel + 1) false (.iface (demoGlass "A" (1 / 10) (1 / 10)))
        ⟨⟨[oddRay], (CoordSys.std ℝ).fin⟩, none⟩
        = some (.ok (.lists [some ⟨⟨[oddRay], cs'⟩, p'⟩] [some ⟨⟨[oddRay], cs'⟩, p'⟩])) := by
      rw [Optic.traceSplit, h]; rfl
    have hs : Optic.sift (Dbl.fin (1 / 1000)) [some (⟨⟨[oddRay], cs'⟩, p'⟩ : Beam Dbl)] = [⟨⟨[oddRay], cs'⟩, p'⟩] := by
      simp [Optic.sift, -one_div, List.filter_cons, oddRay_keep]
    have hl := oddRay_loop niter (1 / 10) (1 / 10) (fuel + 1) false cs' p' []
      [⟨⟨[oddRay], cs'⟩, p'⟩]
    rw [demoComp, Optic.traceSplit, Optic.splitLoop]
    simp only [Optic.skip, Bool.false_eq_true, if_false, List.getElem?_cons_zero, ht, hs, List.isEmpty_cons]
    have e : Optic.splitLoop niter (Dbl.fin (1 / 1000)) (fuel + 1)
        [.iface (demoGlass "A" (1 / 10) (1 / 10)), .iface (demoGlass "B" (1 / 10) (1 / 10))]
        ((Optic.pushJobs [Optic.iface (demoGlass "A" (1 / 10) (1 / 10)), .iface (demoGlass "B" (1 / 10) (1 / 10))].length 0
          [⟨⟨[oddRay], cs'⟩, p'⟩] [⟨⟨[oddRay], cs'⟩, p'⟩]).reverse ++ [])
        ([] ++ Optic.outForward [Optic.iface (demoGlass "A" (1 / 10) (1 / 10)), .iface (demoGlass "B" (1 / 10) (1 / 10))].length 0
          [⟨⟨[oddRay], cs'⟩, p'⟩])
        ([] ++ Optic.outReverse 0 [⟨⟨[oddRay], cs'⟩, p'⟩]) = none := hl
    rw [e]; rfl

end Batoid.Props
