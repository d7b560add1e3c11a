import Verif.DualView
import Mathlib.Data.List.Forall2

/-!
# Property C64: host and device copies do not diverge
-/

namespace Batoid.Props
open Batoid

variable {V : Type}

/-! ## Specification: one copy of everything -/

/-- What a kernel can see of the arrays. -/
def visible (k : Kernel) (c : Contents V) : Contents V := fun f => if k.reads f then c f else []

/-- One operation on plain arrays. -/
def plainStep (s : List (Contents V)) : DualOp V → List (Contents V) × Option (Contents V)
  | .read i f =>
    match s[i]? with
    | none => (s, none)
    | some c => (s, some fun g => if g = f then c f else [])
  | .write i f g =>
    match s[i]? with
    | none => (s, none)
    | some c => (s.set i (fun h => if h = f then g (c h) else c h), none)
  | .kernel i k body =>
    match s[i]? with
    | none => (s, none)
    | some c => (s.set i (fun f => if k.writes f then body (visible k c) f else c f), some (visible k c))
  | .copy i g _ =>
    match s[i]? with
    | none => (s, none)
    | some c => (s ++ [fun f => g (c f)], none)
  | .rSplit i body split _ =>
    match s[i]? with
    | none => (s, none)
    | some c => (s.set i (fun f => if Kernel.writes .rSplit f then body (visible .rSplit c) f else c f) ++ [split (visible .rSplit c) c],
        some (visible .rSplit c))
  | .syncToHost _ => (s, none)
  | .syncToDevice _ => (s, none)
  | .compare i j f =>
    match s[i]?, s[j]? with
    | some a, some b => (s, some fun g => if g = f then a f ++ b f else [])
    | _, _ => (s, none)

/-- Everything seen by a program on plain arrays. -/
def plainAll : List (Contents V) → List (DualOp V) → List (Option (Contents V))
  | _, [] => []
  | s, op :: ops => (plainStep s op).2 :: plainAll (plainStep s op).1 ops

/-- Fresh ray vectors with the given contents; the device memory holds anything. -/
def fresh (cs : List (Contents V × Contents V)) : List (DualRays V) := cs.map fun p f => DualView.make (p.1 f) (p.2 f)

/-- The operation does not assign to the array `rv.wavelength`. -/
def WavelengthKept : DualOp V → Prop
  | .write _ f _ => f ≠ .wavelength
  | _ => True

/-- A split that writes every element of the second ray vector, passing the wavelengths on. -/
def SplitComplete : DualOp V → Prop
  | .rSplit _ _ split _ => (∀ inc o o', split inc o = split inc o') ∧ ∀ inc o, split inc o .wavelength = inc .wavelength
  | _ => True

/-! ## The table of kernels -/

theorem reads_synced (k : Kernel) (f : Field) (h : k.reads f = true) : k.synced f = true := by
  cases k <;> cases f <;> simp_all [Kernel.reads, Kernel.synced, Kernel.phaseSpace]

theorem writes_synced (k : Kernel) (f : Field) (h : k.writes f = true) : k.synced f = true := by
  cases k <;> cases f <;> simp_all [Kernel.writes, Kernel.synced, Kernel.phaseSpace]

theorem writes_wavelength (k : Kernel) : k.writes .wavelength = false := by
  cases k <;> simp [Kernel.writes, Kernel.phaseSpace]

/-! ## The invariant -/

/-- The valid copy. -/
def valid (gpu : Bool) (d : DualView V) : List V := if d.syncState = .host then d.hostData else d.inKernel gpu

/-- The ray vector holds the contents; what is returned without synchronising is up to date as well. -/
def Holds (gpu : Bool) (rv : DualRays V) (c : Contents V) : Prop :=
  ∀ f, valid gpu (rv f) = c f ∧ ((gpu = false ∨ f = .wavelength) → (rv f).hostData = c f)

theorem syncToHost_spec (gpu : Bool) (d : DualView V) : (d.syncToHost gpu).hostData = valid gpu d ∧ (d.syncToHost gpu).syncState = .host := by
  unfold DualView.syncToHost valid
  cases h : d.syncState <;> simp [DualView.inKernel]
  exact h

theorem syncToDevice_spec (gpu : Bool) (d : DualView V) : (d.syncToDevice gpu).inKernel gpu = valid gpu d ∧
    (d.syncToDevice gpu).syncState = .device ∧ (d.syncToDevice gpu).hostData = d.hostData := by
  unfold DualView.syncToDevice valid
  cases h : d.syncState <;> cases gpu <;> simp [DualView.inKernel, h]

theorem valid_syncToHost (gpu : Bool) (d : DualView V) : valid gpu (d.syncToHost gpu) = valid gpu d := by
  obtain ⟨h1, h2⟩ := syncToHost_spec gpu d
  conv_lhs => unfold valid
  rw [if_pos h2, h1]

theorem valid_syncToDevice (gpu : Bool) (d : DualView V) : valid gpu (d.syncToDevice gpu) = valid gpu d := by
  obtain ⟨h1, h2, _⟩ := syncToDevice_spec gpu d
  conv_lhs => unfold valid
  rw [if_neg (by rw [h2]; simp), h1]

theorem holds_syncToHost {gpu : Bool} {rv : DualRays V} {c : Contents V} (h : Holds gpu rv c) : Holds gpu (rv.syncAllToHost gpu) c := by
  intro f
  refine ⟨(valid_syncToHost gpu _).trans (h f).1, fun _ => (syncToHost_spec gpu _).1.trans (h f).1⟩

theorem holds_syncToDevice {gpu : Bool} {rv : DualRays V} {c : Contents V} (h : Holds gpu rv c) : Holds gpu (rv.syncAllToDevice gpu) c := by
  intro f
  exact ⟨(valid_syncToDevice gpu _).trans (h f).1, fun hf => (syncToDevice_spec gpu _).2.2.trans ((h f).2 hf)⟩

theorem holds_accessed {gpu : Bool} {rv : DualRays V} {c : Contents V} (h : Holds gpu rv c) (f : Field) :
    Holds gpu (rv.accessed gpu f) c ∧ ((rv.accessed gpu f) f).hostData = c f ∧
      (f ≠ .wavelength → ((rv.accessed gpu f) f).syncState = .host) := by
  unfold DualRays.accessed
  by_cases hw : f = .wavelength
  · rw [if_pos hw]
    exact ⟨h, (h f).2 (Or.inr hw), fun h' => absurd hw h'⟩
  · rw [if_neg hw]
    refine ⟨?_, ?_, ?_⟩
    · intro g
      beta_reduce
      by_cases hg : g = f
      · rw [if_pos hg]
        exact ⟨(valid_syncToHost gpu _).trans (h g).1, fun _ => (syncToHost_spec gpu _).1.trans (h g).1⟩
      · rw [if_neg hg]; exact h g
    · rw [if_pos rfl]; exact (syncToHost_spec gpu _).1.trans (h f).1
    · intro _; rw [if_pos rfl]; exact (syncToHost_spec gpu _).2

theorem holds_syncField {gpu : Bool} {rv : DualRays V} {c : Contents V} (h : Holds gpu rv c) (f : Field) :
    Holds gpu (rv.syncField gpu f) c ∧ ((rv.syncField gpu f) f).inKernel gpu = c f := by
  unfold DualRays.syncField
  constructor
  · intro g
    beta_reduce
    split
    · exact ⟨(valid_syncToDevice gpu _).trans (h g).1, fun hf => (syncToDevice_spec gpu _).2.2.trans ((h g).2 hf)⟩
    · exact h g
  · rw [if_pos rfl]; exact (syncToDevice_spec gpu _).1.trans (h f).1

theorem holds_seen {gpu : Bool} {rv : DualRays V} {c : Contents V} (h : Holds gpu rv c) (k : Kernel) : rv.seen gpu k = visible k c := by
  funext f
  unfold DualRays.seen DualRays.restrict visible
  by_cases hr : k.reads f = true
  · rw [if_pos hr, if_pos hr]
    beta_reduce
    rw [if_pos (reads_synced k f hr), (syncToDevice_spec gpu _).1, (h f).1]
  · rw [if_neg hr, if_neg hr]

theorem holds_run {gpu : Bool} {rv : DualRays V} {c : Contents V} (h : Holds gpu rv c) (k : Kernel) (body : Contents V → Contents V) :
    Holds gpu (rv.run gpu k body) (fun f => if k.writes f then body (visible k c) f else c f) := by
  intro f
  have hseen := holds_seen h k
  have hb : rv.run gpu k body f = if k.writes f then
      ((if k.synced f then (rv f).syncToDevice gpu else rv f).setInKernel gpu (body (visible k c) f)) else
      (if k.synced f then (rv f).syncToDevice gpu else rv f) := by
    rw [← hseen]; rfl
  rw [hb]
  beta_reduce
  by_cases hw : k.writes f = true
  · rw [if_pos hw, if_pos hw, if_pos (writes_synced k f hw)]
    have hs := (syncToDevice_spec gpu (rv f)).2.1
    constructor
    · unfold valid DualView.setInKernel
      cases gpu <;> simp [hs, DualView.inKernel]
    · rintro (hg | hf)
      · subst hg; simp [DualView.setInKernel]
      · rw [hf, writes_wavelength] at hw; cases hw
  · rw [if_neg hw, if_neg hw]
    split
    · exact ⟨(valid_syncToDevice gpu _).trans (h f).1, fun hf => (syncToDevice_spec gpu _).2.2.trans ((h f).2 hf)⟩
    · exact h f

theorem holds_copy {gpu : Bool} {rv : DualRays V} {c : Contents V} (h : Holds gpu rv c) (g : List V → List V) (junk : Contents V) :
    Holds gpu (DualOp.copyOf g junk (rv.syncAllToHost gpu)) (fun f => g (c f)) := by
  intro f
  have : ((rv.syncAllToHost gpu) f).hostData = c f := (syncToHost_spec gpu _).1.trans (h f).1
  refine ⟨?_, fun _ => ?_⟩
  · show g _ = g _; rw [this]
  · show g _ = g _; rw [this]

/-! ## Stores -/

/-- Store and plain arrays, element by element. -/
def StoreHolds (gpu : Bool) (s : List (DualRays V)) (cs : List (Contents V)) : Prop := List.Forall₂ (Holds gpu) s cs

theorem StoreHolds.get {gpu : Bool} {s : List (DualRays V)} {cs : List (Contents V)} (h : StoreHolds gpu s cs) (i : ℕ) :
    (s[i]? = none ∧ cs[i]? = none) ∨ ∃ rv c, s[i]? = some rv ∧ cs[i]? = some c ∧ Holds gpu rv c := by
  induction h generalizing i with
  | nil => left; simp
  | cons h1 _ ih =>
    cases i with
    | zero => right; exact ⟨_, _, rfl, rfl, h1⟩
    | succ i => simpa using ih i

theorem StoreHolds.set {gpu : Bool} {s : List (DualRays V)} {cs : List (Contents V)} (h : StoreHolds gpu s cs) (i : ℕ)
    {rv : DualRays V} {c : Contents V} (hr : Holds gpu rv c) : StoreHolds gpu (s.set i rv) (cs.set i c) := by
  induction h generalizing i with
  | nil => exact .nil
  | cons h1 h2 ih =>
    cases i with
    | zero => exact .cons hr h2
    | succ i => exact .cons h1 (ih i)

theorem StoreHolds.set_left {gpu : Bool} {s : List (DualRays V)} {cs : List (Contents V)} (h : StoreHolds gpu s cs) (i : ℕ)
    {rv : DualRays V} {c : Contents V} (hc : cs[i]? = some c) (hr : Holds gpu rv c) : StoreHolds gpu (s.set i rv) cs := by
  have := h.set i hr
  obtain ⟨hlt, rfl⟩ := List.getElem?_eq_some_iff.mp hc
  rwa [List.set_getElem_self] at this

theorem StoreHolds.append {gpu : Bool} {s : List (DualRays V)} {cs : List (Contents V)} (h : StoreHolds gpu s cs)
    {rv : DualRays V} {c : Contents V} (hr : Holds gpu rv c) : StoreHolds gpu (s ++ [rv]) (cs ++ [c]) :=
  List.rel_append h (.cons hr .nil)

/-- The two hypotheses a device build needs. -/
def Harmless (gpu : Bool) (op : DualOp V) : Prop := gpu = true → WavelengthKept op ∧ SplitComplete op

theorem step_holds {gpu : Bool} {s : List (DualRays V)} {cs : List (Contents V)} (h : StoreHolds gpu s cs) (op : DualOp V)
    (hop : Harmless gpu op) : StoreHolds gpu (DualOp.step gpu s op).1 (plainStep cs op).1 ∧ (DualOp.step gpu s op).2 = (plainStep cs op).2 := by
  cases op with
  | read i f =>
    rcases h.get i with ⟨e1, e2⟩ | ⟨rv, c, e1, e2, hr⟩
    · simp only [DualOp.step, plainStep, e1, e2]; exact ⟨h, trivial⟩
    · simp only [DualOp.step, plainStep, e1, e2]
      obtain ⟨a, b, _⟩ := holds_accessed hr f
      refine ⟨h.set_left i e2 a, ?_⟩
      rw [b]
  | write i f g =>
    rcases h.get i with ⟨e1, e2⟩ | ⟨rv, c, e1, e2, hr⟩
    · simp only [DualOp.step, plainStep, e1, e2]; exact ⟨h, trivial⟩
    · simp only [DualOp.step, plainStep, e1, e2]
      obtain ⟨a, b, d⟩ := holds_accessed hr f
      refine ⟨h.set i ?_, trivial⟩
      intro k
      beta_reduce
      by_cases hk : k = f
      · subst hk
        rw [if_pos rfl, if_pos rfl]
        refine ⟨?_, fun _ => by show g _ = g _; rw [b]⟩
        cases gpu with
        | false =>
          unfold valid
          simp only [DualView.inKernel, Bool.false_eq_true, if_false, ite_self]
          rw [b]
        | true =>
          unfold valid
          have := d (hop rfl).1
          simp only [this, if_true]
          rw [b]
      · rw [if_neg hk, if_neg hk]; exact a k
  | kernel i k body =>
    rcases h.get i with ⟨e1, e2⟩ | ⟨rv, c, e1, e2, hr⟩
    · simp only [DualOp.step, plainStep, e1, e2]; exact ⟨h, trivial⟩
    · simp only [DualOp.step, plainStep, e1, e2]
      exact ⟨h.set i (holds_run hr k body), by rw [holds_seen hr]⟩
  | copy i g junk =>
    rcases h.get i with ⟨e1, e2⟩ | ⟨rv, c, e1, e2, hr⟩
    · simp only [DualOp.step, plainStep, e1, e2]; exact ⟨h, trivial⟩
    · simp only [DualOp.step, plainStep, e1, e2]
      exact ⟨(h.set_left i e2 (holds_syncToHost hr)).append (holds_copy hr g junk), trivial⟩
  | rSplit i body split junk =>
    rcases h.get i with ⟨e1, e2⟩ | ⟨rv, c, e1, e2, hr⟩
    · simp only [DualOp.step, plainStep, e1, e2]; exact ⟨h, trivial⟩
    · simp only [DualOp.step, plainStep, e1, e2]
      have hh := holds_syncToHost hr
      have hc := holds_copy hr id junk
      have hsee : (rv.syncAllToHost gpu).seen gpu .rSplit = visible .rSplit c := holds_seen hh .rSplit
      refine ⟨(h.set i (holds_run hh .rSplit body)).append ?_, by rw [hsee]⟩
      rw [hsee]
      intro f
      cases gpu with
      | false =>
        have hold : (fun f => ({ DualOp.copyOf id junk (rv.syncAllToHost false) f with syncState := .device } : DualView V).inKernel false) = c := by
          funext g
          exact (hc g).2 (Or.inl rfl)
        rw [hold]
        constructor
        · simp [valid, DualView.setInKernel, DualView.inKernel]
        · intro _; simp [DualView.setInKernel]
      | true =>
        obtain ⟨s1, s2⟩ := (hop rfl).2
        constructor
        · simp only [valid, DualView.setInKernel, DualView.inKernel, if_true, reduceCtorEq, if_false]
          rw [s1]
        · rintro (hg | hf)
          · cases hg
          · subst hf
            rw [s2]
            exact (hc .wavelength).2 (Or.inr rfl)
  | syncToHost i =>
    rcases h.get i with ⟨e1, e2⟩ | ⟨rv, c, e1, e2, hr⟩
    · simp only [DualOp.step, plainStep, e1]; exact ⟨h, trivial⟩
    · simp only [DualOp.step, plainStep, e1]
      exact ⟨h.set_left i e2 (holds_syncToHost hr), trivial⟩
  | syncToDevice i =>
    rcases h.get i with ⟨e1, e2⟩ | ⟨rv, c, e1, e2, hr⟩
    · simp only [DualOp.step, plainStep, e1]; exact ⟨h, trivial⟩
    · simp only [DualOp.step, plainStep, e1]
      exact ⟨h.set_left i e2 (holds_syncToDevice hr), trivial⟩
  | compare i j f =>
    rcases h.get i with ⟨e1, e2⟩ | ⟨a, c, e1, e2, hr⟩
    · simp only [DualOp.step, plainStep, e1, e2]; exact ⟨h, trivial⟩
    · rcases h.get j with ⟨e3, e4⟩ | ⟨b, d, e3, e4, hr'⟩
      · simp only [DualOp.step, plainStep, e1, e2, e3, e4]; exact ⟨h, trivial⟩
      · simp only [DualOp.step, plainStep, e1, e2, e3, e4]
        by_cases hh : (a f).syncState = .host ∧ (b f).syncState = .host
        · rw [if_pos hh]
          refine ⟨h, ?_⟩
          have h1 : (a f).hostData = c f := by rw [← (hr f).1, valid, if_pos hh.1]
          have h2 : (b f).hostData = d f := by rw [← (hr' f).1, valid, if_pos hh.2]
          simp only [h1, h2]
        · rw [if_neg hh]
          obtain ⟨p1, p2⟩ := holds_syncField hr f
          obtain ⟨q1, q2⟩ := holds_syncField hr' f
          exact ⟨(h.set_left i e2 p1).set_left j e4 q1, by simp only [p2, q2]⟩

theorem runAll_holds {gpu : Bool} : ∀ (ops : List (DualOp V)) {s : List (DualRays V)} {cs : List (Contents V)}, StoreHolds gpu s cs →
    (∀ op ∈ ops, Harmless gpu op) → DualOp.runAll gpu s ops = plainAll cs ops
  | [], _, _, _, _ => rfl
  | op :: ops, s, cs, h, hop => by
    obtain ⟨a, b⟩ := step_holds h op (hop op (List.mem_cons_self ..))
    simp only [DualOp.runAll, plainAll]
    rw [b, runAll_holds ops a (fun o ho => hop o (List.mem_cons_of_mem _ ho))]

theorem fresh_holds (gpu : Bool) : ∀ cs : List (Contents V × Contents V), StoreHolds gpu (fresh cs) (cs.map Prod.fst)
  | [] => .nil
  | p :: cs => .cons (fun f => ⟨rfl, fun _ => rfl⟩) (fresh_holds gpu cs)

/-! ## C64 -/

/-- **C64** (build without a device): every history of accesses, assignments, kernels, copies and splits sees exactly what plain
arrays would show. -/
theorem C64_host_build (cs : List (Contents V × Contents V)) (ops : List (DualOp V)) :
    DualOp.runAll false (fresh cs) ops = plainAll (cs.map Prod.fst) ops :=
  runAll_holds ops (fresh_holds false cs) (fun _ _ h => by cases h)

/-- **C64, part**: with a device the same holds for every history that does not assign to `rv.wavelength` and in which every split
writes all of the reflected rays.  Missing: those two cases, in which the claim is false (below). -/
theorem C64_device_partial (cs : List (Contents V × Contents V)) (ops : List (DualOp V)) (hw : ∀ op ∈ ops, WavelengthKept op)
    (hs : ∀ op ∈ ops, SplitComplete op) : DualOp.runAll true (fresh cs) ops = plainAll (cs.map Prod.fst) ops :=
  runAll_holds ops (fresh_holds true cs) (fun op ho _ => ⟨hw op ho, hs op ho⟩)

/-- **C64**: a split in which every ray meets the surface is complete, when the new wavelengths are the old ones (as in the code). -/
theorem C64_split_all_hit (yes : V) (hit wasFailed : ℕ → Bool) (new : Contents V → Contents V) (hh : ∀ i, hit i = true)
    (hnew : ∀ inc, new inc .wavelength = inc .wavelength) (i : ℕ) (body : Contents V → Contents V) (junk : Contents V) :
    SplitComplete (.rSplit i body (splitLoop yes hit wasFailed new) junk) := by
  constructor
  · intro inc o o'
    funext f
    simp [splitLoop, hh]
  · intro inc o
    simp only [splitLoop, hh, if_true, hnew]
    apply List.ext_getElem
    · simp
    · intro k h1 h2
      simp [h2]

/-- Contents that are zero everywhere. -/
def oneRay (v : ℕ) : Contents ℕ := fun _ => [v]

/-- **C64 violated**: on a device, an assignment to `rv.wavelength` after a refraction is never seen by the next one: the accessor does
not synchronise, so the array on the device stays as it was. -/
theorem C64_wavelength_violated :
    let ops : List (DualOp ℕ) := [.kernel 0 (.refract false) id, .write 0 .wavelength (fun _ => [7]), .kernel 0 (.refract false) id]
    DualOp.runAll true (fresh [(oneRay 5, oneRay 0)]) ops ≠ plainAll [oneRay 5] ops := by
  intro ops h
  have := congrArg (fun l => l[2]?.map fun o => o.map fun c => c .wavelength) h
  simp [ops, DualOp.runAll, plainAll, DualOp.step, plainStep, fresh, DualRays.run, DualRays.seen, DualRays.restrict, DualRays.accessed,
    Kernel.synced, Kernel.reads, Kernel.writes, Kernel.phaseSpace, visible, oneRay, DualView.make, DualView.syncToDevice, DualView.inKernel] at this

/-- **C64 violated**: on a device, the reflected half of a split has no defined flag for a ray that had failed before: the arrays are
declared current on the device without having been copied there, and the loop skips the ray.  Here it shows up as not failed
(0) where the original says failed (1). -/
theorem C64_split_violated :
    let ops : List (DualOp ℕ) := [.rSplit 0 id (splitLoop 1 (fun _ => false) (fun _ => true) id) (oneRay 0), .read 1 .failed]
    DualOp.runAll true (fresh [(oneRay 1, oneRay 0)]) ops ≠ plainAll [oneRay 1] ops := by
  intro ops h
  have := congrArg (fun l => l[1]?.map fun o => o.map fun c => c .failed) h
  simp [ops, DualOp.runAll, plainAll, DualOp.step, plainStep, fresh, DualRays.run, DualRays.seen, DualRays.restrict, DualRays.accessed,
    DualRays.syncAllToHost, DualOp.copyOf, splitLoop, DualView.setInKernel, DualView.syncToHost,
    Kernel.synced, Kernel.reads, Kernel.writes, Kernel.phaseSpace, visible, oneRay, DualView.make, DualView.syncToDevice, DualView.inKernel] at this

/-- A history the partial theorem covers: trace, look, edit, split with every ray hitting, look at both. -/
example : ∀ op ∈ ([.kernel 0 (.intersect true) id, .read 0 .x, .write 0 .flux (fun l => l.map (· + 1)),
    .rSplit 0 id (splitLoop 1 (fun _ => true) (fun _ => false) id) (oneRay 0), .read 1 .wavelength, .copy 1 id (oneRay 3)] : List (DualOp ℕ)),
    WavelengthKept op ∧ SplitComplete op := by
  intro op h
  simp only [List.mem_cons, List.not_mem_nil, or_false] at h
  rcases h with rfl | rfl | rfl | rfl | rfl | rfl
  · exact ⟨trivial, trivial⟩
  · exact ⟨trivial, trivial⟩
  · exact ⟨by simp [WavelengthKept], trivial⟩
  · exact ⟨trivial, C64_split_all_hit _ _ _ _ (fun _ => rfl) (fun _ => rfl) _ _ _⟩
  · exact ⟨trivial, trivial⟩
  · exact ⟨trivial, trivial⟩

end Batoid.Props
