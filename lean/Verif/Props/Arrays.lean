import Verif.Arrays
import Verif.Props.Launch

/-!
# Constructors and the arrays of the caller (C46)

A caller has a memory `m` with some arrays and calls a constructor.  `SameBelow m m'` says that all these arrays have the
contents they had.  The theorems range over every later history of in-place operations on the new ray vector.
-/

namespace Batoid.Props
open Batoid Batoid.Arrays Batoid.Construct

section
variable {F : Type}

/-! ## Specification -/

/-- Every array that exists in `m` has the same contents in `m'`. -/
structure SameBelow (m m' : Mem F) : Prop where
  floats : ∀ a < m.floats.length, m'.float a = m.float a
  bools : ∀ a < m.bools.length, m'.bool a = m.bool a
  more : m.floats.length ≤ m'.floats.length
  moreB : m.bools.length ≤ m'.bools.length

/-- None of the arrays of the ray vector exists in `m`. -/
structure Owns (m : Mem F) (o : Obj F) : Prop where
  floats : ∀ a ∈ [o.x, o.y, o.z, o.vx, o.vy, o.vz, o.t, o.wavelength, o.flux], m.floats.length ≤ a
  bools : ∀ a ∈ [o.vignetted, o.failed], m.bools.length ≤ a

/-! ## Memory -/

@[simp] theorem putF_length (m : Mem F) (a : Addr) (l : List F) : (m.putF a l).floats.length = m.floats.length := by
  simp [Mem.putF]
@[simp] theorem putF_bools (m : Mem F) (a : Addr) (l : List F) : (m.putF a l).bools = m.bools := rfl
@[simp] theorem putB_floats (m : Mem F) (a : Addr) (l : List Bool) : (m.putB a l).floats = m.floats := rfl
@[simp] theorem putB_length (m : Mem F) (a : Addr) (l : List Bool) : (m.putB a l).bools.length = m.bools.length := by
  simp [Mem.putB]
@[simp] theorem newF_length (m : Mem F) (l : List F) : (m.newF l).floats.length = m.floats.length + 1 := by simp [Mem.newF]
@[simp] theorem newF_bools (m : Mem F) (l : List F) : (m.newF l).bools = m.bools := rfl

theorem float_put (m : Mem F) {a : Addr} (h : a < m.floats.length) (l : List F) (b : Addr) :
    (m.putF a l).float b = if a = b then l else m.float b := by
  unfold Mem.float Mem.putF
  simp only [List.getD_eq_getElem?_getD, List.getElem?_set]
  split
  · simp [h]
  · rfl

theorem float_put_ne (m : Mem F) {a b : Addr} (h : a ≠ b) (l : List F) : (m.putF a l).float b = m.float b := by
  unfold Mem.float Mem.putF
  simp [List.getD_eq_getElem?_getD, List.getElem?_set, h]

theorem float_put_same (m : Mem F) {a : Addr} (h : a < m.floats.length) (l : List F) : (m.putF a l).float a = l := by
  rw [float_put m h, if_pos rfl]

@[simp] theorem float_putB (m : Mem F) (a : Addr) (l : List Bool) (b : Addr) : (m.putB a l).float b = m.float b := rfl
@[simp] theorem bool_putF (m : Mem F) (a : Addr) (l : List F) (b : Addr) : (m.putF a l).bool b = m.bool b := rfl
@[simp] theorem bool_newF (m : Mem F) (l : List F) (b : Addr) : (m.newF l).bool b = m.bool b := rfl

theorem bool_put_ne (m : Mem F) {a b : Addr} (h : a ≠ b) (l : List Bool) : (m.putB a l).bool b = m.bool b := by
  unfold Mem.bool Mem.putB
  simp [List.getD_eq_getElem?_getD, List.getElem?_set, h]

theorem float_new_lt (m : Mem F) (l : List F) {b : Addr} (h : b < m.floats.length) : (m.newF l).float b = m.float b := by
  unfold Mem.float Mem.newF
  simp [List.getD_eq_getElem?_getD, List.getElem?_append, h]

theorem float_new_same (m : Mem F) (l : List F) : (m.newF l).float m.floats.length = l := by
  simp [Mem.float, Mem.newF, List.getD_eq_getElem?_getD]

theorem SameBelow.refl (m : Mem F) : SameBelow m m := ⟨fun _ _ => rfl, fun _ _ => rfl, le_rfl, le_rfl⟩

theorem SameBelow.trans {m m' m'' : Mem F} (h : SameBelow m m') (h' : SameBelow m' m'') : SameBelow m m'' :=
  ⟨fun a ha => (h'.floats a (lt_of_lt_of_le ha h.more)).trans (h.floats a ha),
   fun a ha => (h'.bools a (lt_of_lt_of_le ha h.moreB)).trans (h.bools a ha), h.more.trans h'.more, h.moreB.trans h'.moreB⟩

theorem same_new (m : Mem F) (l : List F) : SameBelow m (m.newF l) :=
  ⟨fun _ ha => float_new_lt m l ha, fun _ _ => rfl, by simp, by simp⟩

theorem same_put {m m' : Mem F} (h : SameBelow m m') {a : Addr} (ha : m.floats.length ≤ a) (l : List F) : SameBelow m (m'.putF a l) :=
  ⟨fun b hb => (float_put_ne m' (lt_of_lt_of_le hb ha).ne' l).trans (h.floats b hb), h.bools, by simpa using h.more, by simpa using h.moreB⟩

theorem same_putB {m m' : Mem F} (h : SameBelow m m') {a : Addr} (ha : m.bools.length ≤ a) (l : List Bool) : SameBelow m (m'.putB a l) :=
  ⟨h.floats, fun b hb => (bool_put_ne m' (lt_of_lt_of_le hb ha).ne' l).trans (h.bools b hb), by simpa using h.more, by simpa using h.moreB⟩

theorem same_append (m : Mem F) (l : List (List F)) (k : List (List Bool)) : SameBelow m ⟨m.floats ++ l, m.bools ++ k⟩ :=
  ⟨fun a ha => by simp [Mem.float, List.getD_eq_getElem?_getD, List.getElem?_append, ha],
   fun a ha => by simp [Mem.bool, List.getD_eq_getElem?_getD, List.getElem?_append, ha], by simp, by simp⟩

variable [Arith F]

theorem same_map {m m' : Mem F} (h : SameBelow m m') {ax ay az : Addr} (hx : m.floats.length ≤ ax) (hy : m.floats.length ≤ ay)
    (hz : m.floats.length ≤ az) (f : V3 F → V3 F) : SameBelow m (mapXYZ ax ay az f m') := by
  unfold mapXYZ
  exact same_put (same_put (same_put h hx _) hy _) hz _

@[simp] theorem map_length (ax ay az : Addr) (f : V3 F → V3 F) (m : Mem F) :
    (mapXYZ ax ay az f m).floats.length = m.floats.length := by simp [mapXYZ]
@[simp] theorem map_bools (ax ay az : Addr) (f : V3 F → V3 F) (m : Mem F) : (mapXYZ ax ay az f m).bools = m.bools := rfl

/-- An operation writes only into the arrays of its ray vector. -/
theorem same_run {m m' : Mem F} {o : Obj F} (h : SameBelow m m') (ho : Owns m o) (op : RayOp F) :
    SameBelow m (Obj.run (m', o) op).1 ∧ Owns m (Obj.run (m', o) op).2 := by
  constructor
  · have hf := ho.floats
    have hb := ho.bools
    simp only [List.mem_cons, List.not_mem_nil, or_false, forall_eq_or_imp, forall_eq] at hf hb
    obtain ⟨h1, h2, h3, h4, h5, h6, h7, h8, h9⟩ := hf
    unfold Obj.run Obj.store
    exact same_putB (same_putB (same_put (same_put (same_put (same_put (same_put (same_put (same_put (same_put (same_put h
      h1 _) h2 _) h3 _) h4 _) h5 _) h6 _) h7 _) h8 _) h9 _) hb.1 _) hb.2 _
  · exact ⟨ho.floats, ho.bools⟩

theorem same_runAll {m : Mem F} : ∀ (ops : List (RayOp F)) (m' : Mem F) (o : Obj F), SameBelow m m' → Owns m o →
    SameBelow m (Obj.runAll (m', o) ops).1
  | [], _, _, h, _ => h
  | op :: ops, m', o, h, ho => by
    obtain ⟨h1, h2⟩ := same_run h ho op
    exact same_runAll ops _ _ h1 h2

/-! ## `RayVector(...)` -/

/-- C46: `RayVector(...)` leaves all arrays of its caller as they are, and so does every later history of operations on the new
ray vector: whatever arrays were passed, also the same array several times. -/
theorem C46_init (a : InitArgs F) (m m' : Mem F) (o : Obj F) (h : init a m = .ok (m', o)) (ops : List (RayOp F)) :
    SameBelow m (Obj.runAll (m', o) ops).1 := by
  unfold init at h
  cases hs : shape (a.numbers.map (fun g => (g.values m.float).length) ++
    [(a.vignetted.values m.bool).length, (a.failed.values m.bool).length]) with
  | error e => rw [hs] at h; cases h
  | ok n =>
    rw [hs] at h
    simp only [bind, Except.bind, Except.ok.injEq, Prod.mk.injEq] at h
    obtain ⟨rfl, rfl⟩ := h
    refine same_runAll ops _ _ (same_append m _ _) ⟨?_, ?_⟩
    · simp
    · simp

/-- The values of an argument, for all rays. -/
def Fills {A : Type} (read : Addr → List A) (g : Arg A) (n : ℕ) (l : List A) : Prop :=
  l.length = n ∧ (g.values read = l ∨ ∃ x, g.values read = [x] ∧ ∀ y ∈ l, y = x)

theorem stretch_fills {A : Type} {read : Addr → List A} {g : Arg A} {n : ℕ}
    (h : (g.values read).length = 1 ∨ (g.values read).length = n) : Fills read g n (stretch n (g.values read)) := by
  unfold Fills
  rcases e : g.values read with _ | ⟨x, _ | ⟨y, l⟩⟩
  · rw [e] at h; simp [stretch] at h ⊢; omega
  · exact ⟨by simp [stretch], Or.inr ⟨x, rfl, by simp [stretch]⟩⟩
  · rw [e] at h; simp [stretch] at h ⊢; omega

theorem shape_fits {lens : List ℕ} {n : ℕ} (h : shape lens = .ok n) : ∀ k ∈ lens, k = 1 ∨ k = n := by
  intro k hk
  by_cases h1 : k = 1
  · exact Or.inl h1
  · right
    have hm : k ∈ lens.filter (· ≠ 1) := by simp [hk, h1]
    unfold shape at h
    cases hf : lens.filter (· ≠ 1) with
    | nil => rw [hf] at hm; cases hm
    | cons j js =>
      rw [hf] at h hm
      simp only at h
      split at h
      · rename_i hall
        cases h
        rcases List.mem_cons.mp hm with rfl | hm
        · rfl
        · simpa using List.all_eq_true.mp hall k hm
      · cases h

/-- C46: the new ray vector holds the values that were passed, numbers being repeated for all rays. -/
theorem C46_init_values (a : InitArgs F) (m m' : Mem F) (o : Obj F) (h : init a m = .ok (m', o)) :
    o.coordSys = a.coordSys ∧ ∃ n, (o.rays m').length = n ∧
      Fills m.float a.x n ((o.rays m').map (·.r.x)) ∧ Fills m.float a.y n ((o.rays m').map (·.r.y)) ∧
      Fills m.float a.z n ((o.rays m').map (·.r.z)) ∧ Fills m.float a.vx n ((o.rays m').map (·.v.x)) ∧
      Fills m.float a.vy n ((o.rays m').map (·.v.y)) ∧ Fills m.float a.vz n ((o.rays m').map (·.v.z)) ∧
      Fills m.float a.t n ((o.rays m').map (·.t)) ∧ Fills m.float a.wavelength n ((o.rays m').map (·.wavelength)) ∧
      Fills m.float a.flux n ((o.rays m').map (·.flux)) ∧ Fills m.bool a.vignetted n ((o.rays m').map (·.vignetted)) ∧
      Fills m.bool a.failed n ((o.rays m').map (·.failed)) := by
  unfold init at h
  cases hs : shape (a.numbers.map (fun g => (g.values m.float).length) ++
    [(a.vignetted.values m.bool).length, (a.failed.values m.bool).length]) with
  | error e => rw [hs] at h; cases h
  | ok n =>
    have hfit := shape_fits hs
    rw [hs] at h
    simp only [bind, Except.bind, Except.ok.injEq, Prod.mk.injEq] at h
    obtain ⟨rfl, rfl⟩ := h
    simp only [InitArgs.numbers, List.map_cons, List.map_nil, List.cons_append, List.nil_append, List.mem_cons, List.not_mem_nil, or_false,
      forall_eq_or_imp, forall_eq] at hfit
    obtain ⟨h1, h2, h3, h4, h5, h6, h7, h8, h9, h10, h11⟩ := hfit
    have f1 := stretch_fills h1
    have f2 := stretch_fills h2
    have f3 := stretch_fills h3
    have f4 := stretch_fills h4
    have f5 := stretch_fills h5
    have f6 := stretch_fills h6
    have f7 := stretch_fills h7
    have f8 := stretch_fills h8
    have f9 := stretch_fills h9
    have f10 := stretch_fills h10
    have f11 := stretch_fills h11
    have tab : ∀ {A : Type} (l : List A) (d : A), l.length = n → (List.range n).map (fun i => l.getD i d) = l := by
      intro A l d hl
      apply List.ext_getElem
      · simp [hl]
      · intro i h1 h2
        simp [List.getD_eq_getElem?_getD, h2]
    have hn := f1.1
    refine ⟨rfl, n, ?_, ?_⟩
    · simp [Obj.rays, Mem.float, InitArgs.numbers, List.getD_eq_getElem?_getD, hn]
    · have w : ∀ {A : Type} (l : List A) (d : A), l.length = n → (List.range n).map (fun i => l[i]?.getD d) = l := by
        intro A l d hl
        rw [← tab l d hl]
        simp only [List.getD_eq_getElem?_getD]
        rw [List.map_inj_left]
        intro i hi
        rw [List.mem_range] at hi
        simp [hi]
      refine ⟨?_, ?_, ?_, ?_, ?_, ?_, ?_, ?_, ?_, ?_, ?_⟩ <;>
      · simp only [Obj.rays, Mem.float, Mem.bool, InitArgs.numbers, List.getD_eq_getElem?_getD, List.map_map, Function.comp_def, List.map_cons,
          List.map_nil, List.getElem?_append_right, le_refl, Nat.sub_self, List.getElem?_cons_zero, Option.getD_some,
          Nat.le_add_right, Nat.add_sub_cancel_left, List.getElem?_cons_succ] at *
        rw [hn]
        first
          | rw [w _ _ f1.1]; exact f1
          | rw [w _ _ f2.1]; exact f2
          | rw [w _ _ f3.1]; exact f3
          | rw [w _ _ f4.1]; exact f4
          | rw [w _ _ f5.1]; exact f5
          | rw [w _ _ f6.1]; exact f6
          | rw [w _ _ f7.1]; exact f7
          | rw [w _ _ f8.1]; exact f8
          | rw [w _ _ f9.1]; exact f9
          | rw [w _ _ f10.1]; exact f10
          | rw [w _ _ f11.1]; exact f11

/-! ## The class methods -/

/-- The array passed as `flux`, if it is one, does not exist in `m`. -/
def FluxOwn (m : Mem F) (flux : FluxArg F) : Prop := ∀ a, flux = .array a → m.floats.length ≤ a

/-- The memory and the ray vector after a constructor and any history of operations. -/
def Untouched (m : Mem F) (r : Mem F × Option (Obj F)) : Prop :=
  SameBelow m r.1 ∧ ∀ o, r.2 = some o → ∀ ops : List (RayOp F), SameBelow m (Obj.runAll (r.1, o) ops).1

theorem flux_same {m m' : Mem F} (h : SameBelow m m') {flux : FluxArg F} (hf : FluxOwn m flux) (n : ℕ) :
    SameBelow m (fluxArray flux n m').1 ∧ m.floats.length ≤ (fluxArray flux n m').2 := by
  cases flux with
  | num f => exact ⟨h.trans (same_new _ _), h.more⟩
  | list l => exact ⟨h.trans (same_new _ _), h.more⟩
  | array a => exact ⟨h, hf a rfl⟩

theorem launch_same {m m1 : Mem F} (h : SameBelow m m1) (s : Setup F) {ax ay : Addr} (hx : m.floats.length ≤ ax)
    (hy : m.floats.length ≤ ay) {flux : FluxArg F} (hf : FluxOwn m flux) {r : Mem F × Option (Obj F)}
    (hr : Arrays.launch s ax ay flux m1 = .ok r) : Untouched m r := by
  unfold Arrays.launch at hr
  simp only at hr
  have h2 := (same_map (h.trans (same_new m1 (List.zipWith s.stop.surface.sag (m1.float ax) (m1.float ay)))) hx hy h.more
    (CoordTransform.make s.stop.coordSys s.coordSys).forward).trans (same_new _ (List.replicate (m1.float ax).length s.wavelength))
  obtain ⟨h3, hfl⟩ := flux_same h2 hf (m1.float ax).length
  have hw : m.floats.length ≤ (mapXYZ ax ay m1.floats.length (CoordTransform.make s.stop.coordSys s.coordSys).forward
      (m1.newF (List.zipWith s.stop.surface.sag (m1.float ax) (m1.float ay)))).floats.length := by
    have := h.more
    simp; omega
  split at hr
  · cases hr
    exact ⟨h3, by simp⟩
  · cases hr
  · rename_i d _ _
    cases hr
    have h4 := h3.trans (same_new _ [d.x, d.y, d.z])
    have h5 := same_map (same_put h4 h3.more [(velocity d (s.medium.getN s.wavelength)).x, (velocity d (s.medium.getN s.wavelength)).y,
      (velocity d (s.medium.getN s.wavelength)).z]) hx hy h.more (finishParallel (launchFrame (velocity d (s.medium.getN s.wavelength))
        (s.medium.getN s.wavelength) s.backDist) (velocity d (s.medium.getN s.wavelength)))
    have h6 := h5.trans (same_append _ [List.replicate (m1.float ax).length (velocity d (s.medium.getN s.wavelength)).x,
      List.replicate (m1.float ax).length (velocity d (s.medium.getN s.wavelength)).y,
      List.replicate (m1.float ax).length (velocity d (s.medium.getN s.wavelength)).z, List.replicate (m1.float ax).length 0]
      [List.replicate (m1.float ax).length false, List.replicate (m1.float ax).length false])
    refine ⟨h6, ?_⟩
    rintro o ⟨⟩ ops
    have hm := h5.more
    have hb := h5.moreB
    have hz := h.more
    refine same_runAll ops _ _ h6 ⟨?_, ?_⟩
    · simp only [List.mem_cons, List.not_mem_nil, or_false, forall_eq_or_imp, forall_eq]
      exact ⟨hx, hy, hz, hm, hm.trans (Nat.le_add_right _ _), hm.trans (Nat.le_add_right _ _), hm.trans (Nat.le_add_right _ _), hw, hfl⟩
    · simp only [List.mem_cons, List.not_mem_nil, or_false, forall_eq_or_imp, forall_eq]
      exact ⟨hb, hb.trans (Nat.le_add_right _ _)⟩

theorem fresh_same (m : Mem F) (s : Setup F) (pts : List (F × F)) {flux : FluxArg F} (hf : FluxOwn m flux)
    {r : Mem F × Option (Obj F)} (hr : launchFresh s pts flux m = .ok r) : Untouched m r :=
  launch_same ((same_new m _).trans (same_new _ _)) s le_rfl (Nat.le_succ _) hf hr

/-- C46: `asGrid` leaves all arrays of the caller as they are, and so does every later history.  The array `dirCos` may be any
array.  *Missing*: an array passed as `flux` is not copied, see `C46_flux_violated`. -/
theorem C46_asGrid_partial (a : Args F) (dir : Option Addr) (g : GridArgs F) (draws : Option (List (F × F))) (flux : FluxArg F) (m : Mem F)
    (hf : ∀ b, flux ≠ .array b) (r : Mem F × Option (Obj F)) (h : Arrays.asGrid a dir g draws flux m = .ok r) : Untouched m r := by
  unfold Arrays.asGrid at h
  simp only [bind, Except.bind] at h
  split at h
  · cases h
  split at h
  · cases h
  split at h
  · cases h
  split at h
  · cases h
  exact fresh_same m _ _ (fun b hb => absurd hb (hf b)) h

/-- C46: the same for `asPolar`. -/
theorem C46_asPolar_partial (junk : ℕ → F) (a : Args F) (dir : Option Addr) (outer inner : Option F) (nrad naz : Option ℤ) (kfold : ℤ)
    (flux : FluxArg F) (m : Mem F) (hf : ∀ b, flux ≠ .array b) (r : Mem F × Option (Obj F))
    (h : Arrays.asPolar junk a dir outer inner nrad naz kfold flux m = .ok r) : Untouched m r := by
  unfold Arrays.asPolar at h
  simp only [bind, Except.bind] at h
  split at h
  · cases h
  split at h
  · cases h
  split at h
  · cases h
  split at h
  · split at h
    · cases h
    exact fresh_same m _ _ (fun b hb => absurd hb (hf b)) h
  · cases h

theorem asFloat_same (m : Mem F) (x : Arg F) (hx : ∀ b, x ≠ .array b) : SameBelow m (asFloat x m).1 ∧ m.floats.length ≤ (asFloat x m).2 := by
  cases x with
  | num v => exact ⟨same_new m _, le_rfl⟩
  | list l => exact ⟨same_new m _, le_rfl⟩
  | array a => exact absurd rfl (hx a)

/-- C46: the same for `fromStop` when `x` and `y` are numbers, lists or arrays of another type.  *Missing*: arrays of doubles,
see `C46_fromStop_modified_violated`. -/
theorem C46_fromStop_partial (a : Args F) (dir : Option Addr) (x y : Arg F) (flux : FluxArg F) (m : Mem F) (hx : ∀ b, x ≠ .array b)
    (hy : ∀ b, y ≠ .array b) (hf : ∀ b, flux ≠ .array b) (r : Mem F × Option (Obj F))
    (h : Arrays.fromStop a dir x y flux m = .ok r) : Untouched m r := by
  unfold Arrays.fromStop at h
  simp only [bind, Except.bind] at h
  split at h
  · cases h
  obtain ⟨h1, h2⟩ := asFloat_same m x hx
  obtain ⟨h3, h4⟩ := asFloat_same (asFloat x m).1 y hy
  exact launch_same (h1.trans h3) _ h2 (h1.more.trans h4) (fun b hb => absurd hb (hf b)) h

/-! ### What is shared -/

theorem runAll_arrays (ops : List (RayOp F)) (m : Mem F) (o : Obj F) :
    (Obj.runAll (m, o) ops).2.x = o.x ∧ (Obj.runAll (m, o) ops).2.y = o.y ∧ (Obj.runAll (m, o) ops).2.flux = o.flux := by
  induction ops generalizing m o with
  | nil => exact ⟨rfl, rfl, rfl⟩
  | cons op ops ih => exact ih _ _

theorem reads_x (m : Mem F) (o : Obj F) : (o.rays m).map (·.r.x) = m.float o.x := by
  apply List.ext_getElem
  · simp [Obj.rays]
  · intro i h1 h2
    simp [Obj.rays, List.getD_eq_getElem?_getD, h2]

/-- C46 is violated by `fromStop`, by every call that gets `x` as an array of doubles: from then on that array of the caller is
the array of the ray vector.  After every history it holds the positions of the rays at that time. -/
theorem C46_fromStop_shared_violated (a : Args F) (dir : Option Addr) (ax : Addr) (y : Arg F) (flux : FluxArg F) (m m' : Mem F) (o : Obj F)
    (h : Arrays.fromStop a dir (.array ax) y flux m = .ok (m', some o)) (ops : List (RayOp F)) :
    (Obj.runAll (m', o) ops).1.float ax = ((Obj.runAll (m', o) ops).2.rays (Obj.runAll (m', o) ops).1).map (·.r.x) := by
  have hx : o.x = ax := by
    unfold Arrays.fromStop at h
    simp only [bind, Except.bind] at h
    split at h
    · cases h
    unfold Arrays.launch at h
    simp only at h
    split at h
    · cases h
    · cases h
    · cases h; rfl
  rw [reads_x, (runAll_arrays ops m' o).1, hx]

/-- C46 is violated for `flux` by all class methods: an array passed as `flux` becomes the array of the ray vector. -/
theorem C46_flux_violated (a : Args F) (dir : Option Addr) (g : GridArgs F) (draws : Option (List (F × F))) (af : Addr) (m m' : Mem F)
    (o : Obj F) (h : Arrays.asGrid a dir g draws (.array af) m = .ok (m', some o)) (ops : List (RayOp F)) :
    (Obj.runAll (m', o) ops).2.flux = af := by
  have hx : o.flux = af := by
    unfold Arrays.asGrid at h
    simp only [bind, Except.bind] at h
    split at h
    · cases h
    split at h
    · cases h
    split at h
    · cases h
    split at h
    · cases h
    unfold launchFresh Arrays.launch at h
    simp only at h
    split at h
    · cases h
    · cases h
    · cases h; rfl
  rw [(runAll_arrays ops m' o).2.2, hx]

/-! ### Refinement: the ray vector has the value that `Verif.Construct` computes -/

theorem tab {A : Type} (l : List A) (d : A) (n : ℕ) (hl : l.length = n) : (List.range n).map (fun i => l.getD i d) = l := by
  apply List.ext_getElem
  · simp [hl]
  · intro i h1 h2
    simp [List.getD_eq_getElem?_getD, h2]

/-- The three arrays hold the points `l`. -/
structure HoldsPts (m : Mem F) (ax ay az : Addr) (l : List (V3 F)) : Prop where
  x : m.float ax = l.map (·.x)
  y : m.float ay = l.map (·.y)
  z : m.float az = l.map (·.z)

/-- Three different existing arrays. -/
structure Apart (m : Mem F) (ax ay az : Addr) : Prop where
  xy : ax ≠ ay
  xz : ax ≠ az
  yz : ay ≠ az
  x : ax < m.floats.length
  y : ay < m.floats.length
  z : az < m.floats.length

theorem map_holds {m : Mem F} {ax ay az : Addr} {l : List (V3 F)} (hd : Apart m ax ay az) (h : HoldsPts m ax ay az l) (f : V3 F → V3 F) :
    HoldsPts (mapXYZ ax ay az f m) ax ay az (l.map f) ∧ ∀ b, b ≠ ax → b ≠ ay → b ≠ az → (mapXYZ ax ay az f m).float b = m.float b := by
  have hnew : (List.zip (m.float ax) (List.zip (m.float ay) (m.float az))).map (fun p => f ⟨p.1, p.2.1, p.2.2⟩) = l.map f := by
    rw [h.x, h.y, h.z]
    apply List.ext_getElem
    · simp
    · intro i h1 h2; simp
  unfold mapXYZ
  rw [hnew]
  refine ⟨⟨?_, ?_, ?_⟩, ?_⟩
  · rw [float_put_ne _ hd.xz.symm, float_put_ne _ hd.xy.symm, float_put_same _ hd.x]
  · rw [float_put_ne _ hd.yz.symm, float_put_same _ (by simpa using hd.y)]
  · rw [float_put_same _ (by simpa using hd.z)]
  · intro b h1 h2 h3
    rw [float_put_ne _ h3.symm, float_put_ne _ h2.symm, float_put_ne _ h1.symm]

theorem HoldsPts.newF {m : Mem F} {ax ay az : Addr} {l : List (V3 F)} (hd : Apart m ax ay az) (h : HoldsPts m ax ay az l) (k : List F) :
    HoldsPts (m.newF k) ax ay az l :=
  ⟨(float_new_lt m k hd.x).trans h.x, (float_new_lt m k hd.y).trans h.y, (float_new_lt m k hd.z).trans h.z⟩

theorem Apart.grow {m m' : Mem F} {ax ay az : Addr} (hd : Apart m ax ay az) (h : m.floats.length ≤ m'.floats.length) : Apart m' ax ay az :=
  ⟨hd.xy, hd.xz, hd.yz, hd.x.trans_le h, hd.y.trans_le h, hd.z.trans_le h⟩

/-- The flux of the rays. -/
def FluxIs (m : Mem F) (ax ay : Addr) (n : ℕ) (flux : FluxArg F) (fl : List F) : Prop :=
  fl.length = n ∧ match flux with
    | .num f => fl = List.replicate n f
    | .list l => fl = l
    | .array a => a < m.floats.length ∧ a ≠ ax ∧ a ≠ ay ∧ m.float a = fl

/-- The values of a ray vector, column by column. -/
theorem rays_of_columns (m : Mem F) (o : Obj F) (l : List (V3 F)) (v : V3 F) (w : F) (fl : List F) (n : ℕ) (hn : l.length = n)
    (hfl : fl.length = n) (hp : HoldsPts m o.x o.y o.z l) (hvx : m.float o.vx = List.replicate n v.x) (hvy : m.float o.vy = List.replicate n v.y)
    (hvz : m.float o.vz = List.replicate n v.z) (ht : m.float o.t = List.replicate n 0) (hw : m.float o.wavelength = List.replicate n w)
    (hf : m.float o.flux = fl) (hvig : m.bool o.vignetted = List.replicate n false) (hfail : m.bool o.failed = List.replicate n false) :
    o.rays m = List.zipWith (fun r f => ⟨r, v, 0, w, f, false, false⟩) l fl := by
  unfold Obj.rays
  rw [hp.x, hp.y, hp.z, hvx, hvy, hvz, ht, hw, hf, hvig, hfail]
  apply List.ext_getElem
  · simp [hn, hfl]
  · intro i h1 h2
    have hi : i < l.length := by simpa using h1
    have hi' : i < n := hn ▸ hi
    have hi'' : i < fl.length := hfl ▸ hi'
    simp [List.getD_eq_getElem?_getD, hi, hi', hi'', List.getElem?_replicate]

theorem float_append (m : Mem F) (l : List (List F)) (k : List (List Bool)) (i : ℕ) :
    (⟨m.floats ++ l, m.bools ++ k⟩ : Mem F).float (m.floats.length + i) = l.getD i [] := by
  rw [Mem.float, List.getD_eq_getElem?_getD, List.getElem?_append_right (Nat.le_add_right _ _), Nat.add_sub_cancel_left,
    List.getD_eq_getElem?_getD]

theorem bool_append (m : Mem F) (l : List (List F)) (k : List (List Bool)) (i : ℕ) :
    (⟨m.floats ++ l, m.bools ++ k⟩ : Mem F).bool (m.bools.length + i) = k.getD i [] := by
  rw [Mem.bool, List.getD_eq_getElem?_getD, List.getElem?_append_right (Nat.le_add_right _ _), Nat.add_sub_cancel_left,
    List.getD_eq_getElem?_getD]

/-- With points in two different arrays, the constructor with arrays computes what the constructor with values computes. -/
theorem launch_refines (s : Setup F) {ax ay : Addr} {flux : FluxArg F} {m : Mem F} {pts : List (F × F)} {fl : List F} (hne : ax ≠ ay)
    (hx : ax < m.floats.length) (hy : ay < m.floats.length) (ex : m.float ax = pts.map Prod.fst) (ey : m.float ay = pts.map Prod.snd)
    (hf : FluxIs m ax ay pts.length flux fl) :
    (Arrays.launch s ax ay flux m).map (fun r => r.2.map fun o => o.value r.1) = Construct.launch s pts fl := by
  have hlen : (m.float ax).length = pts.length := by rw [ex]; simp
  unfold Arrays.launch Construct.launch finish
  simp only [hlen]
  -- the memory after the transform
  have d0 : Apart (m.newF (List.zipWith s.stop.surface.sag (m.float ax) (m.float ay))) ax ay m.floats.length :=
    ⟨hne, hx.ne, hy.ne, by simp; exact hx.le, by simp; exact hy.le, by simp⟩
  have h0 : HoldsPts (m.newF (List.zipWith s.stop.surface.sag (m.float ax) (m.float ay))) ax ay m.floats.length
      (pts.map fun p => ⟨p.1, p.2, s.stop.surface.sag p.1 p.2⟩) := by
    refine ⟨?_, ?_, ?_⟩
    · rw [float_new_lt _ _ hx, ex]; simp [Function.comp_def]
    · rw [float_new_lt _ _ hy, ey]; simp [Function.comp_def]
    · rw [float_new_same, ex, ey]
      apply List.ext_getElem
      · simp
      · intro i h1 h2; simp
  obtain ⟨h1, o1⟩ := map_holds d0 h0 (CoordTransform.make s.stop.coordSys s.coordSys).forward
  set m1 := mapXYZ ax ay m.floats.length (CoordTransform.make s.stop.coordSys s.coordSys).forward
    (m.newF (List.zipWith s.stop.surface.sag (m.float ax) (m.float ay))) with hm1
  have len1 : m1.floats.length = m.floats.length + 1 := by rw [hm1]; simp
  have d1 : Apart m1 ax ay m.floats.length := d0.grow (by rw [len1]; simp)
  set m2 := m1.newF (List.replicate pts.length s.wavelength) with hm2
  have h2 : HoldsPts m2 ax ay m.floats.length _ := h1.newF d1 _
  have d2 : Apart m2 ax ay m.floats.length := d1.grow (by rw [hm2]; simp)
  have w2 : m2.float m1.floats.length = List.replicate pts.length s.wavelength := float_new_same _ _
  have len2 : m2.floats.length = m.floats.length + 2 := by rw [hm2]; simp [len1]
  -- the flux
  have hflux : HoldsPts (fluxArray flux pts.length m2).1 ax ay m.floats.length
        ((pts.map fun p => (⟨p.1, p.2, s.stop.surface.sag p.1 p.2⟩ : V3 F)).map (CoordTransform.make s.stop.coordSys s.coordSys).forward) ∧
      m2.floats.length ≤ (fluxArray flux pts.length m2).1.floats.length ∧
      (fluxArray flux pts.length m2).1.float m1.floats.length = List.replicate pts.length s.wavelength ∧
      (fluxArray flux pts.length m2).1.float (fluxArray flux pts.length m2).2 = fl ∧
      (fluxArray flux pts.length m2).2 < (fluxArray flux pts.length m2).1.floats.length ∧
      (fluxArray flux pts.length m2).2 ≠ ax ∧ (fluxArray flux pts.length m2).2 ≠ ay ∧
      (fluxArray flux pts.length m2).2 ≠ m.floats.length := by
    have hw : m1.floats.length < m2.floats.length := by rw [len1, len2]; exact Nat.lt_succ_self _
    have hzz : m.floats.length < m2.floats.length := by rw [len2]; omega
    cases flux with
    | num f =>
      refine ⟨h2.newF d2 _, by simp [fluxArray], (float_new_lt _ _ hw).trans w2, (float_new_same _ _).trans hf.2.symm,
        by simp [fluxArray], d2.x.ne', d2.y.ne', hzz.ne'⟩
    | list l =>
      refine ⟨h2.newF d2 _, by simp [fluxArray], (float_new_lt _ _ hw).trans w2, (float_new_same _ _).trans hf.2.symm,
        by simp [fluxArray], d2.x.ne', d2.y.ne', hzz.ne'⟩
    | array a =>
      obtain ⟨ha, hax, hay, hfl⟩ := hf.2
      refine ⟨h2, le_rfl, w2, ?_, ha.trans hzz, hax, hay, ha.ne⟩
      show m2.float a = fl
      rw [hm2, float_new_lt _ _ (by rw [len1]; exact ha.trans (Nat.lt_succ_self _)), o1 a hax hay ha.ne, float_new_lt _ _ ha, hfl]
  obtain ⟨h3, len3, w3, f3, lf3, nfx, nfy, nfz⟩ := hflux
  set m3 := (fluxArray flux pts.length m2).1
  set af := (fluxArray flux pts.length m2).2
  have d3 : Apart m3 ax ay m.floats.length := d2.grow len3
  have hw3 : m1.floats.length < m3.floats.length := by rw [len1]; rw [len2] at len3; exact len3
  rcases hs : s.source with _ | src
  · rcases hd : s.dirCos with _ | d
    · rfl
    · simp only
      set vv := velocity d (s.medium.getN s.wavelength)
      have h4 : HoldsPts ((m3.newF [d.x, d.y, d.z]).putF m3.floats.length [vv.x, vv.y, vv.z]) ax ay m.floats.length _ :=
        ⟨(float_put_ne _ d3.x.ne' _).trans (h3.newF d3 _).x, (float_put_ne _ d3.y.ne' _).trans (h3.newF d3 _).y,
         (float_put_ne _ d3.z.ne' _).trans (h3.newF d3 _).z⟩
      have d4 : Apart ((m3.newF [d.x, d.y, d.z]).putF m3.floats.length [vv.x, vv.y, vv.z]) ax ay m.floats.length := d3.grow (by simp)
      obtain ⟨h5, o5⟩ := map_holds d4 h4 (finishParallel (launchFrame vv (s.medium.getN s.wavelength) s.backDist) vv)
      set m5 := mapXYZ ax ay m.floats.length (finishParallel (launchFrame vv (s.medium.getN s.wavelength) s.backDist) vv)
        ((m3.newF [d.x, d.y, d.z]).putF m3.floats.length [vv.x, vv.y, vv.z]) with hm5
      have len5 : m5.floats.length = m3.floats.length + 1 := by rw [hm5]; simp
      have keep : ∀ b, b < m3.floats.length → b ≠ ax → b ≠ ay → b ≠ m.floats.length → m5.float b = m3.float b := by
        intro b hb n1 n2 n3
        rw [o5 b n1 n2 n3, float_put_ne _ hb.ne', float_new_lt _ _ hb]
      have same := same_append m5 [List.replicate pts.length vv.x, List.replicate pts.length vv.y, List.replicate pts.length vv.z,
        List.replicate pts.length 0] [List.replicate pts.length false, List.replicate pts.length false]
      have below : ∀ b, b < m3.floats.length → b < m5.floats.length := fun b hb => by rw [len5]; exact hb.trans (Nat.lt_succ_self _)
      simp only [Except.map, Option.map_some, Except.ok.injEq, Option.some.injEq, Obj.value, RayVec.mk.injEq, and_true]
      have hwx : m1.floats.length ≠ ax := d1.x.ne'
      have hwy : m1.floats.length ≠ ay := d1.y.ne'
      have hwz : m1.floats.length ≠ m.floats.length := by rw [len1]; exact Nat.succ_ne_self _
      rw [rays_of_columns _ _ _ vv s.wavelength fl pts.length (by simp) hf.1
        ⟨(same.floats _ (below _ d3.x)).trans h5.x, (same.floats _ (below _ d3.y)).trans h5.y, (same.floats _ (below _ d3.z)).trans h5.z⟩
        (float_append m5 _ _ 0) (float_append m5 _ _ 1) (float_append m5 _ _ 2) (float_append m5 _ _ 3)
        ((same.floats _ (below _ hw3)).trans ((keep _ hw3 hwx hwy hwz).trans w3))
        ((same.floats _ (below _ lf3)).trans ((keep _ lf3 nfx nfy nfz).trans f3))
        (bool_append m5 _ _ 0) (bool_append m5 _ _ 1)]
      rw [List.zipWith_map_left]
      simp only [List.zipWith_map_left]
  · rfl

/-- C46 (refinement of `Verif.Construct`): with the points in numbers, lists or two different arrays, `fromStop` with arrays
returns the ray vector that `Construct.fromStop` computes, or fails with the same error.  So the theorems of C43 hold for it. -/
theorem C46_fromStop_refines (a : Args F) (dir : Option Addr) (x y : Arg F) (flux : F) (m : Mem F) (pts : List (F × F))
    (hx : x.values m.float = pts.map Prod.fst) (hy : y.values m.float = pts.map Prod.snd)
    (hxa : ∀ b, x = .array b → b < m.floats.length) (hya : ∀ b, y = .array b → b < m.floats.length)
    (hne : ∀ b, x = .array b → y ≠ .array b) :
    (Arrays.fromStop a dir x y (.num flux) m).map (fun r => r.2.map fun o => o.value r.1) =
      Construct.fromStop (readDir a dir m) pts flux := by
  unfold Arrays.fromStop Construct.fromStop
  simp only [bind, Except.bind]
  rcases setup false (readDir a dir m) with e | s
  · rfl
  · simp only
    have hflux : ∀ m' : Mem F, ∀ ax ay, FluxIs m' ax ay pts.length (.num flux) (flatFlux flux pts) :=
      fun m' ax ay => ⟨by simp [flatFlux], rfl⟩
    have hxx : (asFloat x m).2 < (asFloat x m).1.floats.length ∧ (asFloat x m).1.float (asFloat x m).2 = pts.map Prod.fst ∧
        m.floats.length ≤ (asFloat x m).1.floats.length ∧ (∀ b < m.floats.length, (asFloat x m).1.float b = m.float b) ∧
        (x = .array (asFloat x m).2 ∨ m.floats.length ≤ (asFloat x m).2) := by
      cases x with
      | num v => exact ⟨by simp [asFloat], (float_new_same _ _).trans hx, by simp [asFloat], fun b hb => float_new_lt _ _ hb, Or.inr le_rfl⟩
      | list l => exact ⟨by simp [asFloat], (float_new_same _ _).trans hx, by simp [asFloat], fun b hb => float_new_lt _ _ hb, Or.inr le_rfl⟩
      | array b => exact ⟨hxa b rfl, hx, le_rfl, fun _ _ => rfl, Or.inl rfl⟩
    obtain ⟨a1, a2, a3, a4, a5⟩ := hxx
    have hyy : (asFloat y (asFloat x m).1).2 < (asFloat y (asFloat x m).1).1.floats.length ∧
        (asFloat y (asFloat x m).1).1.float (asFloat y (asFloat x m).1).2 = pts.map Prod.snd ∧
        (asFloat x m).2 < (asFloat y (asFloat x m).1).1.floats.length ∧
        (asFloat y (asFloat x m).1).1.float (asFloat x m).2 = pts.map Prod.fst ∧ (asFloat x m).2 ≠ (asFloat y (asFloat x m).1).2 := by
      cases y with
      | num v =>
        exact ⟨by simp [asFloat], (float_new_same _ _).trans hy, by simpa [asFloat] using a1.trans (Nat.lt_succ_self _),
          (float_new_lt _ _ a1).trans a2, a1.ne⟩
      | list l =>
        exact ⟨by simp [asFloat], (float_new_same _ _).trans hy, by simpa [asFloat] using a1.trans (Nat.lt_succ_self _),
          (float_new_lt _ _ a1).trans a2, a1.ne⟩
      | array b =>
        have hb := hya b rfl
        refine ⟨hb.trans_le a3, (a4 b hb).trans hy, a1, a2, ?_⟩
        rcases a5 with a5 | a5
        · intro h
          exact hne _ a5 (by rw [h]; rfl)
        · exact (hb.trans_le a5).ne'
    obtain ⟨b1, b2, b3, b4, b5⟩ := hyy
    exact launch_refines s b5 b3 b1 b4 b2 (hflux _ _ _)

end

section
variable {F : Type} [Arith F]

theorem fresh_refines (s : Setup F) (pts : List (F × F)) (flux : F) (m : Mem F) :
    (launchFresh s pts (.num flux) m).map (fun r => r.2.map fun o => o.value r.1) = Construct.launch s pts (flatFlux flux pts) := by
  refine launch_refines s (Nat.succ_ne_self _).symm (by simp) (by simp) ?_ ?_ ⟨by simp [flatFlux], rfl⟩
  · rw [float_new_lt _ _ (by simp), float_new_same]
  · have := float_new_same (m.newF (pts.map Prod.fst)) (pts.map Prod.snd)
    rwa [newF_length] at this

/-- C46 (refinement of `Verif.Construct`): `asGrid` with arrays returns the ray vector that `Construct.asGrid` computes. -/
theorem C46_asGrid_refines (a : Args F) (dir : Option Addr) (g : GridArgs F) (draws : Option (List (F × F))) (flux : F) (m : Mem F) :
    (Arrays.asGrid a dir g draws (.num flux) m).map (fun r => r.2.map fun o => o.value r.1) =
      Construct.asGrid (readDir a dir m) g draws flux := by
  unfold Arrays.asGrid Construct.asGrid
  simp only [bind, Except.bind]
  rcases gridLength (readDir a dir m) g with e | lx
  · rfl
  simp only
  rcases setup true (readDir a dir m) with e | s
  · rfl
  simp only
  rcases gridShape { g with lx := lx } with e | sh
  · rfl
  simp only
  rcases gridPoints sh draws with e | pts
  · rfl
  exact fresh_refines s pts flux m

/-- C46 (refinement of `Verif.Construct`): the same for `asPolar`. -/
theorem C46_asPolar_refines (junk : ℕ → F) (a : Args F) (dir : Option Addr) (outer inner : Option F) (nrad naz : Option ℤ) (kfold : ℤ)
    (flux : F) (m : Mem F) :
    (Arrays.asPolar junk a dir outer inner nrad naz kfold (.num flux) m).map (fun r => r.2.map fun o => o.value r.1) =
      Construct.asPolar junk (readDir a dir m) outer inner nrad naz kfold flux := by
  unfold Arrays.asPolar Construct.asPolar
  simp only [bind, Except.bind]
  rcases pupilOuter (readDir a dir m) outer with e | ro
  · rfl
  simp only
  rcases polarInner (readDir a dir m) inner with e | ri
  · rfl
  simp only
  rcases setup false (readDir a dir m) with e | s
  · rfl
  simp only
  rcases ro with _ | ro
  · rfl
  rcases nrad with _ | nrad
  · rfl
  rcases naz with _ | naz
  · rfl
  simp only
  rcases Grids.hexapolar junk ro ri nrad naz kfold true with e | rt
  · rfl
  exact fresh_refines s _ flux m

end

/-! ### Field angles -/

section
variable {F : Type} [Arith F]

/-- C46: `fromFieldAngles` leaves the arrays of the caller as they are, and so does every later history, for the projections
other than `'orthographic'`.  *Missing*: that projection, see `C46_fieldAngles_violated`. -/
theorem C46_fieldAngles_partial (a : Args F) (hp : a.projection ≠ "orthographic") (ax ay : Addr) (x y flux : F) (m m' : Mem F) (o : Obj F)
    (h : Arrays.fromFieldAngles a ax ay x y flux m = .ok (m', o)) (ops : List (RayOp F)) : SameBelow m (Obj.runAll (m', o) ops).1 := by
  unfold Arrays.fromFieldAngles at h
  simp only [bind, Except.bind] at h
  split at h
  · cases h
  split at h
  · cases h
  split at h
  · cases h
  split at h
  · cases h
  split at h
  · cases h
  rename_i d hd
  split at h
  · cases h
  rename_i r hr
  have h0 : SameBelow m d.1 ∧ m.floats.length ≤ d.2.1 ∧ m.floats.length ≤ d.2.2.1 ∧ m.floats.length ≤ d.2.2.2 := by
    unfold dirArrays at hd
    simp only [bind, Except.bind, if_neg hp] at hd
    split at hd
    · cases hd
    · cases hd
      exact ⟨((same_new m _).trans (same_new _ _)).trans (same_new _ _), le_rfl, Nat.le_add_right _ _, Nat.le_add_right _ _⟩
  obtain ⟨h1, k1, k2, k3⟩ := h0
  have h2 := fun l1 l2 l3 => same_put (same_put (same_put h1 k1 l1) k2 l2) k3 l3
  obtain ⟨mr, or⟩ := r
  have h3 := fun x => C46_init _ _ _ _ hr (.propagate x :: ops)
  cases h
  exact (h2 _ _ _).trans (h3 _)

/-- With the orthographic projection every call divides the arrays of the caller by the refractive index. -/
theorem fieldAngles_writes (a : Args F) (hp : a.projection = "orthographic") {med : Medium F} (hm : a.medium = some med) {w : F}
    (hw : a.wavelength = some w) {ax ay : Addr} (hne : ax ≠ ay) (x y flux : F) {m m' : Mem F} (hx : ax < m.floats.length) {o : Obj F}
    (h : Arrays.fromFieldAngles a ax ay x y flux m = .ok (m', o)) : m'.float ax = (m.float ax).map (· / med.getN w) := by
  unfold Arrays.fromFieldAngles at h
  simp only [bind, Except.bind] at h
  split at h
  · cases h
  split at h
  · cases h
  rename_i hmed
  split at h
  · cases h
  split at h
  · cases h
  rename_i hw'
  rw [hw] at hw'
  cases hw'
  split at h
  · cases h
  rename_i d hd
  split at h
  · cases h
  rename_i r hr
  rw [hm] at hmed
  have hmed' : fromOptic (some med) a.optic (·.inMedium) = .ok (some med) := by cases a.optic <;> rfl
  rw [hmed'] at hmed
  cases hmed
  unfold dirArrays at hd
  simp only [bind, Except.bind, if_pos hp] at hd
  split at hd
  · cases hd
  cases hd
  obtain ⟨mr, or⟩ := r
  have h3 := fun x => (C46_init _ _ _ _ hr [.propagate x]).floats ax (by simpa using hx.le)
  cases h
  refine (h3 _).trans ?_
  simp only [Option.getD_some]
  rw [float_put_ne _ hx.ne', float_put_ne _ hne.symm, float_put_same _ (by simpa using hx.le), float_new_lt _ _ hx]

end

/-! ## Examples -/

/-- A beam with the slope 3 : -4, to a plane stop. -/
noncomputable def slantArgs : Args Dbl := { wavelength := some (Dbl.fin 1), dirCos := some (⟨3, 0, -4⟩ : V3 ℝ).fin }

theorem slant_legal : LegalCall slantArgs Surface.plane globalFrame globalFrame 1 1 40 ⟨3, 0, -4⟩ where
  meaning := ⟨⟨fun _ => Dbl.fin 1⟩, ⟨.inr ⟨rfl, .inr ⟨rfl, rfl⟩⟩, .inr ⟨rfl, .inr ⟨rfl, rfl⟩⟩, .inr ⟨rfl, .inr ⟨rfl, rfl⟩⟩,
    .inr ⟨rfl, .inr ⟨rfl, rfl⟩⟩, rfl, ⟨rfl, .inl rfl⟩⟩, rfl⟩
  stop := globalFrame_orth
  cs := globalFrame_orth
  n := one_pos
  d := .inr (by norm_num)

/-- A caller with the arrays `x = [1, 2]` and `y = [0, 0]`. -/
noncomputable def slantMem : Mem Dbl := ⟨[[Dbl.fin 1, Dbl.fin 2], [Dbl.fin 0, Dbl.fin 0]], []⟩

/-- The call succeeds. -/
theorem slant_call : ∃ m' o, Arrays.fromStop slantArgs none (.array 0) (.array 1) (.num (Dbl.fin 1)) slantMem = .ok (m', some o) ∧
    PlaneWave Surface.plane globalFrame globalFrame 1 1 40 ⟨3, 0, -4⟩ [(1, 0), (2, 0)] [1, 1] (o.value m') := by
  obtain ⟨rv, h1, h2⟩ := C43_fromStop_partial slant_legal [(1, 0), (2, 0)] (plane_onSurface _) 1
  have hr := C46_fromStop_refines slantArgs none (.array 0) (.array 1) (Dbl.fin 1) slantMem [(Dbl.fin 1, Dbl.fin 0), (Dbl.fin 2, Dbl.fin 0)]
    rfl rfl (by rintro b ⟨⟩; exact Nat.succ_pos 1) (by rintro b ⟨⟩; exact Nat.lt_succ_self 1) (by rintro b ⟨⟩ h; cases h)
  have h1' : Construct.fromStop (readDir slantArgs none slantMem) [(Dbl.fin 1, Dbl.fin 0), (Dbl.fin 2, Dbl.fin 0)] (Dbl.fin 1) =
      .ok (some rv) := h1
  rw [h1'] at hr
  cases hc : Arrays.fromStop slantArgs none (.array 0) (.array 1) (.num (Dbl.fin 1)) slantMem with
  | error e => rw [hc] at hr; cases hr
  | ok r =>
    obtain ⟨m', _ | o⟩ := r
    · rw [hc] at hr; cases hr
    · rw [hc] at hr
      simp only [Except.map, Option.map_some, Except.ok.injEq, Option.some.injEq] at hr
      exact ⟨m', o, rfl, hr ▸ h2⟩

/-- C46 is violated: the call alone changes the array of the caller. -/
theorem C46_fromStop_modified_violated : ∃ (a : Args Dbl) (m m' : Mem Dbl) (o : Obj Dbl) (flux : Dbl),
    Arrays.fromStop a none (.array 0) (.array 1) (.num flux) m = .ok (m', some o) ∧ m.float 0 = [Dbl.fin 1, Dbl.fin 2] ∧
      m'.float 0 ≠ [Dbl.fin 1, Dbl.fin 2] := by
  obtain ⟨m', o, h, hw⟩ := slant_call
  refine ⟨slantArgs, slantMem, m', o, Dbl.fin 1, h, rfl, ?_⟩
  have hsh := C46_fromStop_shared_violated slantArgs none 0 (.array 1) (.num (Dbl.fin 1)) slantMem m' o h []
  change m'.float 0 = (o.rays m').map (·.r.x) at hsh
  intro hbad
  obtain ⟨v, ⟨c, hc, rfl⟩, hn, hr⟩ := hw.rays
  obtain ⟨r, z, T, e1, e2, e3, e4⟩ := hr 0 (1, 0) 1 rfl rfl
  change (o.rays m')[0]? = _ at e1
  rw [hsh] at hbad
  have hx := congrArg (fun l : List Dbl => l[0]?) hbad
  simp only [List.getElem?_map, e1, Option.map_some, List.getElem?_cons_zero, Option.some.injEq, V3.fin_x, Dbl.fin_inj] at hx
  have e : ∀ q : V3 ℝ, globalFrame.toLocal (globalFrame.toGlobal q) = q := CoordSys.toLocal_toGlobal globalFrame_orth
  rw [e] at e4
  have k1 := congrArg V3.x e4
  have k3 := congrArg V3.z e4
  have hz : z = 0 := by
    have : Surface.plane.sag (Dbl.fin 1) (Dbl.fin 0) = Dbl.fin 0 := by simp [Surface.plane]
    rw [this] at e3
    exact (Dbl.fin_inj.mp e3).symm
  simp only [V3.normSq, V3.dot, V3.smulR_x, V3.smulR_y, V3.smulR_z, V3.add_x, V3.add_z] at k1 k3 e2 hn
  have hc5 : c = 1 / 5 := by nlinarith
  subst hc5
  rw [hx] at k1
  have hT : T = 0 := by linarith
  rw [hT] at k3
  have : r.z = 0 := by linarith
  rw [hx, this] at e2
  norm_num at e2

/-- The orthographic projection in a medium of index 2. -/
noncomputable def angleArgs : Args Dbl :=
  { wavelength := some (Dbl.fin 1), projection := "orthographic", medium := some ⟨fun _ => Dbl.fin 2⟩ }

/-- A caller with the arrays `theta_x = [1/2]` and `theta_y = [0]`. -/
noncomputable def angleMem : Mem Dbl := ⟨[[Dbl.fin (1 / 2)], [Dbl.fin 0]], []⟩

/-- C46 is violated: `fromFieldAngles` with the orthographic projection in a medium of index 2 halves the array of the caller. -/
theorem C46_fieldAngles_violated : ∃ (a : Args Dbl) (m m' : Mem Dbl) (o : Obj Dbl),
    Arrays.fromFieldAngles a 0 1 (Dbl.fin 0) (Dbl.fin 0) (Dbl.fin 1) m = .ok (m', o) ∧ m.float 0 = [Dbl.fin (1 / 2)] ∧
      m'.float 0 = [Dbl.fin (1 / 4)] := by
  have hcall : ∃ m' o, Arrays.fromFieldAngles angleArgs 0 1 (Dbl.fin 0) (Dbl.fin 0) (Dbl.fin 1) angleMem = .ok (m', o) := ⟨_, _, rfl⟩
  obtain ⟨m', o, h⟩ := hcall
  refine ⟨angleArgs, angleMem, m', o, h, rfl, ?_⟩
  rw [fieldAngles_writes angleArgs rfl rfl rfl Nat.zero_ne_one _ _ _ (show 0 < angleMem.floats.length from Nat.succ_pos 1) h]
  show [Dbl.fin (1 / 2) / Dbl.fin 2] = _
  rw [Dbl.div_fin two_ne_zero]
  norm_num

/-- `C46_fieldAngles_partial` has calls to speak about: the default projection. -/
example : ∃ m' o, Arrays.fromFieldAngles { angleArgs with projection := "postel" } 0 1 (Dbl.fin 0) (Dbl.fin 0) (Dbl.fin 1) angleMem =
    .ok (m', o) ∧ ∀ t, (Obj.runAll (m', o) [.propagate (Dbl.fin t)]).1.float 0 = [Dbl.fin (1 / 2)] := by
  refine ⟨_, _, rfl, fun t => ?_⟩
  exact (C46_fieldAngles_partial { angleArgs with projection := "postel" } (by decide) 0 1 _ _ _ angleMem _ _ rfl [.propagate (Dbl.fin t)]).floats
    0 (Nat.succ_pos 1)

/-- A call of `fromStop` with lists, in the presence of other arrays. -/
example : ∃ m' o, Arrays.fromStop slantArgs none (.list [Dbl.fin 1, Dbl.fin 2]) (.list [Dbl.fin 0, Dbl.fin 0]) (.num (Dbl.fin 1)) slantMem =
    .ok (m', some o) ∧ ∀ t, (Obj.runAll (m', o) [.propagate (Dbl.fin t)]).1.float 0 = [Dbl.fin 1, Dbl.fin 2] := by
  obtain ⟨rv, h1, h2⟩ := C43_fromStop_partial slant_legal [(1, 0), (2, 0)] (plane_onSurface _) 1
  have hr := C46_fromStop_refines slantArgs none (.list [Dbl.fin 1, Dbl.fin 2]) (.list [Dbl.fin 0, Dbl.fin 0]) (Dbl.fin 1) slantMem
    [(Dbl.fin 1, Dbl.fin 0), (Dbl.fin 2, Dbl.fin 0)] rfl rfl (by rintro b ⟨⟩) (by rintro b ⟨⟩) (by rintro b ⟨⟩)
  have h1' : Construct.fromStop (readDir slantArgs none slantMem) [(Dbl.fin 1, Dbl.fin 0), (Dbl.fin 2, Dbl.fin 0)] (Dbl.fin 1) =
      .ok (some rv) := h1
  rw [h1'] at hr
  cases hc : Arrays.fromStop slantArgs none (.list [Dbl.fin 1, Dbl.fin 2]) (.list [Dbl.fin 0, Dbl.fin 0]) (.num (Dbl.fin 1)) slantMem with
  | error e => rw [hc] at hr; cases hr
  | ok r =>
    obtain ⟨m', _ | o⟩ := r
    · rw [hc] at hr; cases hr
    · refine ⟨m', o, rfl, fun t => ?_⟩
      exact ((C46_fromStop_partial slantArgs none _ _ _ slantMem (by rintro b ⟨⟩) (by rintro b ⟨⟩) (by rintro b ⟨⟩) _ hc).2 o rfl
        [.propagate (Dbl.fin t)]).floats 0 (Nat.succ_pos 1)

/-- A call of `asGrid`. -/
example : ∃ m' o, Arrays.asGrid straightArgs none ⟨some 5, some 4, some (.num (Dbl.fin 2)), some (.num (Dbl.fin 3)), none, none⟩ none
    (.num (Dbl.fin 1)) slantMem = .ok (m', some o) ∧ ∀ t, (Obj.runAll (m', o) [.propagate (Dbl.fin t)]).1.float 0 = [Dbl.fin 1, Dbl.fin 2] := by
  obtain ⟨rv, h1, h2⟩ := C42_spacing_partial straight_legal (nx := 5) (ny := some 4) (dx := 2) (dy := some 3) (by omega) (by simp)
    (by omega) (by simp) (plane_onSurface _) none 1
  have hr := C46_asGrid_refines straightArgs none ⟨some 5, some 4, some (.num (Dbl.fin 2)), some (.num (Dbl.fin 3)), none, none⟩ none
    (Dbl.fin 1) slantMem
  have h1' : Construct.asGrid (readDir straightArgs none slantMem)
    ⟨some 5, some 4, some (.num (Dbl.fin 2)), some (.num (Dbl.fin 3)), none, none⟩ none (Dbl.fin 1) = .ok (some rv) := h1
  rw [h1'] at hr
  cases hc : Arrays.asGrid straightArgs none ⟨some 5, some 4, some (.num (Dbl.fin 2)), some (.num (Dbl.fin 3)), none, none⟩ none
    (.num (Dbl.fin 1)) slantMem with
  | error e => rw [hc] at hr; cases hr
  | ok r =>
    obtain ⟨m', _ | o⟩ := r
    · rw [hc] at hr; cases hr
    · exact ⟨m', o, rfl, fun t => ((C46_asGrid_partial straightArgs none _ none _ slantMem (by rintro b ⟨⟩) _ hc).2 o rfl
        [.propagate (Dbl.fin t)]).floats 0 (Nat.succ_pos 1)⟩

end Batoid.Props
