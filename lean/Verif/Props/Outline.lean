import Verif.Outline
import Verif.Props.Histories
import Verif.Props.Trace

/-!
# Property C101: drawings show the optics

The specification vocabulary: `Shown d cs f ri ro` says that an interface with the frame `cs` has the height `f` over the annulus
between its radii, `profile` is the curve in which the (local) x-z plane cuts it, `apertureRadii` (C70) the radii of an obscuration,
and `leaves` are the interfaces of a tree.
-/

namespace Batoid.Props
open Batoid Arith Numpy Outline

/-! ## Slices -/

/-- An interface that can be drawn: it has a frame, radii, and a height at every point within the outer one. -/
structure Shown (d : Iface Dbl) (cs : CoordSys ℝ) (f : ℝ → ℝ → ℝ) (ri ro : ℝ) : Prop where
  frame : d.coordSys = cs.fin
  orth : cs.rot.Orth
  radii : apertureRadii d.obscuration = some (.fin ri, .fin ro)
  inner : 0 ≤ ri
  outer : ri ≤ ro
  height : ∀ x y : ℝ, x * x + y * y ≤ ro * ro → d.surface.sag (.fin x) (.fin y) = .fin (f x y)

/-- The global position of the point of the surface above (x, y). -/
def surfacePoint (cs : CoordSys ℝ) (f : ℝ → ℝ → ℝ) (x y : ℝ) : V3 ℝ := cs.toGlobal ⟨x, y, f x y⟩

/-- The global x and z of the points of the surface over the local x axis. -/
def profile (cs : CoordSys ℝ) (f : ℝ → ℝ → ℝ) (x : ℝ) : Dbl × Dbl :=
  (.fin (surfacePoint cs f x 0).x, .fin (surfacePoint cs f x 0).z)

theorem radii_eq {F : Type} [Arith F] (d : Iface F) :
    Outline.radii d = ((apertureRadii d.obscuration).map Prod.fst, (apertureRadii d.obscuration).map Prod.snd) := by
  unfold Outline.radii ObjHeap.ifaceCell
  cases ho : d.obscuration with
  | none => simp [ObjHeap.outerOf, ObjHeap.innerOf, ObjHeap.annulusInner, apertureRadii]
  | some o =>
    cases o with
    | negation o' => cases o' <;> simp [ObjHeap.outerOf, ObjHeap.innerOf, ObjHeap.annulusInner, apertureRadii, ObjHeap.core]
    | _ => simp [ObjHeap.outerOf, ObjHeap.innerOf, ObjHeap.annulusInner, apertureRadii, ObjHeap.core]

theorem place_fin {d : Iface Dbl} {cs : CoordSys ℝ} {f : ℝ → ℝ → ℝ} {ri ro : ℝ} (h : Shown d cs f ri ro) {x y : ℝ} (hx : x * x + y * y ≤ ro * ro) :
    place d (.fin x) (.fin y) = (surfacePoint cs f x y).fin := by
  unfold place
  rw [h.height x y hx, h.frame, show CoordSys.std Dbl = (CoordSys.std ℝ).fin by simp [CoordSys.std, CoordSys.fin, V3.fin, M3.fin, M3.map],
    show (⟨.fin x, .fin y, .fin (f x y)⟩ : V3 Dbl) = (⟨x, y, f x y⟩ : V3 ℝ).fin from rfl, CoordTransform.forward_fin, CoordSys.forward_eq h.orth]
  congr 1
  rw [CoordSys.std_eq]
  ext <;> simp [CoordSys.toLocal, surfacePoint, M3.one, M3.tr, M3.mulVec]

theorem slicePoint_fin {d : Iface Dbl} {cs : CoordSys ℝ} {f : ℝ → ℝ → ℝ} {ri ro : ℝ} (h : Shown d cs f ri ro) {x : ℝ} (hx : |x| ≤ ro) :
    slicePoint d (.fin x) = profile cs f x := by
  have h2 : x * x + 0 * 0 ≤ ro * ro := by
    have := abs_mul_abs_self x
    nlinarith [abs_nonneg x]
  unfold slicePoint
  rw [Dbl.zero_dbl, place_fin h h2]
  rfl

/-- `n` points on the surface over the local x axis, evenly spaced from `a` to `b`. -/
noncomputable def sampled (cs : CoordSys ℝ) (f : ℝ → ℝ → ℝ) (a b : ℝ) (n : ℕ) : List (Dbl × Dbl) :=
  (List.range n).map fun k : ℕ => profile cs f (a + (k : ℝ) / ((n : ℝ) - 1) * (b - a))

/-- How many points `getXZSlice` puts on each half slice. -/
def sliceCount (planar : Bool) (nslice : ℤ) : ℤ := if nslice ≤ 0 then if planar then 2 else 50 else nslice

theorem abs_sample {ri ro : ℝ} (h0 : 0 ≤ ri) (h1 : ri ≤ ro) {n k : ℕ} (hn : 1 < n) (hk : k < n) :
    ri ≤ ri + (k : ℝ) / ((n : ℝ) - 1) * (ro - ri) ∧ ri + (k : ℝ) / ((n : ℝ) - 1) * (ro - ri) ≤ ro := by
  have hn' : (0 : ℝ) < (n : ℝ) - 1 := by
    have : (1 : ℝ) < n := by exact_mod_cast hn
    linarith
  have hk' : (k : ℝ) ≤ (n : ℝ) - 1 := by
    have : ((k + 1 : ℕ) : ℝ) ≤ n := by exact_mod_cast hk
    push_cast at this
    linarith
  have a1 : 0 ≤ (k : ℝ) / ((n : ℝ) - 1) := div_nonneg (Nat.cast_nonneg k) hn'.le
  have a2 : (k : ℝ) / ((n : ℝ) - 1) ≤ 1 := (div_le_one hn').2 hk'
  constructor <;> nlinarith

/-- The two half slices. -/
theorem slice_halves {d : Iface Dbl} {cs : CoordSys ℝ} {f : ℝ → ℝ → ℝ} {ri ro : ℝ} (h : Shown d cs f ri ro) {n : ℕ} (hn : 1 < n) :
    ∃ x, linspace (-(Dbl.fin ro)) (-(Dbl.fin ri)) (n : ℤ) true = .ok x ∧ x.map (slicePoint d) = sampled cs f (-ro) (-ri) n ∧
      (x.map fun a => a * (-1)).reverse.map (slicePoint d) = sampled cs f ri ro n := by
  have hn' : (0 : ℝ) < (n : ℝ) - 1 := by
    have : (1 : ℝ) < n := by exact_mod_cast hn
    linarith
  refine ⟨_, by rw [Dbl.neg_fin, Dbl.neg_fin]; exact linspace_closed hn, ?_, ?_⟩
  · rw [List.map_map]
    refine List.map_congr_left fun k hk => ?_
    rw [List.mem_range] at hk
    rw [Function.comp_apply, slicePoint_fin h]
    obtain ⟨a1, a2⟩ := abs_sample (n := n) (k := n - 1 - k) h.inner h.outer hn (by omega)
    have e : ((n - 1 - k : ℕ) : ℝ) = (n : ℝ) - 1 - k := by
      rw [Nat.cast_sub (by omega), Nat.cast_sub (by omega)]; simp
    rw [e] at a1 a2
    have e2 : -ro + (k : ℝ) / ((n : ℝ) - 1) * (-ri - -ro) = -(ri + ((n : ℝ) - 1 - k) / ((n : ℝ) - 1) * (ro - ri)) := by
      field_simp; ring
    rw [e2, abs_neg, abs_of_nonneg (by linarith [h.inner])]
    exact a2
  · apply List.ext_getElem
    · simp [sampled]
    · intro k hk1 hk2
      have hk : k < n := by simpa [sampled] using hk2
      obtain ⟨a1, a2⟩ := abs_sample h.inner h.outer hn hk
      have e : ((n - 1 - k : ℕ) : ℝ) = (n : ℝ) - 1 - k := by
        rw [Nat.cast_sub (by omega), Nat.cast_sub (by omega)]; simp
      have e2 : (-ro + ((n : ℝ) - 1 - k) / ((n : ℝ) - 1) * (-ri - -ro)) * (-1) = ri + (k : ℝ) / ((n : ℝ) - 1) * (ro - ri) := by
        field_simp; ring
      simp only [sampled, List.getElem_map, List.getElem_reverse, List.length_map, List.length_range, List.getElem_range, e, Dbl.one_dbl,
        Dbl.neg_fin, Dbl.mul_fin, e2]
      rw [slicePoint_fin h]
      rw [abs_of_nonneg (by linarith [h.inner])]
      exact a2

/-- C101: with a hole in the middle, `getXZSlice` returns two curves: the surface over the local x axis from -outRadius to -inRadius
and from inRadius to outRadius, evenly sampled. -/
theorem C101_slice_halves {planar : Surface Dbl → Bool} {d : Iface Dbl} {cs : CoordSys ℝ} {f : ℝ → ℝ → ℝ} {ri ro : ℝ} (h : Shown d cs f ri ro)
    (hri : ri ≠ 0) {nslice : ℤ} {n : ℕ} (hc : sliceCount (planar d.surface) nslice = n) (hn : 2 ≤ n) :
    getXZSlice planar d nslice = .ok [sampled cs f (-ro) (-ri) n, sampled cs f ri ro n] := by
  obtain ⟨x, h1, h2, h3⟩ := slice_halves h (n := n) (by omega)
  unfold sliceCount at hc
  unfold getXZSlice
  rw [radii_eq, h.radii]
  simp only [Option.map_some, hc, h1, bind, Except.bind, h2, h3, Dbl.zero_dbl, Dbl.eq_fin, hri, decide_false, Bool.false_eq_true, if_false]

/-- C101: without a hole, it returns one curve from -outRadius to outRadius. -/
theorem C101_slice_joined {planar : Surface Dbl → Bool} {d : Iface Dbl} {cs : CoordSys ℝ} {f : ℝ → ℝ → ℝ} {ro : ℝ} (h : Shown d cs f 0 ro)
    {nslice : ℤ} {n : ℕ} (hc : sliceCount (planar d.surface) nslice = n) (hn : 2 ≤ n) :
    getXZSlice planar d nslice = .ok [sampled cs f (-ro) ro (2 * n - 1)] := by
  obtain ⟨x, h1, h2, h3⟩ := slice_halves h (n := n) (by omega)
  have hn' : (0 : ℝ) < (n : ℝ) - 1 := by
    have : (2 : ℝ) ≤ n := by exact_mod_cast hn
    linarith
  have ec : ((2 * n - 1 : ℕ) : ℝ) - 1 = 2 * ((n : ℝ) - 1) := by
    rw [Nat.cast_sub (by omega)]; push_cast; ring
  have e1 : (sampled cs f (-ro) (-0) n).getLast? = some (profile cs f 0) := by
    obtain ⟨m, rfl⟩ : ∃ m, n = m + 1 := ⟨n - 1, by omega⟩
    have : ((m + 1 : ℕ) : ℝ) - 1 = m := by push_cast; ring
    rw [this] at hn'
    simp only [sampled, List.range_succ, List.map_append, List.map_singleton, List.getLast?_concat, Option.some.injEq, this,
      div_self hn'.ne']
    congr 1; ring
  have e2 : (sampled cs f 0 ro n).head? = some (profile cs f 0) := by
    obtain ⟨m, rfl⟩ : ∃ m, n = m + 1 := ⟨n - 1, by omega⟩
    simp [sampled, List.range_succ_eq_map]
  have e3 : sampled cs f (-ro) (-0) n ++ (sampled cs f 0 ro n).tail = sampled cs f (-ro) ro (2 * n - 1) := by
    apply List.ext_getElem
    · simp [sampled]; omega
    · intro k hk1 hk2
      have hk : k < 2 * n - 1 := by simpa [sampled] using hk2
      by_cases hkn : k < n
      · rw [List.getElem_append_left (by simpa [sampled] using hkn)]
        simp only [sampled, List.getElem_map, List.getElem_range, ec]
        congr 1; field_simp; ring
      · rw [List.getElem_append_right (by simpa [sampled] using hkn)]
        simp only [sampled, List.getElem_tail, List.getElem_map, List.getElem_range, ec, List.length_map, List.length_range]
        have : ((k - n + 1 : ℕ) : ℝ) = k - n + 1 := by push_cast [Nat.cast_sub (not_lt.1 hkn)]; ring
        rw [this]
        congr 1; field_simp; ring
  unfold sliceCount at hc
  unfold getXZSlice
  rw [radii_eq, h.radii]
  simp only [Option.map_some, hc, h1, bind, Except.bind, h2, h3, Dbl.zero_dbl, Dbl.eq_fin, decide_true, if_true, e1, e2, e3, profile,
    Bool.and_true, Except.ok.injEq]

/-- C101: every drawn point is a point of the surface between the radii, each curve begins and ends at a radius. -/
theorem C101_slice_on_surface {planar : Surface Dbl → Bool} {d : Iface Dbl} {cs : CoordSys ℝ} {f : ℝ → ℝ → ℝ} {ri ro : ℝ} (h : Shown d cs f ri ro)
    {nslice : ℤ} {n : ℕ} (hc : sliceCount (planar d.surface) nslice = n) (hn : 2 ≤ n) {curves : List (List (Dbl × Dbl))}
    (hs : getXZSlice planar d nslice = .ok curves) :
    (∀ c ∈ curves, ∀ p ∈ c, ∃ x : ℝ, ri ≤ |x| ∧ |x| ≤ ro ∧ p = profile cs f x) ∧
    (∃ c ∈ curves, c.head? = some (profile cs f (-ro))) ∧ (∃ c ∈ curves, c.getLast? = some (profile cs f ro)) := by
  have hm : ∀ (a b : ℝ) (m : ℕ), 2 ≤ m → ∀ p ∈ sampled cs f a b m, ∃ t : ℝ, 0 ≤ t ∧ t ≤ 1 ∧ p = profile cs f (a + t * (b - a)) := by
    intro a b m hm p hp
    simp only [sampled, List.mem_map, List.mem_range] at hp
    obtain ⟨k, hk, rfl⟩ := hp
    have hm' : (0 : ℝ) < (m : ℝ) - 1 := by
      have : (2 : ℝ) ≤ m := by exact_mod_cast hm
      linarith
    have hk' : (k : ℝ) ≤ (m : ℝ) - 1 := by
      have : ((k + 1 : ℕ) : ℝ) ≤ m := by exact_mod_cast hk
      push_cast at this
      linarith
    exact ⟨_, div_nonneg (Nat.cast_nonneg k) hm'.le, (div_le_one hm').2 hk', rfl⟩
  have hh : ∀ (a b : ℝ) (m : ℕ), 2 ≤ m → (sampled cs f a b m).head? = some (profile cs f a) ∧ (sampled cs f a b m).getLast? = some (profile cs f b) := by
    intro a b m hm
    obtain ⟨m, rfl⟩ : ∃ j, m = j + 1 := ⟨m - 1, by omega⟩
    have e : ((m + 1 : ℕ) : ℝ) - 1 = m := by push_cast; ring
    have hm' : (m : ℝ) ≠ 0 := by
      have : m ≠ 0 := by omega
      exact_mod_cast this
    constructor
    · simp [sampled, List.range_succ_eq_map]
    · simp only [sampled, List.range_succ, List.map_append, List.map_singleton, List.getLast?_concat, Option.some.injEq, e, div_self hm']
      congr 1; ring
  have hio := h.outer
  have hi0 := h.inner
  by_cases hri : ri = 0
  · subst hri
    rw [C101_slice_joined h hc hn, Except.ok.injEq] at hs
    subst hs
    simp only [List.mem_singleton, forall_eq, exists_eq_left]
    refine ⟨fun p hp => ?_, (hh _ _ _ (by omega)).1, (hh _ _ _ (by omega)).2⟩
    obtain ⟨t, t0, t1, rfl⟩ := hm _ _ _ (by omega) p hp
    exact ⟨_, abs_nonneg _, by rw [abs_le]; constructor <;> nlinarith, rfl⟩
  · rw [C101_slice_halves h hri hc hn, Except.ok.injEq] at hs
    subst hs
    simp only [List.mem_cons, List.not_mem_nil, or_false, forall_eq_or_imp, forall_eq, exists_eq_or_imp, exists_eq_left]
    refine ⟨⟨fun p hp => ?_, fun p hp => ?_⟩, .inl (hh _ _ _ hn).1, .inr (hh _ _ _ hn).2⟩
    · obtain ⟨t, t0, t1, rfl⟩ := hm _ _ _ hn p hp
      refine ⟨_, ?_, ?_, rfl⟩
      · rw [abs_of_nonpos (by nlinarith)]; nlinarith
      · rw [abs_of_nonpos (by nlinarith)]; nlinarith
    · obtain ⟨t, t0, t1, rfl⟩ := hm _ _ _ hn p hp
      refine ⟨_, ?_, ?_, rfl⟩
      · rw [abs_of_nonneg (by nlinarith)]; nlinarith
      · rw [abs_of_nonneg (by nlinarith)]; nlinarith

/-- `getXZSlice(nslice=1)` of an optic without a hole fails its own assertion. -/
theorem C101_one_point_violated {planar : Surface Dbl → Bool} {d : Iface Dbl} {z : ℝ} {f : ℝ → ℝ → ℝ} {ro : ℝ}
    (h : Shown d ⟨⟨0, 0, z⟩, M3.one⟩ f 0 ro) (hro : 0 < ro) : getXZSlice planar d 1 = .error .assertionError := by
  unfold getXZSlice
  rw [radii_eq, h.radii]
  have e1 : slicePoint d (.fin (-ro)) = profile ⟨⟨0, 0, z⟩, M3.one⟩ f (-ro) := slicePoint_fin h (by rw [abs_neg, abs_of_pos hro])
  have e2 : slicePoint d (.fin (-ro * -1)) = profile ⟨⟨0, 0, z⟩, M3.one⟩ f ro := by
    rw [show -ro * -1 = ro by ring]; exact slicePoint_fin h (abs_of_pos hro).le
  have e3 : ¬ (-ro = ro) := by intro e; linarith
  simp only [Option.map_some, show ¬ ((1 : ℤ) ≤ 0) by decide, if_false, Dbl.neg_fin, linspace_single, bind, Except.bind, List.map_cons, List.map_nil,
    Dbl.zero_dbl, Dbl.one_dbl, Dbl.eq_fin, decide_true, if_true, List.reverse_singleton, Dbl.mul_fin, e1, e2, List.getLast?_singleton, List.head?_cons,
    profile, surfacePoint, CoordSys.toGlobal]
  simp [M3.one, M3.mulVec, e3]

/-! ## What is open -/

/-- Circles and annuli about the middle, or their complements. -/
inductive Centred : Obsc Dbl → Prop where
  | circle (r : ℝ) : Centred (.circle (.fin r) (.fin 0) (.fin 0))
  | annulus (a b : ℝ) : Centred (.annulus (.fin a) (.fin b) (.fin 0) (.fin 0))
  | clearCircle (r : ℝ) : Centred (.negation (.circle (.fin r) (.fin 0) (.fin 0)))
  | clearAnnulus (a b : ℝ) : Centred (.negation (.annulus (.fin a) (.fin b) (.fin 0) (.fin 0)))

/-- Is this the complement of something? -/
def isClear : Obsc Dbl → Bool
  | .negation _ => true
  | _ => false

/-- C101: the drawn part of a surface with a centred clear circle or annulus is the part where rays pass; the drawn part of one with a
centred circle or annulus is the part where they are stopped.  (Missing: decentred ones, see below.) -/
theorem C101_aperture_partial {o : Obsc Dbl} (hc : Centred o) {ri ro : ℝ} (hr : apertureRadii (some o) = some (.fin ri, .fin ro)) (hri : 0 ≤ ri) (x y : ℝ) :
    o.contains (.fin x) (.fin y) = (isClear o ^^ decide (ri ≤ Real.sqrt (x * x + y * y) ∧ Real.sqrt (x * x + y * y) < ro)) := by
  have hs := Real.sqrt_nonneg (x * x + y * y)
  cases hc <;> simp only [apertureRadii, Option.some.injEq, Prod.mk.injEq, Dbl.fin_inj, Dbl.zero_dbl] at hr <;> obtain ⟨rfl, rfl⟩ := hr <;>
    simp [Obsc.contains, Obsc.circleContains, Obsc.annulusContains, isClear, hs]

/-- The surface drawn for a clear circle far from the middle is stopped everywhere: the position of the circle is ignored. -/
theorem C101_aperture_violated {ro x0 : ℝ} (h : 2 * ro < x0) (x : ℝ) (hx : |x| ≤ ro) :
    apertureRadii (some (.negation (.circle (Dbl.fin ro) (.fin x0) (.fin 0)))) = some (.fin 0, .fin ro) ∧
    (Obsc.negation (.circle (.fin ro) (.fin x0) (.fin 0))).contains (Dbl.fin x) (.fin 0) = true := by
  refine ⟨by simp [apertureRadii], ?_⟩
  have h1 : x - x0 < 0 := by linarith [(abs_le.1 hx).2, abs_nonneg x]
  have h2 : Real.sqrt ((x - x0) * (x - x0) + 0 * 0) = x0 - x := by
    rw [show (x - x0) * (x - x0) + 0 * 0 = (x0 - x) ^ 2 by ring]
    exact Real.sqrt_sq (by linarith)
  simp only [Obsc.contains, Obsc.circleContains, Dbl.sub_fin, sub_zero, Dbl.hypot_fin, h2, Dbl.lt_fin, Bool.not_eq_true', decide_eq_false_iff_not, not_lt]
  linarith [(abs_le.1 hx).2, abs_nonneg x]

/-- Nothing is drawn for interfaces without obscuration or with one of another shape. -/
theorem C101_not_drawn {F : Type} [Arith F] (planar : Surface F → Bool) {d : Iface F} (h : apertureRadii d.obscuration = none) (n : ℤ) :
    getXZSlice planar d n = .ok [] ∧ draw3dIface d = .ok [] ∧ meshIface d = .ok none := by
  unfold getXZSlice draw3dIface meshIface
  rw [radii_eq, h]
  exact ⟨rfl, rfl, rfl⟩

/-! ## Trees -/

section trees
variable {F : Type} [Arith F]

mutual
/-- All interfaces of a tree, in order. -/
def leaves : Optic F → List (Iface F)
  | .iface d => [d]
  | .compound _ items => leavesItems items
def leavesItems : List (Optic F) → List (Iface F)
  | [] => []
  | o :: os => leaves o ++ leavesItems os
end

mutual
/-- The lenses of a tree by their items, in order (not those inside of lenses). -/
def lensItems : Optic F → List (List (Optic F))
  | .iface _ => []
  | .compound c items => if c.isLens then [items] else lensItemsAll items
def lensItemsAll : List (Optic F) → List (List (Optic F))
  | [] => []
  | o :: os => lensItems o ++ lensItemsAll os
end

/-- The lines drawn for an interface with the slices `S`. -/
def linesOf (S : Iface F → List (List (F × F))) (ds : List (Iface F)) : List (Mark F) := ds.flatMap fun d => (S d).map Mark.line

mutual
theorem draw2d_leaves {planar : Surface F → Bool} {only : Option Only} (hl : only ≠ some (.cls .lens)) {sel : Iface F → Bool}
    {S : Iface F → List (List (F × F))} : ∀ (c : Comp F) (items : List (Optic F)),
      (∀ d ∈ leavesItems items, selected d only = .ok (sel d) ∧ getXZSlice planar d 0 = .ok (S d)) →
      draw2d planar only (.compound c items) = .ok (linesOf S ((leavesItems items).filter sel))
  | c, items, h => by
    rw [draw2d]
    simp only [hl, decide_false, Bool.and_false, Bool.false_eq_true, if_false]
    exact draw2dItems_leaves hl items h
theorem draw2dItems_leaves {planar : Surface F → Bool} {only : Option Only} (hl : only ≠ some (.cls .lens)) {sel : Iface F → Bool}
    {S : Iface F → List (List (F × F))} : ∀ (items : List (Optic F)),
      (∀ d ∈ leavesItems items, selected d only = .ok (sel d) ∧ getXZSlice planar d 0 = .ok (S d)) →
      draw2dItems planar only items = .ok (linesOf S ((leavesItems items).filter sel))
  | [], _ => by simp [draw2dItems, leavesItems, linesOf]
  | .iface d :: os, h => by
    have h1 := h d (by simp [leavesItems, leaves])
    have h2 := draw2dItems_leaves hl os fun d' hd' => h d' (by simp [leavesItems, hd'])
    rw [draw2dItems, h2, h1.1]
    simp only [draw2dIface, h1.2, bind, Except.bind, pure, Except.pure, leavesItems, leaves, List.singleton_append, List.filter_cons]
    cases sel d <;> simp [linesOf]
  | .compound c items :: os, h => by
    have h1 := draw2d_leaves hl c items fun d' hd' => h d' (by simp [leavesItems, leaves, hd'])
    have h2 := draw2dItems_leaves hl os fun d' hd' => h d' (by simp [leavesItems, hd'])
    rw [draw2dItems, h1, h2]
    simp [bind, Except.bind, pure, Except.pure, leavesItems, leaves, linesOf]
end

/-- C101: `optic.draw2d(ax)` draws the slices of all interfaces of the tree, however deep, in order. -/
theorem C101_draws_all {planar : Surface F → Bool} (o : Optic F) {S : Iface F → List (List (F × F))}
    (h : ∀ d ∈ leaves o, getXZSlice planar d 0 = .ok (S d)) : draw2d planar none o = .ok (linesOf S (leaves o)) := by
  cases o with
  | iface d =>
    have h1 := h d (by simp [leaves])
    simp [draw2d, draw2dIface, h1, bind, Except.bind, pure, Except.pure, leaves, linesOf]
  | compound c items =>
    rw [draw2d_leaves (by simp) (sel := fun _ => true) c items fun d hd => ⟨rfl, h d (by rw [leaves]; exact hd)⟩]
    simp [leaves]

/-- C101: with `only` a class other than Lens, or a tuple of classes, it draws the interfaces of these classes (Missing: lists.) -/
theorem C101_only_partial {planar : Surface F → Bool} (c : Comp F) (items : List (Optic F)) {S : Iface F → List (List (F × F))}
    (h : ∀ d ∈ leavesItems items, getXZSlice planar d 0 = .ok (S d)) :
    (∀ k : Cls, k ≠ .lens → draw2d planar (some (.cls k)) (.compound c items) = .ok (linesOf S ((leavesItems items).filter fun d => subclass d k))) ∧
    (∀ ks : List Cls, draw2d planar (some (.tuple ks)) (.compound c items) =
      .ok (linesOf S ((leavesItems items).filter fun d => ks.any (subclass d)))) :=
  ⟨fun k hk => draw2d_leaves (by simpa using hk) c items fun d hd => ⟨rfl, h d hd⟩,
   fun _ => draw2d_leaves (by simp) c items fun d hd => ⟨rfl, h d hd⟩⟩

mutual
theorem draw2d_list {planar : Surface F → Bool} (cs : List Cls) : ∀ (c : Comp F) (items : List (Optic F)),
    leavesItems items ≠ [] → draw2d planar (some (.list cs)) (.compound c items) = .error .typeError
  | c, items, h => by
    rw [draw2d]
    simp only [Option.some.injEq, reduceCtorEq, decide_false, Bool.and_false, Bool.false_eq_true, if_false]
    exact draw2dItems_list cs items h
theorem draw2dItems_list {planar : Surface F → Bool} (cs : List Cls) : ∀ (items : List (Optic F)),
    leavesItems items ≠ [] → draw2dItems planar (some (.list cs)) items = .error .typeError
  | [], h => absurd rfl h
  | .iface d :: os, _ => by rw [draw2dItems]; rfl
  | .compound c items :: os, h => by
    rw [draw2dItems]
    by_cases hi : leavesItems items = []
    · have h2 := draw2dItems_list (planar := planar) cs os (by simpa [leavesItems, leaves, hi] using h)
      rw [h2]
      have h3 := draw2d_leaves (planar := planar) (only := some (.list cs)) (by simp) (sel := fun _ => true) (S := fun _ => []) c items (by simp [hi])
      rw [h3]
      rfl
    · rw [draw2d_list cs c items hi]
      rfl
end

/-- The documentation asks for a list of classes, but a list makes `draw2d` of any tree with an interface raise TypeError. -/
theorem C101_only_violated {planar : Surface F → Bool} (cs : List Cls) (c : Comp F) (items : List (Optic F)) (h : leavesItems items ≠ []) :
    draw2d planar (some (.list cs)) (.compound c items) = .error .typeError := draw2d_list cs c items h

theorem subclass_lens (d : Iface F) : subclass d .lens = false := by
  unfold subclass
  cases d.kind <;> rfl

mutual
theorem draw2d_lenses {planar : Surface F → Bool} {P : List (Optic F) → List (Mark F)} : ∀ (c : Comp F) (items : List (Optic F)),
    (∀ l ∈ lensItems (.compound c items), fillLens planar l = .ok (P l)) →
    draw2d planar (some (.cls .lens)) (.compound c items) = .ok ((lensItems (.compound c items)).flatMap P)
  | c, items, h => by
    rw [draw2d]
    rw [lensItems] at h ⊢
    cases hc : c.isLens with
    | true =>
      simp only [hc, if_true, List.mem_singleton, forall_eq] at h
      simp [h]
    | false =>
      simp only [hc, Bool.false_eq_true, if_false] at h
      simp only [Bool.false_and, Bool.false_eq_true, if_false]
      exact draw2dItems_lenses items h
theorem draw2dItems_lenses {planar : Surface F → Bool} {P : List (Optic F) → List (Mark F)} : ∀ (items : List (Optic F)),
    (∀ l ∈ lensItemsAll items, fillLens planar l = .ok (P l)) →
    draw2dItems planar (some (.cls .lens)) items = .ok ((lensItemsAll items).flatMap P)
  | [], _ => by simp [draw2dItems, lensItemsAll]
  | .iface d :: os, h => by
    have h2 := draw2dItems_lenses os fun l hl => h l (by simp [lensItemsAll, hl])
    rw [draw2dItems, h2]
    simp [selected, subclass_lens, bind, Except.bind, pure, Except.pure, lensItemsAll, lensItems]
  | .compound c items :: os, h => by
    have h1 := draw2d_lenses c items fun l hl => h l (by simp [lensItemsAll, hl])
    have h2 := draw2dItems_lenses os fun l hl => h l (by simp [lensItemsAll, hl])
    rw [draw2dItems, h1, h2]
    simp [bind, Except.bind, pure, Except.pure, lensItemsAll]
end

/-- C101: with `only=Lens` it fills the lenses of the tree, in order, and draws nothing else. -/
theorem C101_only_lens {planar : Surface F → Bool} {P : List (Optic F) → List (Mark F)} (c : Comp F) (items : List (Optic F))
    (h : ∀ l ∈ lensItems (.compound c items), fillLens planar l = .ok (P l)) :
    draw2d planar (some (.cls .lens)) (.compound c items) = .ok ((lensItems (.compound c items)).flatMap P) := draw2d_lenses c items h

/-! ## Three dimensions -/

/-- Curves one after the other, each followed by a NaN. -/
def separated (curves : List (List (V3 F))) : List (V3 F) := curves.flatMap fun c => c ++ [⟨nan, nan, nan⟩]

theorem mesh_iface {d : Iface F} {r : F × F} (hr : apertureRadii d.obscuration = some r) {curves : List (List (V3 F))}
    (h : draw3dIface d = .ok curves) : meshIface d = .ok (some (separated curves)) := by
  unfold draw3dIface at h
  unfold meshIface
  rw [radii_eq, hr] at h ⊢
  simp only [Option.map_some, innerCircle, bind, Except.bind, pure, Except.pure] at h ⊢
  cases he : eq r.1 0 <;> simp only [he, if_true, Bool.false_eq_true, if_false] at h ⊢
  · cases h0 : circle d r.1 with
    | error e => simp [h0] at h
    | ok a0 =>
      cases h1 : circle d r.2 with
      | error e => simp [h0, h1] at h
      | ok a1 =>
        cases h2 : lineY d (-r.2) (-r.1) with
        | error e => simp [h0, h1, h2] at h
        | ok a2 =>
          cases h3 : lineY d r.1 r.2 with
          | error e => simp [h0, h1, h2, h3] at h
          | ok a3 =>
            cases h4 : lineX d (-r.2) (-r.1) with
            | error e => simp [h0, h1, h2, h3, h4] at h
            | ok a4 =>
              cases h5 : lineX d r.1 r.2 with
              | error e => simp [h0, h1, h2, h3, h4, h5] at h
              | ok a5 =>
                simp only [h0, h1, h2, h3, h4, h5, Except.ok.injEq] at h ⊢
                rw [← h]
                simp [separated, gap]
  · cases h1 : circle d r.2 with
    | error e => simp [h1] at h
    | ok a1 =>
      cases h2 : lineY d (-r.2) (-r.1) with
      | error e => simp [h1, h2] at h
      | ok a2 =>
        cases h3 : lineY d r.1 r.2 with
        | error e => simp [h1, h2, h3] at h
        | ok a3 =>
          cases h4 : lineX d (-r.2) (-r.1) with
          | error e => simp [h1, h2, h3, h4] at h
          | ok a4 =>
            cases h5 : lineX d r.1 r.2 with
            | error e => simp [h1, h2, h3, h4, h5] at h
            | ok a5 =>
              simp only [h1, h2, h3, h4, h5, Except.ok.injEq] at h ⊢
              rw [← h]
              simp [separated, gap]

mutual
/-- Every compound has items. -/
def NoEmpty : Optic F → Prop
  | .iface _ => True
  | .compound _ items => items ≠ [] ∧ NoEmptyItems items
def NoEmptyItems : List (Optic F) → Prop
  | [] => True
  | o :: os => NoEmpty o ∧ NoEmptyItems os
end

mutual
theorem draw3d_leaves {C : Iface F → List (List (V3 F))} : ∀ (o : Optic F), (∀ d ∈ leaves o, draw3dIface d = .ok (C d)) →
    draw3d o = .ok ((leaves o).flatMap C)
  | .iface d, h => by rw [draw3d, h d (by simp [leaves])]; simp [leaves]
  | .compound c items, h => by rw [draw3d, leaves]; exact draw3dItems_leaves items (by simpa [leaves] using h)
theorem draw3dItems_leaves {C : Iface F → List (List (V3 F))} : ∀ (os : List (Optic F)), (∀ d ∈ leavesItems os, draw3dIface d = .ok (C d)) →
    draw3dItems os = .ok ((leavesItems os).flatMap C)
  | [], _ => by simp [draw3dItems, leavesItems]
  | o :: os, h => by
    rw [draw3dItems, draw3d_leaves o fun d hd => h d (by simp [leavesItems, hd]), draw3dItems_leaves os fun d hd => h d (by simp [leavesItems, hd])]
    simp [bind, Except.bind, pure, Except.pure, leavesItems]
end

mutual
theorem mesh_leaves {C : Iface F → List (List (V3 F))} : ∀ (o : Optic F), NoEmpty o →
    (∀ d ∈ leaves o, draw3dIface d = .ok (C d) ∧ apertureRadii d.obscuration ≠ none) →
    get3dmesh o = .ok (some (separated ((leaves o).flatMap C)))
  | .iface d, _, h => by
    have h1 := h d (by simp [leaves])
    obtain ⟨r, hr⟩ := Option.ne_none_iff_exists'.1 h1.2
    rw [get3dmesh, mesh_iface hr h1.1]
    simp [leaves]
  | .compound c items, hn, h => by
    rw [NoEmpty] at hn
    obtain ⟨parts, h1, h2, h3⟩ := meshItems_leaves items hn.2 (by simpa [leaves] using h)
    rw [get3dmesh, h1, leaves]
    have : parts ≠ [] := by rintro rfl; exact hn.1 (List.length_eq_zero_iff.1 h3.symm)
    simp [bind, Except.bind, pure, Except.pure, this, h2]
theorem meshItems_leaves {C : Iface F → List (List (V3 F))} : ∀ (os : List (Optic F)), NoEmptyItems os →
    (∀ d ∈ leavesItems os, draw3dIface d = .ok (C d) ∧ apertureRadii d.obscuration ≠ none) →
    ∃ parts, meshItems os = .ok parts ∧ parts.flatten = separated ((leavesItems os).flatMap C) ∧ parts.length = os.length
  | [], _, _ => ⟨[], by simp [meshItems], by simp [leavesItems, separated], rfl⟩
  | o :: os, hn, h => by
    rw [NoEmptyItems] at hn
    obtain ⟨parts, h1, h2, h3⟩ := meshItems_leaves os hn.2 fun d hd => h d (by simp [leavesItems, hd])
    have h4 := mesh_leaves o hn.1 fun d hd => h d (by simp [leavesItems, hd])
    refine ⟨separated ((leaves o).flatMap C) :: parts, ?_, ?_, by simp [h3]⟩
    · rw [meshItems, h4, h1]; rfl
    · simp [h2, separated, leavesItems]
end

/-- C101: `draw3d` draws the curves of all interfaces of a tree. -/
theorem C101_draws_all_3d (o : Optic F) {C : Iface F → List (List (V3 F))} (h : ∀ d ∈ leaves o, draw3dIface d = .ok (C d)) :
    draw3d o = .ok ((leaves o).flatMap C) := draw3d_leaves o h

/-- C101: `get3dmesh` returns the curves that `draw3d` draws, each followed by a NaN, if every interface has radii and no compound is
empty.  (Missing: trees with an interface that is not drawn.) -/
theorem C101_mesh_partial (o : Optic F) (hn : NoEmpty o) {C : Iface F → List (List (V3 F))} (h : ∀ d ∈ leaves o, draw3dIface d = .ok (C d))
    (hr : ∀ d ∈ leaves o, apertureRadii d.obscuration ≠ none) :
    ∃ curves, draw3d o = .ok curves ∧ get3dmesh o = .ok (some (separated curves)) :=
  ⟨_, draw3d_leaves o h, mesh_leaves o hn fun d hd => ⟨h d hd, hr d hd⟩⟩

/-- A compound with an interface that has no radius, like a detector without obscuration: `draw3d` leaves it out, `get3dmesh` raises. -/
theorem C101_mesh_violated (c : Comp F) {d : Iface F} (h : apertureRadii d.obscuration = none) :
    draw3d (.compound c [.iface d]) = .ok [] ∧ get3dmesh (.compound c [.iface d]) = .error .typeError := by
  obtain ⟨-, h1, h2⟩ := C101_not_drawn (fun _ => true) h 0
  constructor
  · simp [draw3d, draw3dItems, h1, bind, Except.bind, pure, Except.pure]
  · simp [get3dmesh, meshItems, h2, bind, Except.bind]

end trees

/-- The points over a circle. -/
noncomputable def ring (cs : CoordSys ℝ) (f : ℝ → ℝ → ℝ) (r : ℝ) : List (V3 Dbl) :=
  (List.range 100).map fun k : ℕ => (surfacePoint cs f (r * Real.cos ((k : ℝ) / 99 * (2 * Real.pi))) (r * Real.sin ((k : ℝ) / 99 * (2 * Real.pi)))).fin

/-- The points over a stretch of the y axis. -/
noncomputable def spokeY (cs : CoordSys ℝ) (f : ℝ → ℝ → ℝ) (a b : ℝ) : List (V3 Dbl) :=
  (List.range 50).map fun k : ℕ => (surfacePoint cs f 0 (a + (k : ℝ) / 49 * (b - a))).fin

/-- The points over a stretch of the x axis. -/
noncomputable def spokeX (cs : CoordSys ℝ) (f : ℝ → ℝ → ℝ) (a b : ℝ) : List (V3 Dbl) :=
  (List.range 50).map fun k : ℕ => (surfacePoint cs f (a + (k : ℝ) / 49 * (b - a)) 0).fin

theorem circle_fin {d : Iface Dbl} {cs : CoordSys ℝ} {f : ℝ → ℝ → ℝ} {ri ro : ℝ} (h : Shown d cs f ri ro) {r : ℝ} (h0 : 0 ≤ r) (h1 : r ≤ ro) :
    circle d (.fin r) = .ok (ring cs f r) := by
  have e : linspace (0 : Dbl) (2 * Arith.pi) 100 true = .ok ((List.range 100).map fun k : ℕ => Dbl.fin (0 + (k : ℝ) / (((100 : ℕ) : ℝ) - 1) * (2 * Real.pi - 0))) := by
    rw [Dbl.zero_dbl, Dbl.ofNat_dbl', Dbl.pi_def, Dbl.mul_fin]
    exact linspace_closed (n := 100) (by norm_num)
  unfold circle
  rw [e]
  simp only [bind, Except.bind, pure, Except.pure, List.map_map, ring, Except.ok.injEq]
  refine List.map_congr_left fun k _ => ?_
  have e2 : 0 + (k : ℝ) / (((100 : ℕ) : ℝ) - 1) * (2 * Real.pi - 0) = (k : ℝ) / 99 * (2 * Real.pi) := by norm_num
  rw [Function.comp_apply, e2]
  simp only [Dbl.cos_fin, Dbl.sin_fin, Dbl.mul_fin]
  refine place_fin h ?_
  generalize (k : ℝ) / 99 * (2 * Real.pi) = t
  have ht := Real.sin_sq_add_cos_sq t
  have e3 : r * Real.cos t * (r * Real.cos t) + r * Real.sin t * (r * Real.sin t) = r * r := by linear_combination r * r * ht
  rw [e3]
  exact mul_self_le_mul_self h0 h1

theorem stretch_bound {a b ro : ℝ} (ha : |a| ≤ ro) (hb : |b| ≤ ro) {k : ℕ} (hk : k < 50) :
    (a + (k : ℝ) / 49 * (b - a)) * (a + (k : ℝ) / 49 * (b - a)) ≤ ro * ro := by
  have hk' : (k : ℝ) ≤ 49 := by exact_mod_cast Nat.lt_succ_iff.1 hk
  have t0 : 0 ≤ (k : ℝ) / 49 := by positivity
  have t1 : (k : ℝ) / 49 ≤ 1 := by rw [div_le_one (by norm_num)]; exact hk'
  generalize (k : ℝ) / 49 = t at t0 t1
  obtain ⟨a1, a2⟩ := abs_le.1 ha
  obtain ⟨b1, b2⟩ := abs_le.1 hb
  have : |a + t * (b - a)| ≤ ro := by rw [abs_le]; constructor <;> nlinarith
  obtain ⟨c1, c2⟩ := abs_le.1 this
  nlinarith

theorem lineY_fin {d : Iface Dbl} {cs : CoordSys ℝ} {f : ℝ → ℝ → ℝ} {ri ro : ℝ} (h : Shown d cs f ri ro) {a b : ℝ} (ha : |a| ≤ ro) (hb : |b| ≤ ro) :
    lineY d (.fin a) (.fin b) = .ok (spokeY cs f a b) := by
  have e := linspace_closed (a := a) (b := b) (n := 50) (by norm_num)
  unfold lineY
  rw [show (50 : ℤ) = ((50 : ℕ) : ℤ) from rfl, e]
  simp only [bind, Except.bind, pure, Except.pure, List.map_map, spokeY, Except.ok.injEq]
  refine List.map_congr_left fun k hk => ?_
  rw [List.mem_range] at hk
  rw [Function.comp_apply, show ((50 : ℕ) : ℝ) - 1 = 49 by norm_num, Dbl.zero_dbl]
  refine place_fin h ?_
  have := stretch_bound ha hb hk
  linarith

theorem lineX_fin {d : Iface Dbl} {cs : CoordSys ℝ} {f : ℝ → ℝ → ℝ} {ri ro : ℝ} (h : Shown d cs f ri ro) {a b : ℝ} (ha : |a| ≤ ro) (hb : |b| ≤ ro) :
    lineX d (.fin a) (.fin b) = .ok (spokeX cs f a b) := by
  have e := linspace_closed (a := a) (b := b) (n := 50) (by norm_num)
  unfold lineX
  rw [show (50 : ℤ) = ((50 : ℕ) : ℤ) from rfl, e]
  simp only [bind, Except.bind, pure, Except.pure, List.map_map, spokeX, Except.ok.injEq]
  refine List.map_congr_left fun k hk => ?_
  rw [List.mem_range] at hk
  rw [Function.comp_apply, show ((50 : ℕ) : ℝ) - 1 = 49 by norm_num, Dbl.zero_dbl]
  refine place_fin h ?_
  have := stretch_bound ha hb hk
  linarith

/-- C101: `draw3d` of an interface draws the surface over the two circles (the inner one only if there is a hole) and over the axes
between them. -/
theorem C101_curves_3d {d : Iface Dbl} {cs : CoordSys ℝ} {f : ℝ → ℝ → ℝ} {ri ro : ℝ} (h : Shown d cs f ri ro) :
    draw3dIface d = .ok ((if ri = 0 then [] else [ring cs f ri]) ++
      [ring cs f ro, spokeY cs f (-ro) (-ri), spokeY cs f ri ro, spokeX cs f (-ro) (-ri), spokeX cs f ri ro]) := by
  have i0 := h.inner
  have i1 := h.outer
  have b1 : |ri| ≤ ro := by rw [abs_of_nonneg i0]; exact i1
  have b2 : |ro| ≤ ro := by rw [abs_of_nonneg (i0.trans i1)]
  have b3 : |(-ri)| ≤ ro := by rw [abs_neg]; exact b1
  have b4 : |(-ro)| ≤ ro := by rw [abs_neg]; exact b2
  unfold draw3dIface innerCircle
  rw [radii_eq, h.radii]
  simp only [Option.map_some, Dbl.neg_fin, circle_fin h i0 i1, circle_fin h (i0.trans i1) le_rfl, lineY_fin h b4 b3, lineY_fin h b1 b2,
    lineX_fin h b4 b3, lineX_fin h b1 b2, Dbl.zero_dbl, Dbl.eq_fin, bind, Except.bind, pure, Except.pure, decide_eq_true_eq]
  split_ifs <;> rfl

/-! ## Lenses -/

/-- C101: a lens without holes is filled by one polygon, along the first surface and back along the second to where it began. -/
theorem C101_lens_whole {planar : Surface Dbl → Bool} {d e : Iface Dbl} {cd ce : CoordSys ℝ} {f g : ℝ → ℝ → ℝ} {r r' : ℝ}
    (hd : Shown d cd f 0 r) (he : Shown e ce g 0 r') {n m : ℕ} (hn : sliceCount (planar d.surface) 0 = n) (hm : sliceCount (planar e.surface) 0 = m)
    (hn2 : 2 ≤ n) (hm2 : 2 ≤ m) :
    fillLens planar [.iface d, .iface e] =
      .ok [.fill (sampled cd f (-r) r (2 * n - 1) ++ (sampled ce g (-r') r' (2 * m - 1)).reverse ++ [profile cd f (-r)])] := by
  have e1 : (sampled cd f (-r) r (2 * n - 1)).take 1 = [profile cd f (-r)] := by
    obtain ⟨j, hj⟩ : ∃ j, 2 * n - 1 = j + 1 := ⟨2 * n - 2, by omega⟩
    rw [hj]
    simp [sampled, List.range_succ_eq_map]
  simp [fillLens, itemSlice, C101_slice_joined hd hn hn2, C101_slice_joined he hm hm2, bind, Except.bind, pure, Except.pure, between, e1]

/-- C101: one with holes in both surfaces by two polygons. -/
theorem C101_lens_holed {planar : Surface Dbl → Bool} {d e : Iface Dbl} {cd ce : CoordSys ℝ} {f g : ℝ → ℝ → ℝ} {i r i' r' : ℝ}
    (hd : Shown d cd f i r) (he : Shown e ce g i' r') (hi : i ≠ 0) (hi' : i' ≠ 0) {n m : ℕ} (hn : sliceCount (planar d.surface) 0 = n)
    (hm : sliceCount (planar e.surface) 0 = m) (hn2 : 2 ≤ n) (hm2 : 2 ≤ m) :
    fillLens planar [.iface d, .iface e] =
      .ok [.fill (sampled cd f (-r) (-i) n ++ (sampled ce g (-r') (-i') m).reverse ++ [profile cd f (-r)]),
           .fill (sampled cd f i r n ++ (sampled ce g i' r' m).reverse ++ [profile cd f i])] := by
  have e1 : ∀ a b, (sampled cd f a b n).take 1 = [profile cd f a] := by
    intro a b
    obtain ⟨j, hj⟩ : ∃ j, n = j + 1 := ⟨n - 1, by omega⟩
    rw [hj]
    simp [sampled, List.range_succ_eq_map]
  simp [fillLens, itemSlice, C101_slice_halves hd hi hn hn2, C101_slice_halves he hi' hm hm2, bind, Except.bind, pure, Except.pure, between, e1]

/-- If only the second surface has a hole, its right half is missing from the polygon. -/
theorem C101_lens_violated {planar : Surface Dbl → Bool} {d e : Iface Dbl} {cd ce : CoordSys ℝ} {f g : ℝ → ℝ → ℝ} {r i' r' : ℝ}
    (hd : Shown d cd f 0 r) (he : Shown e ce g i' r') (hi' : i' ≠ 0) {n m : ℕ} (hn : sliceCount (planar d.surface) 0 = n)
    (hm : sliceCount (planar e.surface) 0 = m) (hn2 : 2 ≤ n) (hm2 : 2 ≤ m) :
    fillLens planar [.iface d, .iface e] =
      .ok [.fill (sampled cd f (-r) r (2 * n - 1) ++ (sampled ce g (-r') (-i') m).reverse ++ [profile cd f (-r)])] := by
  have e1 : (sampled cd f (-r) r (2 * n - 1)).take 1 = [profile cd f (-r)] := by
    obtain ⟨j, hj⟩ : ∃ j, 2 * n - 1 = j + 1 := ⟨2 * n - 2, by omega⟩
    rw [hj]
    simp [sampled, List.range_succ_eq_map]
  simp [fillLens, itemSlice, C101_slice_joined hd hn hn2, C101_slice_halves he hi' hm hm2, bind, Except.bind, pure, Except.pure, between, e1]

/-! ## Concrete cases -/

/-- A concave mirror with a hole, seen through a clear annulus. -/
noncomputable def demoRim : Iface Dbl :=
  { demoMirror with
    surface := Surface.paraboloid (.fin 4)
    obscuration := some (.negation (.annulus (.fin 1) (.fin 3) (.fin 0) (.fin 0)))
    coordSys := (CoordSys.mk ⟨0, 0, 2⟩ M3.one).fin }

/-- The same without the hole. -/
noncomputable def demoDish : Iface Dbl := { demoRim with obscuration := some (.negation (.circle (.fin 3) (.fin 0) (.fin 0))) }

theorem demoRim_shown : Shown demoRim ⟨⟨0, 0, 2⟩, M3.one⟩ (fun x y => (x * x + y * y) / 8) 1 3 :=
  ⟨rfl, M3.orth_one, by simp [demoRim, apertureRadii], by norm_num, by norm_num, fun x y _ => by
    simp only [demoRim, Surface.paraboloid, Surface.paraboloidSag, Dbl.ofNat_dbl', Dbl.one_dbl, Dbl.zero_dbl, Dbl.mul_fin, Dbl.add_fin, Dbl.eq_fin]
    rw [if_neg (by norm_num), Dbl.div_fin (by norm_num), Dbl.div_fin (by norm_num), Dbl.mul_fin, Dbl.fin_inj]; ring⟩

theorem demoDish_shown : Shown demoDish ⟨⟨0, 0, 2⟩, M3.one⟩ (fun x y => (x * x + y * y) / 8) 0 3 :=
  ⟨rfl, M3.orth_one, by simp [demoDish, apertureRadii], le_rfl, by norm_num, demoRim_shown.height⟩

/-- The dish is drawn by 99 points, of which the first is at x = -3 on the surface. -/
example : ∃ c, getXZSlice (fun _ => false) demoDish 0 = .ok [c] ∧ c.length = 99 ∧ c.head? = some (.fin (-3), .fin (25 / 8)) := by
  refine ⟨_, C101_slice_joined demoDish_shown (n := 50) rfl (by norm_num), by simp [sampled], ?_⟩
  rw [sampled, show 2 * 50 - 1 = 98 + 1 from rfl, List.range_succ_eq_map (n := 98), List.map_cons, List.head?_cons, Option.some.injEq]
  simp only [profile, surfacePoint, CoordSys.toGlobal, M3.one, M3.mulVec, Prod.mk.injEq, Dbl.fin_inj]
  norm_num

example : getXZSlice (fun _ => false) demoRim 2 = .ok [[(.fin (-3), .fin (25 / 8)), (.fin (-1), .fin (17 / 8))], [(.fin 1, .fin (17 / 8)), (.fin 3, .fin (25 / 8))]] := by
  rw [C101_slice_halves demoRim_shown (by norm_num) (n := 2) rfl le_rfl]
  simp [sampled, List.range_succ, profile, surfacePoint, CoordSys.toGlobal, M3.one, M3.mulVec]
  norm_num

example : getXZSlice (fun _ => false) demoDish 1 = .error .assertionError := C101_one_point_violated demoDish_shown (by norm_num)

/-- The rim is open where it is drawn. -/
example : (Obsc.negation (.annulus (.fin 1) (.fin 3) (.fin 0) (.fin 0))).contains (Dbl.fin 2) (.fin 0) = false := by
  rw [C101_aperture_partial (.clearAnnulus 1 3) (ri := 1) (ro := 3) (by simp [apertureRadii]) (by norm_num), show (2 : ℝ) * 2 + 0 * 0 = 2 ^ 2 by norm_num,
    Real.sqrt_sq (by norm_num)]
  norm_num [isClear]

/-- A mirror with a hole and a detector without outline, drawn as a tree. -/
example : draw2d (fun _ => false) (some (.cls .mirror)) (demoComp "T" [.iface demoRim, demoComp "C" [.iface (demoFlat "D" 2), .iface demoDish]]) =
    .ok (linesOf (fun d => match getXZSlice (fun _ => false) d 0 with | .ok s => s | .error _ => []) [demoRim, demoDish]) := by
  have hr := C101_slice_halves (planar := fun _ => false) demoRim_shown (by norm_num) (nslice := 0) (n := 50) rfl (by norm_num)
  have hd := C101_slice_joined (planar := fun _ => false) demoDish_shown (nslice := 0) (n := 50) rfl (by norm_num)
  have hf := (C101_not_drawn (fun _ => false) (d := demoFlat "D" 2) rfl 0).1
  rw [demoComp, (C101_only_partial _ _ (S := fun d => match getXZSlice (fun _ => false) d 0 with | .ok s => s | .error _ => []) ?_).1 .mirror (by simp)]
  · simp [leavesItems, leaves, demoComp, subclass, ifaceCls, demoRim, demoDish, demoFlat, demoMirror]
  · simp [leavesItems, leaves, demoComp, hr, hd, hf]

example : draw3d (demoComp "C" [.iface (demoFlat "D" 2)]) = .ok [] ∧ get3dmesh (demoComp "C" [.iface (demoFlat "D" 2)]) = .error .typeError :=
  C101_mesh_violated _ rfl

example : ∃ curves, draw3d (demoComp "C" [.iface demoDish, .iface demoRim]) = .ok curves ∧ curves.length = 11 ∧
    get3dmesh (demoComp "C" [.iface demoDish, .iface demoRim]) = .ok (some (separated curves)) := by
  have h1 := C101_curves_3d demoDish_shown
  have h2 := C101_curves_3d demoRim_shown
  have h3 : ∀ d ∈ leaves (demoComp "C" [.iface demoDish, .iface demoRim]), d = demoDish ∨ d = demoRim := by
    simp [demoComp, leaves, leavesItems]
  obtain ⟨curves, e1, e2⟩ := C101_mesh_partial (demoComp "C" [.iface demoDish, .iface demoRim]) (by simp [demoComp, NoEmpty, NoEmptyItems])
    (C := fun d => match draw3dIface d with | .ok s => s | .error _ => [])
    (fun d hd => by rcases h3 d hd with rfl | rfl <;> simp only [h1, h2])
    (fun d hd => by rcases h3 d hd with rfl | rfl; exacts [by rw [demoDish_shown.radii]; simp, by rw [demoRim_shown.radii]; simp])
  refine ⟨curves, e1, ?_, e2⟩
  simp only [demoComp, draw3d, draw3dItems, h1, h2, bind, Except.bind, pure, Except.pure, Except.ok.injEq] at e1
  rw [← e1]
  simp

/-- Two dishes as a lens; a dish and a rim, of which the right half is missing. -/
example : (∃ c, fillLens (fun _ => false) [.iface demoDish, .iface demoDish] = .ok [.fill c] ∧ c.length = 199) ∧
    (∃ c, fillLens (fun _ => false) [.iface demoDish, .iface demoRim] = .ok [.fill c] ∧ c.length = 150) ∧
    (∃ c c', fillLens (fun _ => false) [.iface demoRim, .iface demoRim] = .ok [.fill c, .fill c']) :=
  ⟨⟨_, C101_lens_whole demoDish_shown demoDish_shown (n := 50) (m := 50) rfl rfl (by norm_num) (by norm_num), by simp [sampled]⟩,
   ⟨_, C101_lens_violated demoDish_shown demoRim_shown (by norm_num) (n := 50) (m := 50) rfl rfl (by norm_num) (by norm_num), by simp [sampled]⟩,
   ⟨_, _, C101_lens_holed demoRim_shown demoRim_shown (by norm_num) (by norm_num) (n := 50) (m := 50) rfl rfl (by norm_num) (by norm_num)⟩⟩

end Batoid.Props
