import Verif.Fan
import Verif.Props.GridRays

/-!
# Property C104: fans of rays

The specification vocabulary: `lineSpec` and `fanSpec`, the points on the two axes of the stop; `PlaneWave` is that of C43.
-/

namespace Batoid.Props
open Batoid Arith Construct

/-- `n` points a distance `s` apart, the middle one at zero; none if there were only one. -/
noncomputable def lineSpec (n : ℕ) (s : ℝ) : List ℝ :=
  if n ≤ 1 then [] else (List.range n).map fun i : ℕ => ((i : ℝ) - ((n / 2 : ℕ) : ℝ)) * s

/-- The points of a fan along x, and those of a fan along y. -/
noncomputable def fanSpec (nx ny : ℕ) (sx sy : ℝ) : List (ℝ × ℝ) :=
  (lineSpec nx sx).map (fun x => (x, 0)) ++ (lineSpec ny sy).map (fun y => (0, y))

section
variable {a : Args Dbl} {surf : Surface Dbl} {stop cs : CoordSys ℝ} {n w back : ℝ} {d : V3 ℝ}

theorem gridSpec_row {nx : ℕ} (h : 1 < nx) (s t : ℝ) : gridSpec nx 1 (s, 0) (0, t) = (lineSpec nx s).map fun x => (x, 0) := by
  unfold gridSpec lineSpec
  rw [if_neg (by omega), List.map_map]
  simp [List.range_succ, Function.comp_def]

theorem gridSpec_column {ny : ℕ} (h : 1 < ny) (s t : ℝ) : gridSpec 1 ny (s, 0) (0, t) = (lineSpec ny t).map fun y => (0, y) := by
  unfold gridSpec lineSpec
  rw [if_neg (by omega), List.map_map, List.map_eq_flatMap]
  refine congrArg (fun f => List.flatMap f (List.range ny)) (funext fun j => ?_)
  simp

/-- Two plane waves of one direction after each other are a plane wave. -/
theorem PlaneWave.append {p₁ p₂ : List (ℝ × ℝ)} {f₁ f₂ : List ℝ} {r₁ r₂ : RayVec Dbl} (hn : 0 < n)
    (h₁ : PlaneWave surf stop cs n w back d p₁ f₁ r₁) (h₂ : PlaneWave surf stop cs n w back d p₂ f₂ r₂) (hf : f₁.length = p₁.length) :
    PlaneWave surf stop cs n w back d (p₁ ++ p₂) (f₁ ++ f₂) ⟨r₁.rays ++ r₂.rays, r₁.coordSys⟩ := by
  refine ⟨h₁.frame, by simp [h₁.size, h₂.size], ?_⟩
  obtain ⟨v, ⟨c, hc, e⟩, hv, hr⟩ := h₁.rays
  obtain ⟨v', ⟨c', hc', e'⟩, hv', hr'⟩ := h₂.rays
  have hvv : v' = v := by
    have h1 : c ^ 2 * V3.normSq d = (1 / n) ^ 2 := by rw [← hv, e]; simp only [V3.normSq, V3.dot, V3.smulR]; ring
    have h2 : c' ^ 2 * V3.normSq d = (1 / n) ^ 2 := by rw [← hv', e']; simp only [V3.normSq, V3.dot, V3.smulR]; ring
    have h3 : V3.normSq d ≠ 0 := by
      intro h0
      rw [h0, mul_zero] at h1
      have : (0 : ℝ) < (1 / n) ^ 2 := by positivity
      linarith
    have h4 : c' ^ 2 = c ^ 2 := mul_right_cancel₀ h3 (h2.trans h1.symm)
    have h5 : c' = c := (pow_left_inj₀ hc'.le hc.le two_ne_zero).1 h4
    rw [e, e', h5]
  subst hvv
  refine ⟨v', ⟨c', hc', e'⟩, hv', fun i p f hp hfi => ?_⟩
  by_cases hi : i < p₁.length
  · rw [List.getElem?_append_left hi] at hp
    rw [List.getElem?_append_left (hf ▸ hi)] at hfi
    rw [List.getElem?_append_left (h₁.size ▸ hi)]
    exact hr i p f hp hfi
  · rw [List.getElem?_append_right (by omega)] at hp
    rw [List.getElem?_append_right (by omega), hf] at hfi
    rw [List.getElem?_append_right (by have := h₁.size; omega), h₁.size]
    exact hr' _ p f hp hfi

theorem lineSpec_length (n : ℕ) (s : ℝ) : (lineSpec n s).length = if n ≤ 1 then 0 else n := by
  unfold lineSpec
  split_ifs <;> simp

/-- The parts of a fan joined. -/
theorem asFan_joined (hn : 0 < n) {nx ny : ℕ} (hne : 1 < nx ∨ 1 < ny) {sx sy flux : ℝ} {g : GridArgs Dbl} (hgx : g.nx = some (nx : ℤ)) (hgy : g.ny = some (ny : ℤ))
    (hx : 1 < nx → ∃ rv, asGrid a { g with nx := some (nx : ℤ), ny := some 1 } none (Dbl.fin flux) = .ok (some rv) ∧
      PlaneWave surf stop cs n w back d ((lineSpec nx sx).map fun x => (x, 0)) (List.replicate nx flux) rv)
    (hy : 1 < ny → ∃ rv, asGrid a { g with nx := some 1, ny := some (ny : ℤ) } none (Dbl.fin flux) = .ok (some rv) ∧
      PlaneWave surf stop cs n w back d ((lineSpec ny sy).map fun y => (0, y)) (List.replicate ny flux) rv) :
    ∃ rv, asFan a g (Dbl.fin flux) = .ok rv ∧
      PlaneWave surf stop cs n w back d (fanSpec nx ny sx sy) (List.replicate (fanSpec nx ny sx sy).length flux) rv := by
  unfold asFan fanPart fanSpec
  rw [hgx, hgy]
  by_cases h1 : 1 < nx <;> by_cases h2 : 1 < ny
  · obtain ⟨r1, e1, w1⟩ := hx h1
    obtain ⟨r2, e2, w2⟩ := hy h2
    refine ⟨⟨r1.rays ++ r2.rays, r1.coordSys⟩, ?_, ?_⟩
    · simp [h1, h2, e1, e2, Except.map, bind, Except.bind, present, RayVec.concatenate, List.mapM_cons, List.mapM_nil, pure, Except.pure]
    · rw [List.length_append, List.length_map, List.length_map, lineSpec_length, lineSpec_length, if_neg (by omega), if_neg (by omega), List.replicate_add]
      exact w1.append hn w2 (by rw [List.length_replicate, List.length_map, lineSpec_length, if_neg (by omega)])
  · obtain ⟨r1, e1, w1⟩ := hx h1
    refine ⟨r1, ?_, ?_⟩
    · simp [h1, h2, e1, Except.map, bind, Except.bind, present, RayVec.concatenate, List.mapM_cons, List.mapM_nil, pure, Except.pure]
    · have : lineSpec ny sy = [] := if_pos (by omega)
      rw [this, List.map_nil, List.append_nil, List.length_map, lineSpec_length, if_neg (by omega)]
      exact w1
  · obtain ⟨r2, e2, w2⟩ := hy h2
    refine ⟨r2, ?_, ?_⟩
    · simp [h1, h2, e2, Except.map, bind, Except.bind, present, RayVec.concatenate, List.mapM_cons, List.mapM_nil, pure, Except.pure]
    · have : lineSpec nx sx = [] := if_pos (by omega)
      rw [this, List.map_nil, List.nil_append, List.length_map, lineSpec_length, if_neg (by omega)]
      exact w2
  · omega

/-- C104 (lengths): `asFan(nx=, ny=, lx=, ly=)` is a plane wave through `nx` points evenly spread on the x axis of the stop followed by `ny` points
on the y axis; a number of one or less leaves its part out. -/
theorem C104_length_partial (h : LegalCall a surf stop cs n w back d) {nx ny : ℕ} (hne : 1 < nx ∨ 1 < ny) {lx : ℝ} {ly : Option ℝ}
    (hs : OnSurface surf (fanSpec nx ny (lx / axisCells nx) (ly.getD lx / axisCells ny))) (dy : Option (Ext Dbl)) (flux : ℝ) :
    ∃ rv, asFan a ⟨some (nx : ℤ), some (ny : ℤ), none, dy, some (.num (Dbl.fin lx)), ly.map fun y => .num (Dbl.fin y)⟩ (Dbl.fin flux) = .ok rv ∧
      PlaneWave surf stop cs n w back d (fanSpec nx ny (lx / axisCells nx) (ly.getD lx / axisCells ny))
        (List.replicate (fanSpec nx ny (lx / axisCells nx) (ly.getD lx / axisCells ny)).length flux) rv := by
  refine asFan_joined h.n hne rfl rfl (fun h1 => ?_) (fun h2 => ?_)
  · have e := gridSpec_row h1 (lx / axisCells nx) (ly.getD lx / axisCells 1)
    have := C42_length h (nx := nx) (ny := some 1) (lx := lx) (ly := ly) (by omega) (by simp)
      (by simp only [Option.getD_some]; rw [e]; exact fun p hp => hs p (List.mem_append_left _ hp)) dy flux
    simp only [Option.getD_some, e, mul_one] at this
    exact this
  · have e := gridSpec_column h2 (lx / axisCells 1) (ly.getD lx / axisCells ny)
    have := C42_length h (nx := 1) (ny := some ny) (lx := lx) (ly := ly) (by omega) (by simp; omega)
      (by simp only [Option.getD_some]; rw [e]; exact fun p hp => hs p (List.mem_append_right _ hp)) dy flux
    simp only [Option.getD_some, e, one_mul] at this
    exact this

/-- C104 (spacing; all numbers except two): the points are the given distances apart. -/
theorem C104_spacing_partial (h : LegalCall a surf stop cs n w back d) {nx ny : ℕ} (hne : 1 < nx ∨ 1 < ny) (hx2 : nx ≠ 2) (hy2 : ny ≠ 2) {dx : ℝ} {dy : Option ℝ}
    (hs : OnSurface surf (fanSpec nx ny dx (dy.getD dx))) (ly : Option (Ext Dbl)) (flux : ℝ) :
    ∃ rv, asFan a ⟨some (nx : ℤ), some (ny : ℤ), some (.num (Dbl.fin dx)), dy.map fun y => .num (Dbl.fin y), none, ly⟩ (Dbl.fin flux) = .ok rv ∧
      PlaneWave surf stop cs n w back d (fanSpec nx ny dx (dy.getD dx)) (List.replicate (fanSpec nx ny dx (dy.getD dx)).length flux) rv := by
  refine asFan_joined h.n hne rfl rfl (fun h1 => ?_) (fun h2 => ?_)
  · have e := gridSpec_row h1 dx (dy.getD dx)
    have := C42_spacing_partial h (nx := nx) (ny := some 1) (dx := dx) (dy := dy) (by omega) (by simp) hx2 (by simp)
      (by simp only [Option.getD_some]; rw [e]; exact fun p hp => hs p (List.mem_append_left _ hp)) ly flux
    simp only [Option.getD_some, e, mul_one] at this
    exact this
  · have e := gridSpec_column h2 dx (dy.getD dx)
    have := C42_spacing_partial h (nx := 1) (ny := some ny) (dx := dx) (dy := dy) (by omega) (by simp; omega) (by omega) (by simpa using hy2)
      (by simp only [Option.getD_some]; rw [e]; exact fun p hp => hs p (List.mem_append_right _ hp)) ly flux
    simp only [Option.getD_some, e, one_mul] at this
    exact this

end

section
variable {F : Type} [Arith F]

/-- C104 (the pupil of the optic is the length of the fan if no length or spacing is given). -/
theorem C104_pupil (a : Args F) (o : OpticAttrs F) (p : F) (ho : a.optic = some o) (hp : o.pupilSize = some p) (nx ny : Option ℤ)
    (dy ly : Option (Ext F)) (flux : F) :
    asFan a ⟨nx, ny, none, dy, none, ly⟩ flux = asFan a ⟨nx, ny, none, dy, some (.num p), ly⟩ flux := by
  unfold asFan fanPart
  cases nx <;> cases ny <;> simp only [C42_pupil a o p ho hp _ _ none dy ly (.inr rfl)]

/-- Both numbers are needed, although their default is `None`. -/
theorem C104_default_violated (a : Args F) (g : GridArgs F) (flux : F) (h : g.nx = none ∨ g.ny = none) (rv : RayVec F) : asFan a g flux ≠ .ok rv := by
  unfold asFan fanPart
  intro e
  rcases h with h | h
  · rw [h] at e
    simp [bind, Except.bind] at e
  · rw [h] at e
    revert e
    simp only [bind, Except.bind]
    split <;> simp

/-- A fan of one point is not made at all. -/
theorem C104_single_violated (a : Args F) (dx dy lx ly : Option (Ext F)) (flux : F) :
    asFan a ⟨some 1, some 1, dx, dy, lx, ly⟩ flux = .error .valueError := rfl

end

theorem fanSpec_centre {nx ny : ℕ} (hx : 1 < nx) (hy : 1 < ny) (sx sy : ℝ) :
    (fanSpec nx ny sx sy)[nx / 2]? = some (0, 0) ∧ (fanSpec nx ny sx sy)[nx + ny / 2]? = some (0, 0) := by
  have l1 : ((lineSpec nx sx).map fun x => (x, (0 : ℝ))).length = nx := by rw [List.length_map, lineSpec_length, if_neg (by omega)]
  have mid : ∀ {k : ℕ} (s : ℝ), 1 < k → (lineSpec k s)[k / 2]? = some 0 := by
    intro k s hk
    unfold lineSpec
    rw [if_neg (by omega), List.getElem?_map, List.getElem?_range (by omega)]
    simp
  unfold fanSpec
  constructor
  · rw [List.getElem?_append_left (by rw [l1]; omega), List.getElem?_map, mid sx hx]
    rfl
  · rw [List.getElem?_append_right (by rw [l1]; omega), l1, Nat.add_sub_cancel_left, List.getElem?_map, mid sy hy]
    rfl

/-- Rays of a plane wave through the same point are the same. -/
theorem PlaneWave.unique {surf : Surface Dbl} {stop cs : CoordSys ℝ} {n w back : ℝ} {d : V3 ℝ} {pts : List (ℝ × ℝ)} {flux : List ℝ} {rv : RayVec Dbl}
    (hn : 0 < n) (hstop : stop.rot.Orth) (hcs : cs.rot.Orth) (h : PlaneWave surf stop cs n w back d pts flux rv) {i j : ℕ} {p : ℝ × ℝ} {f : ℝ}
    (hi : pts[i]? = some p) (hj : pts[j]? = some p) (hfi : flux[i]? = some f) (hfj : flux[j]? = some f) :
    ∃ ray, rv.rays[i]? = some ray ∧ rv.rays[j]? = some ray := by
  obtain ⟨v, -, hv, hr⟩ := h.rays
  obtain ⟨r, z, T, e1, e2, e3, e4⟩ := hr i p f hi hfi
  obtain ⟨r', z', T', e1', e2', e3', e4'⟩ := hr j p f hj hfj
  have hz : z' = z := by rw [e3] at e3'; exact (Dbl.fin_inj.1 e3').symm
  subst hz
  have hq : r + v.smulR T = r' + v.smulR T' := by
    have h1 := congrArg stop.toGlobal (e4.trans e4'.symm)
    rw [CoordSys.toGlobal_toLocal hstop, CoordSys.toGlobal_toLocal hstop] at h1
    have h2 := congrArg cs.toLocal h1
    rwa [CoordSys.toLocal_toGlobal hcs, CoordSys.toLocal_toGlobal hcs] at h2
  have hx := congrArg V3.x hq
  have hy := congrArg V3.y hq
  have hz := congrArg V3.z hq
  simp only [V3.add_x, V3.add_y, V3.add_z, V3.smulR] at hx hy hz
  have hd : V3.dot r v = V3.dot r' v := mul_left_cancel₀ hn.ne' (e2.trans e2'.symm)
  have hT : T = T' := by
    have : (T - T') * V3.normSq v = 0 := by
      simp only [V3.normSq, V3.dot] at hd ⊢
      linear_combination v.x * hx + v.y * hy + v.z * hz - hd
    rw [hv] at this
    rcases mul_eq_zero.1 this with h0 | h0
    · linarith
    · have : (0 : ℝ) < (1 / n) ^ 2 := by positivity
      linarith
  subst hT
  have hrr : r = r' := V3.ext (by linarith) (by linarith) (by linarith)
  subst hrr
  exact ⟨_, e1, e1'⟩

/-- The central ray of a fan in both directions is in the bundle twice. -/
theorem C104_centre_violated {a : Args Dbl} {surf : Surface Dbl} {stop cs : CoordSys ℝ} {n w back : ℝ} {d : V3 ℝ} (h : LegalCall a surf stop cs n w back d)
    {nx ny : ℕ} (hx : 1 < nx) (hy : 1 < ny) {lx : ℝ} {ly : Option ℝ}
    (hs : OnSurface surf (fanSpec nx ny (lx / axisCells nx) (ly.getD lx / axisCells ny))) (dy : Option (Ext Dbl)) (flux : ℝ) :
    ∃ rv ray, asFan a ⟨some (nx : ℤ), some (ny : ℤ), none, dy, some (.num (Dbl.fin lx)), ly.map fun y => .num (Dbl.fin y)⟩ (Dbl.fin flux) = .ok rv ∧
      rv.rays[nx / 2]? = some ray ∧ rv.rays[nx + ny / 2]? = some ray := by
  obtain ⟨rv, e, hw⟩ := C104_length_partial h (.inl hx) hs dy flux
  obtain ⟨c1, c2⟩ := fanSpec_centre hx hy (lx / axisCells nx) (ly.getD lx / axisCells ny)
  have hl : ∀ {i : ℕ} {p : ℝ × ℝ}, (fanSpec nx ny (lx / axisCells nx) (ly.getD lx / axisCells ny))[i]? = some p →
      (List.replicate (fanSpec nx ny (lx / axisCells nx) (ly.getD lx / axisCells ny)).length flux)[i]? = some flux := by
    intro i p hi
    rw [List.getElem?_replicate, if_pos (List.getElem?_eq_some_iff.1 hi).1]
  obtain ⟨ray, r1, r2⟩ := hw.unique h.n h.stop h.cs c1 c2 (hl c1) (hl c2)
  exact ⟨rv, ray, e, r1, r2⟩

/-- A fan of five rays along x and four along y. -/
example : ∃ rv, asFan straightArgs ⟨some 5, some 4, none, none, some (.num (Dbl.fin 8)), none⟩ (Dbl.fin 1) = .ok rv ∧ rv.rays.length = 9 := by
  obtain ⟨rv, h1, h2⟩ := C104_length_partial straight_legal (nx := 5) (ny := 4) (lx := 8) (ly := none) (by omega) (plane_onSurface _) none 1
  refine ⟨rv, h1, ?_⟩
  rw [h2.size, fanSpec, List.length_append, List.length_map, List.length_map, lineSpec_length, lineSpec_length]
  norm_num

/-- The same with a spacing. -/
example : ∃ rv, asFan straightArgs ⟨some 5, some 4, some (.num (Dbl.fin 2)), none, none, none⟩ (Dbl.fin 1) = .ok rv ∧ rv.rays.length = 9 := by
  obtain ⟨rv, h1, h2⟩ := C104_spacing_partial straight_legal (nx := 5) (ny := 4) (dx := 2) (dy := none) (by omega) (by omega) (by omega) (plane_onSurface _) none 1
  refine ⟨rv, h1, ?_⟩
  rw [h2.size, fanSpec, List.length_append, List.length_map, List.length_map, lineSpec_length, lineSpec_length]
  norm_num

end Batoid.Props
