import Verif.Props.Symmetry
import Verif.Props.MalusChief
import Verif.Props.Bicubic

/-!
# Symmetric polynomial surfaces (C99)

Zernike surfaces and other polynomials.  Specification: the polynomial takes the same value at a point and at its image.
That the *normals* correspond follows by differentiating this identity.
-/

namespace Batoid.Props
open Batoid Batoid.Surface Finset

/-- The polynomial of a surface with sizes `rows x cols` centred at `x0`, `y0` is unchanged by `G`. -/
def PolyInvariant (G : M3 ℝ) (a : ℕ → ℕ → ℝ) (rows cols : ℕ) (x0 y0 : ℝ) : Prop :=
  ∀ w : V3 ℝ, polyValue a rows cols ((G.mulVec w).x - x0) ((G.mulVec w).y - y0) = polyValue a rows cols (w.x - x0) (w.y - y0)

/-! ## Slopes of an invariant function -/

/-- If a function of the plane is unchanged by `G`, its slopes at the image of a point are the image of its slopes. -/
theorem slopes_turn {G : M3 ℝ} (hG : Axial G) {f gx gy : ℝ × ℝ → ℝ}
    (hd : ∀ q, HasFDerivAt f (gx q • ContinuousLinearMap.fst ℝ ℝ ℝ + gy q • ContinuousLinearMap.snd ℝ ℝ ℝ) q)
    (hf : ∀ w : V3 ℝ, f ((G.mulVec w).x, (G.mulVec w).y) = f (w.x, w.y)) (w : V3 ℝ) :
    gx ((G.mulVec w).x, (G.mulVec w).y) = (G.mulVec ⟨gx (w.x, w.y), gy (w.x, w.y), 0⟩).x ∧
    gy ((G.mulVec w).x, (G.mulVec w).y) = (G.mulVec ⟨gx (w.x, w.y), gy (w.x, w.y), 0⟩).y := by
  have hx : HasDerivAt (fun u : ℝ => f (u, w.y)) (gx (w.x, w.y)) w.x := by
    have := HasFDerivAt.comp_hasDerivAt (f := fun u : ℝ => (u, w.y)) w.x (hd (w.x, w.y)) ((hasDerivAt_id' w.x).prodMk (hasDerivAt_const w.x w.y))
    exact this.congr_deriv (by simp)
  have hy : HasDerivAt (fun u : ℝ => f (w.x, u)) (gy (w.x, w.y)) w.y := by
    have := HasFDerivAt.comp_hasDerivAt (f := fun u : ℝ => (w.x, u)) w.y (hd (w.x, w.y)) ((hasDerivAt_const w.y w.x).prodMk (hasDerivAt_id' w.y))
    exact this.congr_deriv (by simp)
  have cx : HasDerivAt (fun u : ℝ => ((G.mulVec ⟨u, w.y, w.z⟩).x, (G.mulVec ⟨u, w.y, w.z⟩).y)) (G.m11, G.m21) w.x := by
    simp only [M3.mulVec]
    exact ((((hasDerivAt_id' w.x).const_mul G.m11).add_const _).add_const _).prodMk ((((hasDerivAt_id' w.x).const_mul G.m21).add_const _).add_const _)
      |>.congr_deriv (by simp)
  have cy : HasDerivAt (fun u : ℝ => ((G.mulVec ⟨w.x, u, w.z⟩).x, (G.mulVec ⟨w.x, u, w.z⟩).y)) (G.m12, G.m22) w.y := by
    simp only [M3.mulVec]
    exact ((((hasDerivAt_id' w.y).const_mul G.m12).const_add _).add_const _).prodMk ((((hasDerivAt_id' w.y).const_mul G.m22).const_add _).add_const _)
      |>.congr_deriv (by simp)
  have hx' : HasDerivAt (fun u : ℝ => f (u, w.y)) (G.m11 * gx ((G.mulVec w).x, (G.mulVec w).y) + G.m21 * gy ((G.mulVec w).x, (G.mulVec w).y)) w.x := by
    have := HasFDerivAt.comp_hasDerivAt (f := fun u : ℝ => ((G.mulVec ⟨u, w.y, w.z⟩).x, (G.mulVec ⟨u, w.y, w.z⟩).y)) w.x
      (hd ((G.mulVec w).x, (G.mulVec w).y)) cx
    have e : (f ∘ fun u : ℝ => ((G.mulVec ⟨u, w.y, w.z⟩).x, (G.mulVec ⟨u, w.y, w.z⟩).y)) = fun u => f (u, w.y) := by
      funext u; exact hf ⟨u, w.y, w.z⟩
    rw [e] at this
    refine this.congr_deriv ?_
    simp; ring
  have hy' : HasDerivAt (fun u : ℝ => f (w.x, u)) (G.m12 * gx ((G.mulVec w).x, (G.mulVec w).y) + G.m22 * gy ((G.mulVec w).x, (G.mulVec w).y)) w.y := by
    have := HasFDerivAt.comp_hasDerivAt (f := fun u : ℝ => ((G.mulVec ⟨w.x, u, w.z⟩).x, (G.mulVec ⟨w.x, u, w.z⟩).y)) w.y
      (hd ((G.mulVec w).x, (G.mulVec w).y)) cy
    have e : (f ∘ fun u : ℝ => ((G.mulVec ⟨w.x, u, w.z⟩).x, (G.mulVec ⟨w.x, u, w.z⟩).y)) = fun u => f (w.x, u) := by
      funext u; exact hf ⟨w.x, u, w.z⟩
    rw [e] at this
    refine this.congr_deriv ?_
    simp; ring
  rw [hx.unique hx', hy.unique hy']
  generalize gx ((G.mulVec w).x, (G.mulVec w).y) = a
  generalize gy ((G.mulVec w).x, (G.mulVec w).y) = b
  obtain ⟨⟨h1, h2, h3, h4, h5, h6⟩, e1, e2, e3, e4, e5⟩ := hG
  rw [e3] at h1 h4; rw [e4] at h2 h4
  -- columns are orthonormal; so are the rows
  have hdet : (G.m11 * G.m22 - G.m12 * G.m21) ^ 2 = 1 := by nlinarith
  have r1 : G.m11 * G.m11 + G.m12 * G.m12 = 1 := by
    have : (G.m11 * G.m22 - G.m12 * G.m21) ^ 2 * (G.m11 * G.m11 + G.m12 * G.m12 - 1) = 0 := by
      have k1 : G.m11 * G.m11 = 1 - G.m21 * G.m21 := by linarith
      have k2 : G.m12 * G.m12 = 1 - G.m22 * G.m22 := by linarith
      have k4 : G.m11 * G.m12 = - (G.m21 * G.m22) := by linarith
      have : G.m21 * G.m21 + G.m22 * G.m22 = 1 := by
        have t : (G.m11 * G.m12) * (G.m11 * G.m12) = (G.m21 * G.m22) * (G.m21 * G.m22) := by rw [k4]; ring
        have t2 : (G.m11 * G.m11) * (G.m12 * G.m12) = (G.m21 * G.m21) * (G.m22 * G.m22) := by linarith
        rw [k1, k2] at t2
        linarith
      rw [hdet]; linarith
    rw [hdet] at this; linarith
  have r2 : G.m21 * G.m21 + G.m22 * G.m22 = 1 := by linarith
  have r4 : G.m11 * G.m21 + G.m12 * G.m22 = 0 := by
    have : (G.m11 * G.m21 + G.m12 * G.m22) ^ 2 = 0 := by
      have t : (G.m11 * G.m11) * (G.m21 * G.m21) = (1 - G.m12 * G.m12) * (1 - G.m22 * G.m22) := by
        rw [show G.m11 * G.m11 = 1 - G.m12 * G.m12 by linarith, show G.m21 * G.m21 = 1 - G.m22 * G.m22 by linarith]
      have t2 : (G.m11 * G.m12) * (G.m21 * G.m22) = - ((G.m21 * G.m22) * (G.m21 * G.m22)) := by
        rw [show G.m11 * G.m12 = - (G.m21 * G.m22) by linarith]; ring
      have t3 : (G.m21 * G.m21) * (G.m22 * G.m22) = (1 - G.m22 * G.m22) * (G.m22 * G.m22) := by
        rw [show G.m21 * G.m21 = 1 - G.m22 * G.m22 by linarith]
      have t4 : (G.m12 * G.m12) = 1 - G.m22 * G.m22 := by linarith
      nlinarith
    exact pow_eq_zero_iff (two_ne_zero) |>.1 this
  simp only [M3.mulVec]
  constructor
  · linear_combination (-a) * r1 - b * r4
  · linear_combination (-b) * r2 - a * r4

/-- The normals of turned slopes are turned. -/
theorem unitNormal_turn {G : M3 ℝ} (hG : Axial G) (gx gy : ℝ) :
    unitNormal (G.mulVec ⟨gx, gy, 0⟩).x (G.mulVec ⟨gx, gy, 0⟩).y = G.mulVec (unitNormal gx gy) := by
  have h := hG.planar ⟨gx, gy, 0⟩ ⟨gx, gy, 0⟩
  unfold unitNormal
  rw [show 1 + (G.mulVec ⟨gx, gy, 0⟩).x * (G.mulVec ⟨gx, gy, 0⟩).x + (G.mulVec ⟨gx, gy, 0⟩).y * (G.mulVec ⟨gx, gy, 0⟩).y
    = 1 + gx * gx + gy * gy by linarith]
  generalize 1 / Real.sqrt (1 + gx * gx + gy * gy) = n
  ext
  · simp [M3.mulVec, hG.m13]; ring
  · simp [M3.mulVec, hG.m23]; ring
  · simp [M3.mulVec, hG.m31, hG.m32, hG.m33]

/-! ## Undefined positions -/

theorem horner_nan (coefs : ℕ → Dbl) {n : ℕ} (hn : 0 < n) {x : Dbl} (hx : ¬ x.IsFin) : Surface.horner x coefs n = .nan := by
  have key : ∀ (l : List ℕ), l ≠ [] → l.foldr (fun i (res : Dbl) => res * x + coefs i) (Dbl.fin 0) = .nan := by
    intro l
    induction l with
    | nil => simp
    | cons i l ih =>
      intro _
      rw [List.foldr_cons]
      have : l.foldr (fun i (res : Dbl) => res * x + coefs i) (Dbl.fin 0) * x = .nan := by
        by_cases hl : l = []
        · subst hl
          rcases x with _ | _ | _ | t
          · simp
          · simp [HMul.hMul, Mul.mul, Dbl.mul, Dbl.infMul]
          · simp [HMul.hMul, Mul.mul, Dbl.mul, Dbl.infMul]
          · exact absurd ⟨t, rfl⟩ hx
        · rw [ih hl, Dbl.nan_mul]
      rw [this, Dbl.nan_add]
  unfold Surface.horner
  rw [Dbl.zero_dbl]
  exact key _ (by simp; omega)

theorem horner2d_nan (coefs : ℕ → Dbl) {nx ny : ℕ} (hn : 0 < nx) (hm : 0 < ny) {x y : Dbl} (h : ¬ (x.IsFin ∧ y.IsFin)) :
    Surface.horner2d x y coefs nx ny = .nan := by
  by_cases hy : y.IsFin
  · exact horner_nan (fun i => Surface.horner y (fun j => coefs (i * nx + j)) nx) hm fun hx => h ⟨hx, hy⟩
  · unfold Surface.horner2d
    obtain ⟨m, rfl⟩ : ∃ m, ny = m + 1 := ⟨ny - 1, by omega⟩
    rw [List.range_succ_eq_map, List.foldr_cons, horner_nan _ hn hy, Dbl.add_nan]

theorem horner2d_no_rows (coefs : ℕ → Dbl) (nx : ℕ) (x y : Dbl) : Surface.horner2d x y coefs nx 0 = .fin 0 := by
  simp [Surface.horner2d]

theorem not_fin_sub_right {a : Dbl} (b : ℝ) (h : ¬ a.IsFin) : ¬ (a - Dbl.fin b).IsFin := by
  rcases a with _ | _ | _ | t
  · simp
  · rintro ⟨q, hq⟩; simp [HSub.hSub, Sub.sub, Dbl.sub, Dbl.add, Dbl.neg] at hq
  · rintro ⟨q, hq⟩; simp [HSub.hSub, Sub.sub, Dbl.sub, Dbl.add, Dbl.neg] at hq
  · exact absurd ⟨t, rfl⟩ h

theorem poly_curved {p : PolyData Dbl} {x0 y0 : ℝ} (hx : p.xorigin = .fin x0) (hy : p.yorigin = .fin y0)
    (h1 : 0 < p.xsize) (h2 : 0 < p.ysize) : Curved (polySag p) := by
  intro x y h
  unfold polySag
  refine horner2d_nan _ h1 h2 ?_
  rw [hx, hy]
  rintro ⟨a, b⟩
  refine h ⟨?_, ?_⟩
  · by_contra hc; exact not_fin_sub_right x0 hc a
  · by_contra hc; exact not_fin_sub_right y0 hc b

/-! ## Polynomial surfaces -/

theorem poly_slopes {p : PolyData Dbl} {a : ℕ → ℕ → ℝ} {x0 y0 : ℝ} (hl : NoLostTerms a p.ysize p.xsize) (q : ℝ × ℝ) :
    HasFDerivAt (fun p' : ℝ × ℝ => polyValue a p.ysize p.xsize (p'.1 - x0) (p'.2 - y0))
      (polyValue (fun i j => (i + 1) * a (i + 1) j) (p.ysize - 1) (p.xsize - 1) (q.1 - x0) (q.2 - y0) • ContinuousLinearMap.fst ℝ ℝ ℝ
        + polyValue (fun i j => (j + 1) * a i (j + 1)) (p.ysize - 1) (p.xsize - 1) (q.1 - x0) (q.2 - y0) • ContinuousLinearMap.snd ℝ ℝ ℝ) q := by
  have hf := polyValue_differentiable a p.ysize p.xsize x0 y0 q
  have hx : HasDerivAt (fun u => polyValue a p.ysize p.xsize (u - x0) (q.2 - y0))
      (polyValue (fun i j => (i + 1) * a (i + 1) j) (p.ysize - 1) (p.xsize - 1) (q.1 - x0) (q.2 - y0)) q.1 := by
    rw [polyValue_drop_col (fun i j => (i + 1) * a (i + 1) j) _ _ _ _ (by
      intro i hi; rw [hl.x i (by omega), mul_zero])]
    have := deriv_x a p.ysize p.xsize (q.1 - x0) (q.2 - y0)
    have hs : HasDerivAt (fun u : ℝ => u - x0) 1 q.1 := HasDerivAt.sub_const x0 (hasDerivAt_id' q.1)
    exact (HasDerivAt.comp q.1 (h₂ := fun u => polyValue a p.ysize p.xsize u (q.2 - y0)) (h := fun u => u - x0) this hs).congr_deriv
      (by ring)
  have hy : HasDerivAt (fun u => polyValue a p.ysize p.xsize (q.1 - x0) (u - y0))
      (polyValue (fun i j => (j + 1) * a i (j + 1)) (p.ysize - 1) (p.xsize - 1) (q.1 - x0) (q.2 - y0)) q.2 := by
    rw [polyValue_drop_row (fun i j => (j + 1) * a i (j + 1)) _ _ _ _ (by
      intro j hj; rw [hl.y j (by omega), mul_zero])]
    have := deriv_y a p.ysize p.xsize (q.1 - x0) (q.2 - y0)
    have hs : HasDerivAt (fun u : ℝ => u - y0) 1 q.2 := HasDerivAt.sub_const y0 (hasDerivAt_id' q.2)
    exact (HasDerivAt.comp q.2 (h₂ := fun u => polyValue a p.ysize p.xsize (q.1 - x0) u) (h := fun u => u - y0) this hs).congr_deriv
      (by ring)
  refine hf.hasFDerivAt.congr_fderiv ?_
  have h1 : HasDerivAt (fun u => polyValue a p.ysize p.xsize (u - x0) (q.2 - y0)) _ q.1 :=
    HasFDerivAt.comp_hasDerivAt (f := fun u : ℝ => (u, q.2)) q.1 hf.hasFDerivAt ((hasDerivAt_id' q.1).prodMk (hasDerivAt_const q.1 q.2))
  have h2 : HasDerivAt (fun u => polyValue a p.ysize p.xsize (q.1 - x0) (u - y0)) _ q.2 :=
    HasFDerivAt.comp_hasDerivAt (f := fun u : ℝ => (q.1, u)) q.2 hf.hasFDerivAt ((hasDerivAt_const q.2 q.1).prodMk (hasDerivAt_id' q.2))
  ext
  · simpa using h1.unique hx
  · simpa using h2.unique hy

/-- What `PolynomialSurface` reports, for a polynomial `a` of which the gradient arrays lose no term. -/
structure HoldsPolynomial (p : PolyData Dbl) (a : ℕ → ℕ → ℝ) (x0 y0 : ℝ) : Prop where
  coefs : HoldsCoefs p a
  gradients : HoldsGradients p a
  terms : NoLostTerms a p.ysize p.xsize
  xorigin : p.xorigin = .fin x0
  yorigin : p.yorigin = .fin y0
  xsize : 0 < p.xsize
  ysize : 0 < p.ysize

theorem poly_normal_fin {p : PolyData Dbl} {a : ℕ → ℕ → ℝ} {x0 y0 : ℝ} (h : HoldsPolynomial p a x0 y0) (x y : ℝ) :
    polyNormal p (.fin x) (.fin y) =
      (unitNormal (polyValue (fun i j => (i + 1) * a (i + 1) j) (p.ysize - 1) (p.xsize - 1) (x - x0) (y - y0))
        (polyValue (fun i j => (j + 1) * a i (j + 1)) (p.ysize - 1) (p.xsize - 1) (x - x0) (y - y0))).fin := by
  refine polyNormal_fin ?_ ?_
  · rw [h.xorigin, h.yorigin, Dbl.sub_fin, Dbl.sub_fin, horner2d_fin h.gradients.x]
  · rw [h.xorigin, h.yorigin, Dbl.sub_fin, Dbl.sub_fin, horner2d_fin h.gradients.y]

theorem poly_normal_nan (p : PolyData Dbl) :
    polyNormal p .nan .nan = (unitNormal 0 0).fin ∨
      ((polyNormal p .nan .nan).x = .nan ∧ (polyNormal p .nan .nan).y = .nan ∧ (polyNormal p .nan .nan).z = .nan) := by
  by_cases hy : p.ysize - 1 = 0
  · left
    refine polyNormal_fin ?_ ?_ <;> rw [hy, horner2d_no_rows]
  · right
    have key : ∀ c : ℕ → Dbl, Surface.horner2d (Dbl.nan - p.xorigin) (Dbl.nan - p.yorigin) c (p.xsize - 1) (p.ysize - 1) = .nan := by
      intro c
      have hx : ¬ (Dbl.nan - p.xorigin).IsFin := by
        rintro ⟨q, hq⟩; simp [HSub.hSub, Sub.sub, Dbl.sub, Dbl.add] at hq
      exact horner_nan (fun i => Surface.horner (Dbl.nan - p.yorigin) (fun j => c (i * (p.xsize - 1) + j)) (p.xsize - 1)) (by omega) hx
    unfold polyNormal
    rw [key, key]
    simp

/-- C99: a polynomial surface whose polynomial is unchanged by `G` is unchanged in height and normal. -/
theorem poly_shape {G : M3 ℝ} (hG : Axial G) {p : PolyData Dbl} {a : ℕ → ℕ → ℝ} {x0 y0 : ℝ} (h : HoldsPolynomial p a x0 y0)
    (hi : PolyInvariant G a p.ysize p.xsize x0 y0) : SymShape G (polySag p) (polyNormal p) := by
  refine ⟨fun w => ?_, fun q hq => ?_, fun q w hq hw => ?_⟩
  · have e := fun x y => C25_sag h.coefs h.xorigin h.yorigin x y
    change polySag p _ _ = polySag p _ _
    rw [show polySag p (.fin (G.mulVec w).x) (.fin (G.mulVec w).y) = _ from e _ _, show polySag p (.fin w.x) (.fin w.y) = _ from e _ _, hi w]
  · rcases hq with ⟨w, rfl⟩ | rfl
    · left
      rw [M3.fin_mulVec]
      simp only [V3.fin_x, V3.fin_y, poly_normal_fin h]
      refine ⟨_, rfl, ?_⟩
      have := slopes_turn hG (f := fun p' : ℝ × ℝ => polyValue a p.ysize p.xsize (p'.1 - x0) (p'.2 - y0))
        (fun q => poly_slopes h.terms q) hi w
      simp only at this
      rw [this.1, this.2, unitNormal_turn hG]
    · rw [mulVec_nan]
      rcases poly_normal_nan p with e | ⟨e1, e2, e3⟩
      · left
        refine ⟨_, e, ?_⟩
        rw [e, ← unitNormal_turn hG]
        congr 2 <;> simp [M3.mulVec]
      · exact .inr ⟨e1, e2, rfl⟩
  · have pos : ∀ gx gy : ℝ, 0 < (unitNormal gx gy).z := fun gx gy => one_div_pos.2 (Real.sqrt_pos.2 (slope_pos gx gy))
    rcases hq with ⟨u, rfl⟩ | rfl
    · rw [V3.fin_x, V3.fin_y, poly_normal_fin h] at hw
      rw [← V3.fin_inj.1 hw]; exact pos _ _
    · rcases poly_normal_nan p with e | ⟨e1, _, _⟩
      · simp only at hw
        rw [e] at hw
        rw [← V3.fin_inj.1 hw]; exact pos _ _
      · simp only at hw
        rw [hw] at e1
        simp at e1

/-- C99: such a surface is met by turned rays at turned points. -/
theorem sym_polynomial {G : M3 ℝ} (hG : Axial G) {p : PolyData Dbl} {a : ℕ → ℕ → ℝ} {x0 y0 : ℝ} (h : HoldsPolynomial p a x0 y0)
    (hi : PolyInvariant G a p.ysize p.xsize x0 y0) : SymSurface G (polynomial p) :=
  ⟨fun _ _ hr hv dt n => newton_turn hG (poly_shape hG h hi) (poly_curved h.xorigin h.yorigin h.xsize h.ysize) hr hv dt n,
    fun _ _ hr hv dt n => newton_meets (poly_curved h.xorigin h.yorigin h.xsize h.ysize) hr hv dt n,
    (poly_shape hG h hi).normal⟩

/-- Normals of polynomial surfaces are unit vectors pointing up. -/
theorem upright_polynomial {p : PolyData Dbl} {a : ℕ → ℕ → ℝ} {x0 y0 : ℝ} (h : HoldsPolynomial p a x0 y0) : Upright (polynomial p) := by
  intro q w hq hw
  have unit : ∀ gx gy : ℝ, IsUnit' (unitNormal gx gy) ∧ 0 < (unitNormal gx gy).z := fun gx gy =>
    ⟨unitNormal_unit gx gy, one_div_pos.2 (Real.sqrt_pos.2 (slope_pos gx gy))⟩
  change polyNormal p _ _ = _ at hw
  rcases hq with ⟨u, rfl⟩ | rfl
  · rw [V3.fin_x, V3.fin_y, poly_normal_fin h] at hw
    rw [← V3.fin_inj.1 hw]; exact unit _ _
  · simp only at hw
    rcases poly_normal_nan p with e | ⟨e1, _, _⟩
    · rw [e] at hw
      rw [← V3.fin_inj.1 hw]; exact unit _ _
    · rw [hw] at e1
      simp at e1

/-! ## Which polynomials -/

/-- Only even powers of `y`: mirror image in the plane `y = 0`. -/
theorem invariant_flipY {a : ℕ → ℕ → ℝ} {rows cols : ℕ} (x0 : ℝ) (h : ∀ i < rows, ∀ j < cols, ¬ Even j → a i j = 0) :
    PolyInvariant flipY a rows cols x0 0 := by
  intro w
  unfold polyValue
  refine sum_congr rfl fun i hi => sum_congr rfl fun j hj => ?_
  simp only [flipY, M3.mulVec]
  by_cases hj' : Even j
  · rw [show (0 * w.x + -1 * w.y + 0 * w.z - 0 : ℝ) = -(w.y - 0) by ring, hj'.neg_pow]
    congr 3; ring
  · rw [h i (mem_range.1 hi) j (mem_range.1 hj) hj']; ring

/-- Only terms of even degree: half a turn about the axis. -/
theorem invariant_half_turn {a : ℕ → ℕ → ℝ} {rows cols : ℕ} (h : ∀ i < rows, ∀ j < cols, ¬ Even (i + j) → a i j = 0) :
    PolyInvariant (spin Real.pi) a rows cols 0 0 := by
  intro w
  unfold polyValue
  refine sum_congr rfl fun i hi => sum_congr rfl fun j hj => ?_
  simp only [spin, M3.mulVec, Real.cos_pi, Real.sin_pi]
  by_cases hj' : Even (i + j)
  · rw [show (-1 * w.x + -0 * w.y + 0 * w.z - 0 : ℝ) = -1 * (w.x - 0) by ring, show (0 * w.x + -1 * w.y + 0 * w.z - 0 : ℝ) = -1 * (w.y - 0) by ring,
      mul_pow, mul_pow, show a i j * ((-1) ^ i * (w.x - 0) ^ i) * ((-1) ^ j * (w.y - 0) ^ j) = ((-1) ^ (i + j)) * (a i j * (w.x - 0) ^ i * (w.y - 0) ^ j) by ring,
      hj'.neg_one_pow, one_mul]
  · rw [h i (mem_range.1 hi) j (mem_range.1 hj) hj']; ring

/-- A polynomial in the distance from the axis only (defocus, spherical aberration, ...): every symmetry. -/
theorem invariant_round {G : M3 ℝ} (hG : Axial G) {a : ℕ → ℕ → ℝ} {rows cols : ℕ} {g : ℝ → ℝ}
    (h : ∀ x y, polyValue a rows cols x y = g (x * x + y * y)) : PolyInvariant G a rows cols 0 0 := by
  intro w
  rw [h, h]
  simp only [sub_zero]
  rw [hG.planar]

/-! ## Concrete cases -/

/-- `1 / 8 + (x^2 + y^2) / 4 - (x^2 + y^2)^2 / 100` as a coefficient array of shape 5 x 5. -/
noncomputable def demoRound (i j : ℕ) : ℝ :=
  if i = 0 ∧ j = 0 then 1 / 8 else if i = 2 ∧ j = 0 then 1 / 4 else if i = 0 ∧ j = 2 then 1 / 4
  else if i = 4 ∧ j = 0 then -1 / 100 else if i = 2 ∧ j = 2 then -2 / 100 else if i = 0 ∧ j = 4 then -1 / 100 else 0

/-- `x / 3 + x y^2 / 5`: no rotational symmetry, but a mirror image. -/
noncomputable def demoComa (i j : ℕ) : ℝ := if i = 1 ∧ j = 0 then 1 / 3 else if i = 1 ∧ j = 2 then 1 / 5 else 0

/-- The arrays that `Zernike.__init__` hands over for coefficients `a` of shape `n x n` (batoid/surface.py, `Zernike`). -/
noncomputable def demoZern (a : ℕ → ℕ → ℝ) (n : ℕ) (x0 : ℝ) : PolyData Dbl where
  coefs k := .fin (a (k / n) (k % n))
  gradx k := .fin ((k / (n - 1) + 1 : ℕ) * a (k / (n - 1) + 1) (k % (n - 1)))
  grady k := .fin ((k % (n - 1) + 1 : ℕ) * a (k / (n - 1)) (k % (n - 1) + 1))
  xorigin := .fin x0
  yorigin := .fin 0
  xsize := n
  ysize := n

theorem demoZern_poly {a : ℕ → ℕ → ℝ} {n : ℕ} (hn : 0 < n) (ht : Triangular a n) (x0 : ℝ) : HoldsPolynomial (demoZern a n x0) a x0 0 where
  coefs := by
    intro i _ j hj
    simp only [demoZern] at hj ⊢
    rw [show (i * n + j) / n = i by rw [mul_comm, Nat.mul_add_div (by omega), Nat.div_eq_of_lt hj, add_zero],
      show (i * n + j) % n = j by rw [mul_comm, Nat.mul_add_mod, Nat.mod_eq_of_lt hj]]
  gradients := by
    constructor <;>
    · intro i _ j hj
      simp only [demoZern] at hj ⊢
      rw [show (i * (n - 1) + j) / (n - 1) = i by rw [mul_comm, Nat.mul_add_div (by omega), Nat.div_eq_of_lt hj, add_zero],
        show (i * (n - 1) + j) % (n - 1) = j by rw [mul_comm, Nat.mul_add_mod, Nat.mod_eq_of_lt hj]]
      push_cast; rfl
  terms := C25_no_term_lost ht
  xorigin := rfl
  yorigin := rfl
  xsize := hn
  ysize := hn

/-- A round polynomial surface has every symmetry. -/
example {G : M3 ℝ} (hG : Axial G) : SymSurface G (polynomial (demoZern demoRound 5 0)) := by
  refine sym_polynomial hG (demoZern_poly (by norm_num) ?_ 0)
    (invariant_round hG (g := fun t => 1 / 8 + t / 4 - t ^ 2 / 100) fun x y => ?_)
  · intro i j h
    unfold demoRound
    split_ifs <;> first | rfl | omega
  · simp only [demoZern, polyValue, sum_range_succ, sum_range_zero, demoRound]
    norm_num
    ring

/-- A comatic one has the mirror image, also when displaced in the plane of symmetry. -/
example (x0 : ℝ) : SymSurface flipY (polynomial (demoZern demoComa 4 x0)) := by
  refine sym_polynomial axial_flipY (demoZern_poly (by norm_num) ?_ x0) (invariant_flipY x0 fun i _ j _ h => ?_)
  · intro i j h
    unfold demoComa
    split_ifs <;> first | rfl | omega
  · unfold demoComa
    split_ifs with h1 h2
    · exact absurd (by simp [h1.2]) h
    · exact absurd (by simp [h2.2]) h
    · rfl

/-! ## Tables -/

/-- C99 fails for tabulated surfaces: however symmetric the samples, a table over a symmetric range is defined on the lower
edge and undefined on the upper one. -/
theorem C99_bicubic_violated {T : Table Dbl} {x0 y0 dx dy : ℝ} {z zx zy zxy : ℕ → ℕ → ℝ} (g : Grid T x0 y0 dx dy z zx zy zxy)
    (hn : T.useNan = true) (hx : 2 ≤ T.nx) (hy : 2 ≤ T.ny) (hs : y0 = -(y0 + ((T.ny : ℝ) - 1) * dy)) :
    (∃ h, (bicubic T).sag (.fin x0) (.fin y0) = .fin h) ∧ (bicubic T).sag (.fin x0) (.fin (-y0)) = .nan ∧
      ¬ SymSurface flipY (bicubic T) := by
  have hnx : (2 : ℝ) ≤ T.nx := by exact_mod_cast hx
  have hny : (2 : ℝ) ≤ T.ny := by exact_mod_cast hy
  have c1 : Covered T.nx x0 dx x0 := ⟨le_rfl, by nlinarith [g.dx_pos]⟩
  have c2 : Covered T.ny y0 dy y0 := ⟨le_rfl, by nlinarith [g.dy_pos]⟩
  have c3 : ¬ (Covered T.nx x0 dx x0 ∧ Covered T.ny y0 dy (-y0)) := by rintro ⟨_, _, h⟩; linarith
  have hin := C26_finite_inside g c1 c2
  have hout := (C26_outside g c3).1 hn
  refine ⟨⟨_, hin.1⟩, hout.1, fun hsym => ?_⟩
  have hp := hsym.normal (V3.fin ⟨x0, y0, 0⟩) (tame_fin _)
  rw [M3.fin_mulVec] at hp
  simp only [V3.fin_x, V3.fin_y, flipY, M3.mulVec] at hp
  rw [show (0 * x0 + -1 * y0 + 0 * 0 : ℝ) = -y0 by ring, show (1 * x0 + 0 * y0 + 0 * 0 : ℝ) = x0 by ring, hout.2] at hp
  rcases hp with ⟨w, _, hw⟩ | ⟨_, _, hw⟩
  · have := congrArg V3.x hw; simp at this
  · have := congrArg V3.z hw
    simp only [bicubic, bicubicNormal, hin.2] at this
    have hp := slope_pos (slopeX T x0 y0) (slopeY T x0 y0)
    simp [Dbl.sqrt_fin hp.le, Dbl.div_fin (Real.sqrt_pos.2 hp).ne'] at this

/-- A flat table over the square from -1 to 1. -/
example : ¬ SymSurface flipY (bicubic (Table.ofGrid (.fin (-1)) (.fin (-1 + ((3 - 1 : ℕ) : ℝ) * 1)) (.fin (-1)) (.fin (-1 + ((3 - 1 : ℕ) : ℝ) * 1)) 3 3
    (fun j i => .fin (bilinear 0 0 0 0 (-1 + i * 1) (-1 + j * 1))) true)) := by
  refine (C99_bicubic_violated (ofGrid_grid (by norm_num) (by norm_num) (by norm_num) (by norm_num) _ true (fun j _ i _ => rfl))
    rfl (by simp [Table.ofGrid]) (by simp [Table.ofGrid]) ?_).2.2
  simp [Table.ofGrid]; norm_num

end Batoid.Props
