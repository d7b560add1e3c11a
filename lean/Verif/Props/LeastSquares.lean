import Verif.Zernike
import Verif.Props.Rays
import Mathlib.Analysis.InnerProductSpace.Projection.Basic
import Mathlib.Analysis.InnerProductSpace.Projection.FiniteDimensional
import Mathlib.Analysis.InnerProductSpace.PiL2
import Mathlib.LinearAlgebra.Matrix.Rank
import Mathlib.LinearAlgebra.Pi

/-!
# What `np.linalg.lstsq` is trusted to do

The contract of `lstsq` in exact arithmetic, a proof that it can be met, and its consequences for fits (C87).
-/

namespace Batoid.Props
open Batoid Batoid.Analysis

/-- The sum of the squared residuals. -/
def misfit {m n : ℕ} (A : Matrix (Fin m) (Fin n) ℝ) (b : Fin m → ℝ) (x : Fin n → ℝ) : ℝ := ∑ i, (b i - (A.mulVec x) i) ^ 2

/-- `x` is the shortest of the vectors with the least misfit. -/
def IsSolution {m n : ℕ} (A : Matrix (Fin m) (Fin n) ℝ) (b : Fin m → ℝ) (x : Fin n → ℝ) : Prop :=
  (∀ y, misfit A b x ≤ misfit A b y) ∧ ∀ y, misfit A b y ≤ misfit A b x → ∑ j, x j ^ 2 ≤ ∑ j, y j ^ 2

/-- A vector as a list of doubles. -/
def vecOf {n : ℕ} (x : Fin n → ℝ) : List Dbl := List.ofFn fun j => Dbl.fin (x j)

/-- The rows of a matrix as lists of doubles. -/
def rowsOf {m n : ℕ} (A : Matrix (Fin m) (Fin n) ℝ) : List (List Dbl) := List.ofFn fun i => vecOf (A i)

/-- The contract: the second result is the rank, the first one the shortest least squares solution. -/
def LeastSquares (lstsq : Lstsq Dbl) : Prop :=
  ∀ (m n : ℕ) (A : Matrix (Fin m) (Fin n) ℝ) (b : Fin m → ℝ), (lstsq (rowsOf A) (vecOf b)).2 = A.rank ∧
    (0 < m → ∃ x, (lstsq (rowsOf A) (vecOf b)).1 = vecOf x ∧ IsSolution A b x)

theorem vecOf_inj {n : ℕ} {x y : Fin n → ℝ} (h : vecOf x = vecOf y) : x = y := by
  have h := List.ofFn_injective h
  funext j
  have := congrFun h j
  simpa using this

theorem vecOf_length {n : ℕ} (x : Fin n → ℝ) : (vecOf x).length = n := by simp [vecOf]

theorem rowsOf_inj {m n : ℕ} {A B : Matrix (Fin m) (Fin n) ℝ} (h : rowsOf A = rowsOf B) : A = B := by
  have h := List.ofFn_injective h
  funext i
  exact vecOf_inj (congrFun h i)

/-! ## The contract can be met -/

theorem misfit_norm {m n : ℕ} (A : Matrix (Fin m) (Fin n) ℝ) (b : Fin m → ℝ) (x : Fin n → ℝ) :
    misfit A b x = ‖WithLp.toLp 2 b - Matrix.toEuclideanLin A (WithLp.toLp 2 x)‖ ^ 2 := by
  rw [EuclideanSpace.norm_sq_eq]
  simp [misfit]

theorem exists_solution {m n : ℕ} (A : Matrix (Fin m) (Fin n) ℝ) (b : Fin m → ℝ) : ∃ x, IsSolution A b x := by
  set L := Matrix.toEuclideanLin A
  set v : EuclideanSpace ℝ (Fin m) := WithLp.toLp 2 b
  obtain ⟨x0, hx0⟩ : (LinearMap.range L).starProjection v ∈ LinearMap.range L := Submodule.starProjection_apply_mem _ _
  have hbest : ∀ y, ‖v - L x0‖ ≤ ‖v - L y‖ := by
    intro y
    rw [hx0, Submodule.starProjection_minimal]
    exact ciInf_le ⟨0, by rintro _ ⟨_, rfl⟩; exact norm_nonneg _⟩ (⟨L y, y, rfl⟩ : LinearMap.range L)
  set k := (LinearMap.ker L).starProjection x0
  have hk : L k = 0 := Submodule.starProjection_apply_mem (LinearMap.ker L) x0
  have hx : L (x0 - k) = L x0 := by rw [map_sub, hk, sub_zero]
  refine ⟨(x0 - k).ofLp, fun y => ?_, fun y hy => ?_⟩
  · rw [misfit_norm, misfit_norm, WithLp.toLp_ofLp, hx]
    exact pow_le_pow_left₀ (norm_nonneg _) (hbest _) 2
  · rw [misfit_norm, misfit_norm, WithLp.toLp_ofLp, hx] at hy
    set z : EuclideanSpace ℝ (Fin n) := WithLp.toLp 2 y
    have hy' : ‖v - L z‖ ≤ ‖v - L x0‖ := (pow_le_pow_iff_left₀ (norm_nonneg _) (norm_nonneg _) two_ne_zero).1 hy
    -- Pythagoras: the images agree
    have horth : inner ℝ (v - L x0) (L x0 - L z) = 0 := by
      rw [hx0]
      exact Submodule.starProjection_inner_eq_zero _ _ (by rw [← hx0]; exact ⟨x0 - z, by rw [map_sub]⟩)
    have hpy : ‖v - L z‖ ^ 2 = ‖v - L x0‖ ^ 2 + ‖L x0 - L z‖ ^ 2 := by
      have : v - L z = (v - L x0) + (L x0 - L z) := by abel
      rw [this, norm_add_sq_real, horth]
      ring
    have himg : L x0 = L z := by
      have : ‖L x0 - L z‖ ^ 2 ≤ 0 := by nlinarith [pow_le_pow_left₀ (norm_nonneg _) hy' 2]
      have h0 : ‖L x0 - L z‖ = 0 := by nlinarith [norm_nonneg (L x0 - L z)]
      exact sub_eq_zero.1 (norm_eq_zero.1 h0)
    have hker : z - (x0 - k) ∈ LinearMap.ker L := by
      rw [LinearMap.mem_ker, map_sub, hx, himg, sub_self]
    have horth2 : inner ℝ (x0 - k) (z - (x0 - k)) = 0 := Submodule.starProjection_inner_eq_zero _ _ hker
    have hpy2 : ‖z‖ ^ 2 = ‖x0 - k‖ ^ 2 + ‖z - (x0 - k)‖ ^ 2 := by
      have : z = (x0 - k) + (z - (x0 - k)) := by abel
      conv_lhs => rw [this]
      rw [norm_add_sq_real, horth2]
      ring
    have h1 : ‖x0 - k‖ ^ 2 = ∑ j, ((x0 - k).ofLp j) ^ 2 := by rw [EuclideanSpace.norm_sq_eq]; simp
    have h2 : ‖z‖ ^ 2 = ∑ j, y j ^ 2 := by rw [EuclideanSpace.norm_sq_eq]; simp [z]
    rw [← h1, ← h2]
    nlinarith [sq_nonneg ‖z - (x0 - k)‖]

/-- The contract is not empty. -/
theorem leastSquares_exists : ∃ lstsq, LeastSquares lstsq := by
  classical
  have key : ∀ (rows : List (List Dbl)) (rhs : List Dbl), ∃ r : List Dbl × ℕ, ∀ (m n : ℕ) (A : Matrix (Fin m) (Fin n) ℝ) (b : Fin m → ℝ),
      rowsOf A = rows → vecOf b = rhs → r.2 = A.rank ∧ (0 < m → ∃ x, r.1 = vecOf x ∧ IsSolution A b x) := by
    intro rows rhs
    by_cases h : ∃ (m n : ℕ) (A : Matrix (Fin m) (Fin n) ℝ) (b : Fin m → ℝ), rowsOf A = rows ∧ vecOf b = rhs
    · obtain ⟨m, n, A, b, rfl, rfl⟩ := h
      obtain ⟨x, hx⟩ := exists_solution A b
      refine ⟨(vecOf x, A.rank), fun m' n' A' b' hA hb => ?_⟩
      obtain rfl : m' = m := by have := congrArg List.length hA; simpa [rowsOf] using this
      rcases Nat.eq_zero_or_pos m' with rfl | hm
      · refine ⟨?_, fun h => absurd h (lt_irrefl 0)⟩
        have h1 := A.rank_le_height
        have h2 := A'.rank_le_height
        simp only at *
        omega
      · obtain rfl : n' = n := by
          have := congrArg (fun l => (l.headD []).length) hA
          obtain ⟨k, rfl⟩ : ∃ k, m' = k + 1 := ⟨m' - 1, by omega⟩
          simpa [rowsOf, vecOf_length, List.ofFn_succ] using this
        obtain rfl := rowsOf_inj hA
        obtain rfl := vecOf_inj hb
        exact ⟨rfl, fun _ => ⟨x, rfl, hx⟩⟩
    · exact ⟨([], 0), fun m n A b h1 h2 => absurd ⟨m, n, A, b, h1, h2⟩ h⟩
  choose f hf using key
  exact ⟨f, fun m n A b => hf _ _ m n A b rfl rfl⟩

/-! ## Consequences -/

/-- The columns that are not known to be zero are independent. -/
def IndependentCols {m n : ℕ} (A : Matrix (Fin m) (Fin n) ℝ) (zero : Fin n → Prop) : Prop :=
  ∀ c : Fin n → ℝ, A.mulVec c = 0 → ∀ j, ¬ zero j → c j = 0

/-- The rank tells whether they are. -/
theorem rank_independent {m n : ℕ} {A : Matrix (Fin m) (Fin n) ℝ} {zero : Fin n → Prop} [DecidablePred zero]
    (hz : ∀ i j, zero j → A i j = 0) :
    IndependentCols A zero ↔ n - (Finset.univ.filter zero).card ≤ A.rank := by
  set U : Submodule ℝ (Fin n → ℝ) := ⨅ j ∈ {j | ¬ zero j}, LinearMap.ker (LinearMap.proj j : (Fin n → ℝ) →ₗ[ℝ] ℝ)
  have hmem : ∀ c, c ∈ U ↔ ∀ j, ¬ zero j → c j = 0 := by
    intro c
    simp [U, Submodule.mem_iInf]
  have hU : U ≤ LinearMap.ker A.mulVecLin := by
    intro c hc
    rw [hmem] at hc
    rw [LinearMap.mem_ker, Matrix.mulVecLin_apply]
    funext i
    simp only [Matrix.mulVec, dotProduct, Pi.zero_apply]
    refine Finset.sum_eq_zero fun j _ => ?_
    by_cases h : zero j
    · rw [hz i j h, zero_mul]
    · rw [hc j h, mul_zero]
  have hdim : Module.finrank ℝ U = (Finset.univ.filter zero).card := by
    have e := (LinearMap.iInfKerProjEquiv ℝ (fun _ : Fin n => ℝ) (I := {j | zero j}) (J := {j | ¬ zero j})
      (Set.disjoint_left.2 fun j h h' => h' h) (fun j _ => by by_cases h : zero j <;> simp [h])).finrank_eq
    rw [e, Module.finrank_pi, ← Fintype.card_subtype]
    rfl
  have hnull := A.mulVecLin.finrank_range_add_finrank_ker
  have hr : A.rank = Module.finrank ℝ (LinearMap.range A.mulVecLin) := rfl
  rw [Module.finrank_fin_fun] at hnull
  have h1 : IndependentCols A zero ↔ LinearMap.ker A.mulVecLin ≤ U := by
    refine ⟨fun h c hc => (hmem c).2 (h c hc), fun h c hc => (hmem c).1 (h hc)⟩
  have hle := Submodule.finrank_mono hU
  have hcard : (Finset.univ.filter zero).card ≤ n := by
    have := Finset.card_filter_le (Finset.univ : Finset (Fin n)) zero
    simpa using this
  rw [h1]
  constructor
  · intro h
    have := Submodule.finrank_mono h
    omega
  · intro h
    have : Module.finrank ℝ (LinearMap.ker A.mulVecLin) ≤ Module.finrank ℝ U := by omega
    exact (Submodule.eq_of_le_of_finrank_le hU this).ge

/-- If the right hand side is a combination of the columns, a solution has its coefficients. -/
theorem solution_recovers {m n : ℕ} {A : Matrix (Fin m) (Fin n) ℝ} {zero : Fin n → Prop} (hi : IndependentCols A zero) {b : Fin m → ℝ}
    {x a : Fin n → ℝ} (hx : IsSolution A b x) (ha : A.mulVec a = b) : ∀ j, ¬ zero j → x j = a j := by
  have h0 : misfit A b x = 0 := by
    refine le_antisymm ?_ (Finset.sum_nonneg fun i _ => sq_nonneg _)
    refine (hx.1 a).trans ?_
    rw [misfit, ha]
    simp
  have h1 : A.mulVec (x - a) = 0 := by
    rw [Matrix.mulVec_sub, ha, sub_eq_zero]
    funext i
    have := (Finset.sum_eq_zero_iff_of_nonneg fun i _ => sq_nonneg _).1 h0 i (Finset.mem_univ i)
    have := pow_eq_zero_iff (two_ne_zero) |>.1 this
    linarith
  intro j hj
  have := hi _ h1 j hj
  simpa [sub_eq_zero] using this

/-- Where a column is zero, so is the solution. -/
theorem solution_zero {m n : ℕ} {A : Matrix (Fin m) (Fin n) ℝ} {b : Fin m → ℝ} {x : Fin n → ℝ} (hx : IsSolution A b x) {j : Fin n}
    (hj : ∀ i, A i j = 0) : x j = 0 := by
  classical
  have e : A.mulVec (Function.update x j 0) = A.mulVec x := by
    funext i
    simp only [Matrix.mulVec, dotProduct]
    refine Finset.sum_congr rfl fun k _ => ?_
    by_cases h : k = j
    · subst h; rw [hj i]; simp
    · rw [Function.update_of_ne h]
  have h := hx.2 (Function.update x j 0) (by rw [misfit, misfit, e])
  rw [← Finset.add_sum_erase _ _ (Finset.mem_univ j), ← Finset.add_sum_erase _ (fun k => (Function.update x j 0) k ^ 2) (Finset.mem_univ j)] at h
  have e2 : ∑ k ∈ Finset.univ.erase j, (Function.update x j 0) k ^ 2 = ∑ k ∈ Finset.univ.erase j, x k ^ 2 :=
    Finset.sum_congr rfl fun k hk => by rw [Function.update_of_ne (Finset.ne_of_mem_erase hk)]
  rw [e2] at h
  simp only [Function.update_self] at h
  have : x j ^ 2 ≤ 0 := by linarith
  exact pow_eq_zero_iff two_ne_zero |>.1 (le_antisymm this (sq_nonneg _))

end Batoid.Props
