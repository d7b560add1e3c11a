import Verif.Props.Normals
import Mathlib.Topology.LocallyFinite
import Mathlib.Topology.Algebra.Ring.Real
import Mathlib.Tactic.Ring

/-!
# Bicubic tables (C26, C27)

The specification speaks of the tabulated numbers at the grid nodes, of continuity and of derivatives in the sense of
analysis.
-/

namespace Batoid.Props
open Batoid Batoid.Surface Topology Filter Set

/-- A table with finite entries on a grid `x0 + i dx`, `y0 + j dy`; `z i j` is the value at column `i`, row `j`. -/
structure Grid (T : Table Dbl) (x0 y0 dx dy : ℝ) (z zx zy zxy : ℕ → ℕ → ℝ) : Prop where
  hx0 : T.x0 = .fin x0
  hy0 : T.y0 = .fin y0
  hdx : T.dx = .fin dx
  hdy : T.dy = .fin dy
  dx_pos : 0 < dx
  dy_pos : 0 < dy
  hz : ∀ j < T.ny, ∀ i < T.nx, T.z (T.nx * j + i) = .fin (z i j)
  hzx : ∀ j < T.ny, ∀ i < T.nx, T.dzdx (T.nx * j + i) = .fin (zx i j)
  hzy : ∀ j < T.ny, ∀ i < T.nx, T.dzdy (T.nx * j + i) = .fin (zy i j)
  hzxy : ∀ j < T.ny, ∀ i < T.nx, T.d2zdxdy (T.nx * j + i) = .fin (zxy i j)

/-- Coordinates covered by the cells of a grid of `n` nodes (the last node is excluded). -/
def Covered (n : ℕ) (x0 dx x : ℝ) : Prop := x0 ≤ x ∧ x < x0 + ((n : ℝ) - 1) * dx

/-! ## Real cubic pieces -/

def herm (u f0 f1 d0 d1 : ℝ) : ℝ :=
  f0 + u * (d0 + u * ((3 * (f1 - f0) - 2 * d0 - d1) + u * (2 * (f0 - f1) + d0 + d1)))
def hermG (u f0 f1 d0 d1 : ℝ) : ℝ :=
  d0 + u * (2 * (3 * (f1 - f0) - 2 * d0 - d1) + u * 3 * (2 * (f0 - f1) + d0 + d1))

theorem herm_zero (f0 f1 d0 d1 : ℝ) : herm 0 f0 f1 d0 d1 = f0 := by unfold herm; ring
theorem herm_one (f0 f1 d0 d1 : ℝ) : herm 1 f0 f1 d0 d1 = f1 := by unfold herm; ring
theorem hermG_zero (f0 f1 d0 d1 : ℝ) : hermG 0 f0 f1 d0 d1 = d0 := by unfold hermG; ring
theorem hermG_one (f0 f1 d0 d1 : ℝ) : hermG 1 f0 f1 d0 d1 = d1 := by unfold hermG; ring

theorem herm_deriv (u f0 f1 d0 d1 : ℝ) : HasDerivAt (fun u => herm u f0 f1 d0 d1) (hermG u f0 f1 d0 d1) u := by
  unfold herm hermG
  generalize 3 * (f1 - f0) - 2 * d0 - d1 = b
  generalize 2 * (f0 - f1) + d0 + d1 = a
  have h := hasDerivAt_id' u
  have h1 := HasDerivAt.const_add b (h.fun_mul (hasDerivAt_const u a))
  have h2 := HasDerivAt.const_add d0 (h.fun_mul h1)
  have h3 := HasDerivAt.const_add f0 (h.fun_mul h2)
  exact h3.congr_deriv (by ring)

theorem oneDSpline_fin (u f0 f1 d0 d1 : ℝ) :
    oneDSpline (Dbl.fin u) (.fin f0) (.fin f1) (.fin d0) (.fin d1) = .fin (herm u f0 f1 d0 d1) := by
  unfold oneDSpline
  simp only [Dbl.ofNat_dbl', Dbl.mul_fin, Dbl.add_fin, Dbl.sub_fin, herm]

theorem oneDGrad_fin (u f0 f1 d0 d1 : ℝ) :
    oneDGrad (Dbl.fin u) (.fin f0) (.fin f1) (.fin d0) (.fin d1) = .fin (hermG u f0 f1 d0 d1) := by
  unfold oneDGrad
  simp only [Dbl.ofNat_dbl', Dbl.mul_fin, Dbl.add_fin, Dbl.sub_fin, hermG]

section
variable (dx dy : ℝ) (z zx zy zxy : ℕ → ℕ → ℝ)

/-- Value, x slope and y slope of the patch of cell `(i, j)`. -/
def patchV (i j : ℕ) (u v : ℝ) : ℝ :=
  herm v (herm u (z i j) (z (i+1) j) (zx i j * dx) (zx (i+1) j * dx))
    (herm u (z i (j+1)) (z (i+1) (j+1)) (zx i (j+1) * dx) (zx (i+1) (j+1) * dx))
    (herm u (zy i j) (zy (i+1) j) (zxy i j * dx) (zxy (i+1) j * dx) * dy)
    (herm u (zy i (j+1)) (zy (i+1) (j+1)) (zxy i (j+1) * dx) (zxy (i+1) (j+1) * dx) * dy)
noncomputable def patchX (i j : ℕ) (u v : ℝ) : ℝ :=
  herm v (hermG u (z i j) (z (i+1) j) (zx i j * dx) (zx (i+1) j * dx))
    (hermG u (z i (j+1)) (z (i+1) (j+1)) (zx i (j+1) * dx) (zx (i+1) (j+1) * dx))
    (hermG u (zy i j) (zy (i+1) j) (zxy i j * dx) (zxy (i+1) j * dx) * dy)
    (hermG u (zy i (j+1)) (zy (i+1) (j+1)) (zxy i (j+1) * dx) (zxy (i+1) (j+1) * dx) * dy) / dx
noncomputable def patchY (i j : ℕ) (u v : ℝ) : ℝ :=
  herm u (hermG v (z i j) (z i (j+1)) (zy i j * dy) (zy i (j+1) * dy))
    (hermG v (z (i+1) j) (z (i+1) (j+1)) (zy (i+1) j * dy) (zy (i+1) (j+1) * dy))
    (hermG v (zx i j) (zx i (j+1)) (zxy i j * dy) (zxy i (j+1) * dy) * dx)
    (hermG v (zx (i+1) j) (zx (i+1) (j+1)) (zxy (i+1) j * dy) (zxy (i+1) (j+1) * dy) * dx) / dy

/-- `Q i j` is a family of patches that agree on common edges. -/
structure Matching (Q : ℕ → ℕ → ℝ → ℝ → ℝ) : Prop where
  x : ∀ i j v, Q i j 1 v = Q (i + 1) j 0 v
  y : ∀ i j u, Q i j u 1 = Q i (j + 1) u 0

theorem patchV_matching : Matching (patchV dx dy z zx zy zxy) := by
  constructor
  · intro i j v; simp only [patchV, herm_one, herm_zero]
  · intro i j u; simp only [patchV, herm_one, herm_zero]

theorem patchX_matching : Matching (patchX dx dy z zx zy zxy) := by
  constructor
  · intro i j v; simp only [patchX, hermG_one, hermG_zero]
  · intro i j u; simp only [patchX, herm_one, herm_zero]

theorem patchY_matching : Matching (patchY dx dy z zx zy zxy) := by
  constructor
  · intro i j v; simp only [patchY, herm_one, herm_zero]
  · intro i j u; simp only [patchY, hermG_one, hermG_zero]

theorem herm_lin_deriv (v : ℝ) {f0 f1 d0 d1 : ℝ → ℝ} {f0' f1' d0' d1' u : ℝ} (h0 : HasDerivAt f0 f0' u)
    (h1 : HasDerivAt f1 f1' u) (h2 : HasDerivAt d0 d0' u) (h3 : HasDerivAt d1 d1' u) :
    HasDerivAt (fun u => herm v (f0 u) (f1 u) (d0 u) (d1 u)) (herm v f0' f1' d0' d1') u := by
  have e : (fun u => herm v (f0 u) (f1 u) (d0 u) (d1 u)) =
      fun u => (1 - 3 * v ^ 2 + 2 * v ^ 3) * f0 u + (3 * v ^ 2 - 2 * v ^ 3) * f1 u + (v - 2 * v ^ 2 + v ^ 3) * d0 u +
        (v ^ 3 - v ^ 2) * d1 u := by funext w; unfold herm; ring
  rw [e]
  refine ((((h0.const_mul _).fun_add (h1.const_mul _)).fun_add (h2.const_mul _)).fun_add (h3.const_mul _)).congr_deriv ?_
  unfold herm; ring

theorem patchV_deriv_u (hdx : dx ≠ 0) (i j : ℕ) (u v : ℝ) :
    HasDerivAt (fun u => patchV dx dy z zx zy zxy i j u v) (patchX dx dy z zx zy zxy i j u v * dx) u := by
  unfold patchV patchX
  rw [div_mul_cancel₀ _ hdx]
  exact herm_lin_deriv v (herm_deriv _ _ _ _ _) (herm_deriv _ _ _ _ _) ((herm_deriv _ _ _ _ _).mul_const dy)
    ((herm_deriv _ _ _ _ _).mul_const dy)

/-- The patch written with the directions exchanged. -/
theorem patchV_swap (i j : ℕ) (u v : ℝ) : patchV dx dy z zx zy zxy i j u v =
    herm u (herm v (z i j) (z i (j+1)) (zy i j * dy) (zy i (j+1) * dy))
      (herm v (z (i+1) j) (z (i+1) (j+1)) (zy (i+1) j * dy) (zy (i+1) (j+1) * dy))
      (herm v (zx i j) (zx i (j+1)) (zxy i j * dy) (zxy i (j+1) * dy) * dx)
      (herm v (zx (i+1) j) (zx (i+1) (j+1)) (zxy (i+1) j * dy) (zxy (i+1) (j+1) * dy) * dx) := by
  unfold patchV herm; ring

theorem patchV_deriv_v (hdy : dy ≠ 0) (i j : ℕ) (u v : ℝ) :
    HasDerivAt (fun v => patchV dx dy z zx zy zxy i j u v) (patchY dx dy z zx zy zxy i j u v * dy) v := by
  have e : (fun v => patchV dx dy z zx zy zxy i j u v) = fun v => _ := funext fun v => patchV_swap dx dy z zx zy zxy i j u v
  rw [e]
  unfold patchY
  rw [div_mul_cancel₀ _ hdy]
  exact herm_lin_deriv u (herm_deriv _ _ _ _ _) (herm_deriv _ _ _ _ _) ((herm_deriv _ _ _ _ _).mul_const dx)
    ((herm_deriv _ _ _ _ _).mul_const dx)

/-- y derivative of the x slope. -/
theorem patchX_deriv_v (i j : ℕ) (u v : ℝ) :
    HasDerivAt (fun v => patchX dx dy z zx zy zxy i j u v)
      (hermG v (hermG u (z i j) (z (i+1) j) (zx i j * dx) (zx (i+1) j * dx))
        (hermG u (z i (j+1)) (z (i+1) (j+1)) (zx i (j+1) * dx) (zx (i+1) (j+1) * dx))
        (hermG u (zy i j) (zy (i+1) j) (zxy i j * dx) (zxy (i+1) j * dx) * dy)
        (hermG u (zy i (j+1)) (zy (i+1) (j+1)) (zxy i (j+1) * dx) (zxy (i+1) (j+1) * dx) * dy) / dx) v := by
  unfold patchX
  exact (herm_deriv _ _ _ _ _).div_const dx

theorem continuous_patchV (i j : ℕ) : Continuous fun p : ℝ × ℝ => patchV dx dy z zx zy zxy i j p.1 p.2 := by
  unfold patchV herm; fun_prop
theorem continuous_patchX (i j : ℕ) : Continuous fun p : ℝ × ℝ => patchX dx dy z zx zy zxy i j p.1 p.2 := by
  unfold patchX herm hermG; fun_prop
theorem continuous_patchY (i j : ℕ) : Continuous fun p : ℝ × ℝ => patchY dx dy z zx zy zxy i j p.1 p.2 := by
  unfold patchY herm hermG; fun_prop

end

/-! ## The model evaluates these patches -/

variable {T : Table Dbl} {x0 y0 dx dy : ℝ} {z zx zy zxy : ℕ → ℕ → ℝ}

theorem Grid.patch (g : Grid T x0 y0 dx dy z zx zy zxy) {i j : ℕ} (hi : i + 1 < T.nx) (hj : j + 1 < T.ny) (u v : ℝ) :
    T.patch i j (.fin u) (.fin v) = .fin (patchV dx dy z zx zy zxy i j u v) := by
  unfold Table.patch patchV
  simp only [Nat.add_assoc, g.hz j (by omega) i (by omega), g.hz j (by omega) (i+1) hi, g.hz (j+1) hj i (by omega), g.hz (j+1) hj (i+1) hi,
    g.hzx j (by omega) i (by omega), g.hzx j (by omega) (i+1) hi, g.hzx (j+1) hj i (by omega), g.hzx (j+1) hj (i+1) hi,
    g.hzy j (by omega) i (by omega), g.hzy j (by omega) (i+1) hi, g.hzy (j+1) hj i (by omega), g.hzy (j+1) hj (i+1) hi,
    g.hzxy j (by omega) i (by omega), g.hzxy j (by omega) (i+1) hi, g.hzxy (j+1) hj i (by omega), g.hzxy (j+1) hj (i+1) hi,
    g.hdx, g.hdy, Dbl.mul_fin, oneDSpline_fin]

theorem Grid.patchGradX (g : Grid T x0 y0 dx dy z zx zy zxy) {i j : ℕ} (hi : i + 1 < T.nx) (hj : j + 1 < T.ny) (u v : ℝ) :
    T.patchGradX i j (.fin u) (.fin v) = .fin (patchX dx dy z zx zy zxy i j u v) := by
  unfold Table.patchGradX patchX
  simp only [Nat.add_assoc, g.hz j (by omega) i (by omega), g.hz j (by omega) (i+1) hi, g.hz (j+1) hj i (by omega), g.hz (j+1) hj (i+1) hi,
    g.hzx j (by omega) i (by omega), g.hzx j (by omega) (i+1) hi, g.hzx (j+1) hj i (by omega), g.hzx (j+1) hj (i+1) hi,
    g.hzy j (by omega) i (by omega), g.hzy j (by omega) (i+1) hi, g.hzy (j+1) hj i (by omega), g.hzy (j+1) hj (i+1) hi,
    g.hzxy j (by omega) i (by omega), g.hzxy j (by omega) (i+1) hi, g.hzxy (j+1) hj i (by omega), g.hzxy (j+1) hj (i+1) hi,
    g.hdx, g.hdy, Dbl.mul_fin, oneDSpline_fin, oneDGrad_fin, Dbl.div_fin g.dx_pos.ne']

theorem Grid.patchGradY (g : Grid T x0 y0 dx dy z zx zy zxy) {i j : ℕ} (hi : i + 1 < T.nx) (hj : j + 1 < T.ny) (u v : ℝ) :
    T.patchGradY i j (.fin u) (.fin v) = .fin (patchY dx dy z zx zy zxy i j u v) := by
  unfold Table.patchGradY patchY
  simp only [Nat.add_assoc, g.hz j (by omega) i (by omega), g.hz j (by omega) (i+1) hi, g.hz (j+1) hj i (by omega), g.hz (j+1) hj (i+1) hi,
    g.hzx j (by omega) i (by omega), g.hzx j (by omega) (i+1) hi, g.hzx (j+1) hj i (by omega), g.hzx (j+1) hj (i+1) hi,
    g.hzy j (by omega) i (by omega), g.hzy j (by omega) (i+1) hi, g.hzy (j+1) hj i (by omega), g.hzy (j+1) hj (i+1) hi,
    g.hzxy j (by omega) i (by omega), g.hzxy j (by omega) (i+1) hi, g.hzxy (j+1) hj i (by omega), g.hzxy (j+1) hj (i+1) hi,
    g.hdx, g.hdy, Dbl.mul_fin, oneDSpline_fin, oneDGrad_fin, Dbl.div_fin g.dy_pos.ne']

/-- Column of a coordinate: `x0 + i dx ≤ x < x0 + (i+1) dx`. -/
def InCell (x0 dx x : ℝ) (i : ℕ) : Prop := x0 + i * dx ≤ x ∧ x < x0 + (i + 1) * dx
def InClosedCell (x0 dx x : ℝ) (i : ℕ) : Prop := x0 + i * dx ≤ x ∧ x ≤ x0 + (i + 1) * dx

theorem floor_inCell {x0 dx x : ℝ} (hdx : 0 < dx) {i : ℕ} (h : InCell x0 dx x i) : ⌊(x - x0) / dx⌋ = (i : ℤ) := by
  rw [Int.floor_eq_iff]
  obtain ⟨h1, h2⟩ := h
  push_cast
  constructor
  · rw [le_div_iff₀ hdx]; linarith
  · rw [div_lt_iff₀ hdx]; linarith

theorem covered_cell {x0 dx x : ℝ} {n : ℕ} (hdx : 0 < dx) (h : Covered n x0 dx x) : ∃ i, i + 1 < n ∧ InCell x0 dx x i := by
  obtain ⟨h1, h2⟩ := h
  have h0 : 0 ≤ (x - x0) / dx := div_nonneg (by linarith) hdx.le
  have hf0 : 0 ≤ ⌊(x - x0) / dx⌋ := Int.floor_nonneg.mpr h0
  have hc : ((⌊(x - x0) / dx⌋.toNat : ℕ) : ℝ) = (⌊(x - x0) / dx⌋ : ℝ) := by
    have : ((⌊(x - x0) / dx⌋.toNat : ℕ) : ℤ) = ⌊(x - x0) / dx⌋ := Int.toNat_of_nonneg hf0
    exact_mod_cast congrArg (fun k : ℤ => (k : ℝ)) this
  have hle := Int.floor_le ((x - x0) / dx)
  have hlt := Int.lt_floor_add_one ((x - x0) / dx)
  refine ⟨⌊(x - x0) / dx⌋.toNat, ?_, ?_, ?_⟩
  · have : (x - x0) / dx < (n : ℝ) - 1 := by rw [div_lt_iff₀ hdx]; linarith
    have h3 : ((⌊(x - x0) / dx⌋.toNat + 1 : ℕ) : ℝ) < n := by push_cast; rw [hc]; linarith
    exact_mod_cast h3
  · rw [hc]; rw [le_div_iff₀ hdx] at hle; linarith
  · rw [hc]; rw [div_lt_iff₀ hdx] at hlt; linarith

theorem cell_covered {x0 dx x : ℝ} {n i : ℕ} (hdx : 0 < dx) (hi : i + 1 < n) (h : InCell x0 dx x i) : Covered n x0 dx x := by
  obtain ⟨h1, h2⟩ := h
  have : ((i + 1 : ℕ) : ℝ) + 1 ≤ n := by exact_mod_cast hi
  push_cast at this
  constructor
  · have : (0:ℝ) ≤ i * dx := by positivity
    linarith
  · nlinarith

theorem Grid.cell (g : Grid T x0 y0 dx dy z zx zy zxy) {i j : ℕ} (hi : i + 1 < T.nx) (hj : j + 1 < T.ny) {x y : ℝ}
    (hx : InCell x0 dx x i) (hy : InCell y0 dy y j) : T.cell (.fin x) (.fin y) = some (i, j) := by
  unfold Table.cell
  simp only [g.hx0, g.hy0, g.hdx, g.hdy, Dbl.sub_fin, Dbl.div_fin g.dx_pos.ne', Dbl.div_fin g.dy_pos.ne']
  have ex : Arith.floor (Dbl.fin ((x - x0) / dx)) = (i : ℤ) := floor_inCell g.dx_pos hx
  have ey : Arith.floor (Dbl.fin ((y - y0) / dy)) = (j : ℤ) := floor_inCell g.dy_pos hy
  rw [ex, ey, if_neg (by omega)]
  simp

theorem Grid.cell_none (g : Grid T x0 y0 dx dy z zx zy zxy) {x y : ℝ}
    (h : ¬ (Covered T.nx x0 dx x ∧ Covered T.ny y0 dy y)) : T.cell (.fin x) (.fin y) = none := by
  have key : ∀ (n : ℕ) (a d w : ℝ), 0 < d → ¬ Covered n a d w → ⌊(w - a) / d⌋ ≥ (n : ℤ) - 1 ∨ ⌊(w - a) / d⌋ < 0 := by
    intro n a d w hd hc
    by_contra hcon
    push Not at hcon
    obtain ⟨h1, h2⟩ := hcon
    apply hc
    have h3 := Int.floor_nonneg.mp h2
    constructor
    · have := (le_div_iff₀ hd).mp h3; linarith
    · have h4 : ⌊(w - a) / d⌋ + 1 ≤ (n : ℤ) - 1 := by omega
      have h5 := Int.lt_floor_add_one ((w - a) / d)
      have h6 : ((⌊(w - a) / d⌋ + 1 : ℤ) : ℝ) ≤ ((n : ℤ) - 1 : ℤ) := by exact_mod_cast h4
      push_cast at h6
      have := (div_lt_iff₀ hd).mp (lt_of_lt_of_le h5 h6)
      linarith
  unfold Table.cell
  simp only [g.hx0, g.hy0, g.hdx, g.hdy, Dbl.sub_fin, Dbl.div_fin g.dx_pos.ne', Dbl.div_fin g.dy_pos.ne']
  have ex : ∀ r : ℝ, Arith.floor (Dbl.fin r) = ⌊r⌋ := fun r => rfl
  rw [ex, ex, if_pos]
  rw [not_and_or] at h
  rcases h with h | h
  · rcases key _ _ _ _ g.dx_pos h with h | h
    · exact Or.inl h
    · exact Or.inr (Or.inl h)
  · rcases key _ _ _ _ g.dy_pos h with h | h
    · exact Or.inr (Or.inr (Or.inl h))
    · exact Or.inr (Or.inr (Or.inr h))

theorem Grid.xfrac (g : Grid T x0 y0 dx dy z zx zy zxy) (x : ℝ) (i : ℕ) :
    T.xfrac (.fin x) i = .fin ((x - (x0 + i * dx)) / dx) := by
  unfold Table.xfrac
  simp only [g.hx0, g.hdx, Dbl.const_dbl, Dbl.mul_fin, Dbl.add_fin, Dbl.sub_fin, Dbl.div_fin g.dx_pos.ne']
  push_cast; rfl

theorem Grid.yfrac (g : Grid T x0 y0 dx dy z zx zy zxy) (y : ℝ) (j : ℕ) :
    T.yfrac (.fin y) j = .fin ((y - (y0 + j * dy)) / dy) := by
  unfold Table.yfrac
  simp only [g.hy0, g.hdy, Dbl.const_dbl, Dbl.mul_fin, Dbl.add_fin, Dbl.sub_fin, Dbl.div_fin g.dy_pos.ne']
  push_cast; rfl

/-- A function given by matching patches on half-open cells is given by them on closed cells. -/
theorem closed_cell {Q : ℕ → ℕ → ℝ → ℝ → ℝ} (hQ : Matching Q) {nx ny : ℕ} (hdx : 0 < dx) (hdy : 0 < dy) {f : ℝ → ℝ → ℝ}
    (hf : ∀ i j, i + 1 < nx → j + 1 < ny → ∀ x y, InCell x0 dx x i → InCell y0 dy y j →
      f x y = Q i j ((x - (x0 + i * dx)) / dx) ((y - (y0 + j * dy)) / dy))
    {i j : ℕ} {x y : ℝ} (hi : i + 1 < nx) (hj : j + 1 < ny) (hx : InClosedCell x0 dx x i) (hy : InClosedCell y0 dy y j)
    (hcx : Covered nx x0 dx x) (hcy : Covered ny y0 dy y) :
    f x y = Q i j ((x - (x0 + i * dx)) / dx) ((y - (y0 + j * dy)) / dy) := by
  -- a coordinate at the upper end of its cell starts the next one
  have next : ∀ (n : ℕ) (a d w : ℝ) (k : ℕ), 0 < d → Covered n a d w → k + 1 < n → w = a + (k + 1) * d →
      k + 1 + 1 < n ∧ InCell a d w (k + 1) ∧ (w - (a + ((k + 1 : ℕ) : ℝ) * d)) / d = 0 ∧ (w - (a + k * d)) / d = 1 := by
    intro n a d w k hd hc hk hw
    refine ⟨?_, ⟨?_, ?_⟩, ?_, ?_⟩
    · have h1 := hc.2
      rw [hw] at h1
      have h2 : (k + 1) * d < ((n : ℝ) - 1) * d := by linarith
      have h3 := lt_of_mul_lt_mul_right h2 hd.le
      have h4 : ((k + 1 + 1 : ℕ) : ℝ) < n := by push_cast; linarith
      exact_mod_cast h4
    · push_cast; linarith
    · push_cast; linarith
    · push_cast; rw [hw]; simp
    · rw [hw]; field_simp; ring
  by_cases ex : x < x0 + (i + 1) * dx
  · by_cases ey : y < y0 + (j + 1) * dy
    · exact hf i j hi hj x y ⟨hx.1, ex⟩ ⟨hy.1, ey⟩
    · have hyeq := le_antisymm hy.2 (not_lt.mp ey)
      obtain ⟨hj', hc', e0, e1⟩ := next ny y0 dy y j hdy hcy hj hyeq
      rw [hf i (j + 1) hi hj' x y ⟨hx.1, ex⟩ hc', e0, e1, hQ.y]
  · have hxeq := le_antisymm hx.2 (not_lt.mp ex)
    obtain ⟨hi', hcx', ex0, ex1⟩ := next nx x0 dx x i hdx hcx hi hxeq
    by_cases ey : y < y0 + (j + 1) * dy
    · rw [hf (i + 1) j hi' hj x y hcx' ⟨hy.1, ey⟩, ex0, ex1, hQ.x]
    · have hyeq := le_antisymm hy.2 (not_lt.mp ey)
      obtain ⟨hj', hc', e0, e1⟩ := next ny y0 dy y j hdy hcy hj hyeq
      rw [hf (i + 1) (j + 1) hi' hj' x y hcx' hc', e0, e1, ex0, ex1, hQ.x, hQ.y]

/-- Hence it is continuous on the covered rectangle if the patches are. -/
theorem continuousOn_cells {Q : ℕ → ℕ → ℝ → ℝ → ℝ} (hQ : Matching Q) (hc : ∀ i j, Continuous fun p : ℝ × ℝ => Q i j p.1 p.2)
    {nx ny : ℕ} (hdx : 0 < dx) (hdy : 0 < dy) {f : ℝ → ℝ → ℝ}
    (hf : ∀ i j, i + 1 < nx → j + 1 < ny → ∀ x y, InCell x0 dx x i → InCell y0 dy y j →
      f x y = Q i j ((x - (x0 + i * dx)) / dx) ((y - (y0 + j * dy)) / dy)) :
    ContinuousOn (fun p : ℝ × ℝ => f p.1 p.2) {p | Covered nx x0 dx p.1 ∧ Covered ny y0 dy p.2} := by
  rw [continuousOn_iff_continuous_domRestrict]
  let D : Set (ℝ × ℝ) := {p | Covered nx x0 dx p.1 ∧ Covered ny y0 dy p.2}
  let C : Fin (nx - 1) × Fin (ny - 1) → Set D := fun k => {p | InClosedCell x0 dx p.1.1 k.1.val ∧ InClosedCell y0 dy p.1.2 k.2.val}
  have hfin : LocallyFinite C := locallyFinite_of_finite C
  refine hfin.continuous ?_ ?_ ?_
  · rw [eq_univ_iff_forall]
    rintro ⟨p, hp⟩
    obtain ⟨i, hi, hxi⟩ := covered_cell hdx hp.1
    obtain ⟨j, hj, hyj⟩ := covered_cell hdy hp.2
    exact mem_iUnion.mpr ⟨(⟨i, by omega⟩, ⟨j, by omega⟩), ⟨hxi.1, hxi.2.le⟩, ⟨hyj.1, hyj.2.le⟩⟩
  · intro k
    have hx : Continuous fun p : D => p.1.1 := continuous_fst.comp continuous_subtype_val
    have hy : Continuous fun p : D => p.1.2 := continuous_snd.comp continuous_subtype_val
    exact ((isClosed_le continuous_const hx).inter (isClosed_le hx continuous_const)).inter
      ((isClosed_le continuous_const hy).inter (isClosed_le hy continuous_const))
  · intro k
    have hcont : Continuous fun p : D => Q k.1 k.2 ((p.1.1 - (x0 + (k.1 : ℕ) * dx)) / dx) ((p.1.2 - (y0 + (k.2 : ℕ) * dy)) / dy) := by
      have h1 : Continuous fun p : D => ((p.1.1 - (x0 + (k.1 : ℕ) * dx)) / dx, (p.1.2 - (y0 + (k.2 : ℕ) * dy)) / dy) := by
        fun_prop
      exact (hc k.1 k.2).comp h1
    refine hcont.continuousOn.congr ?_
    rintro ⟨p, hp⟩ ⟨h1, h2⟩
    have hi := k.1.2; have hj := k.2.2
    exact closed_cell hQ hdx hdy hf (by omega) (by omega) h1 h2 hp.1 hp.2

/-- Glue two one-sided pieces. -/
theorem hasDerivAt_glue {f g h : ℝ → ℝ} {x d a b : ℝ} (ha : a < x) (hb : x < b) (hr : ∀ t, x ≤ t → t < b → f t = g t)
    (hl : ∀ t, a < t → t ≤ x → f t = h t) (hg : HasDerivAt g d x) (hh : HasDerivAt h d x) : HasDerivAt f d x := by
  have h1 : HasDerivWithinAt f d (Ici x) x := by
    refine hg.hasDerivWithinAt.congr_of_eventuallyEq ?_ (hr x le_rfl hb)
    have : Ico x b ∈ 𝓝[Ici x] x := Ico_mem_nhdsGE hb
    filter_upwards [this] with t ht
    exact hr t ht.1 ht.2
  have h2 : HasDerivWithinAt f d (Iic x) x := by
    refine hh.hasDerivWithinAt.congr_of_eventuallyEq ?_ (hl x ha le_rfl)
    have : Ioc a x ∈ 𝓝[Iic x] x := Ioc_mem_nhdsLE ha
    filter_upwards [this] with t ht
    exact hl t ht.1 ht.2
  have := h2.union h1
  rw [Iic_union_Ici] at this
  exact hasDerivWithinAt_univ.mp this

/-! ## Values of the model as real functions -/

theorem Grid.eval_cell (g : Grid T x0 y0 dx dy z zx zy zxy) {i j : ℕ} (hi : i + 1 < T.nx) (hj : j + 1 < T.ny) {x y : ℝ}
    (hx : InCell x0 dx x i) (hy : InCell y0 dy y j) : T.eval (.fin x) (.fin y) =
      .fin (patchV dx dy z zx zy zxy i j ((x - (x0 + i * dx)) / dx) ((y - (y0 + j * dy)) / dy)) := by
  unfold Table.eval
  rw [g.cell hi hj hx hy]
  simp only [g.xfrac, g.yfrac, g.patch hi hj]

theorem Grid.grad_cell (g : Grid T x0 y0 dx dy z zx zy zxy) {i j : ℕ} (hi : i + 1 < T.nx) (hj : j + 1 < T.ny) {x y : ℝ}
    (hx : InCell x0 dx x i) (hy : InCell y0 dy y j) : T.grad (.fin x) (.fin y) =
      (.fin (patchX dx dy z zx zy zxy i j ((x - (x0 + i * dx)) / dx) ((y - (y0 + j * dy)) / dy)),
       .fin (patchY dx dy z zx zy zxy i j ((x - (x0 + i * dx)) / dx) ((y - (y0 + j * dy)) / dy))) := by
  unfold Table.grad
  rw [g.cell hi hj hx hy]
  simp only [g.xfrac, g.yfrac, g.patchGradX hi hj, g.patchGradY hi hj]

/-- Sag and slopes of a table as real functions. -/
noncomputable def sagR (T : Table Dbl) (x y : ℝ) : ℝ := realOf (T.eval (.fin x) (.fin y))
noncomputable def slopeX (T : Table Dbl) (x y : ℝ) : ℝ := realOf (T.grad (.fin x) (.fin y)).1
noncomputable def slopeY (T : Table Dbl) (x y : ℝ) : ℝ := realOf (T.grad (.fin x) (.fin y)).2

theorem Grid.sagR_cell (g : Grid T x0 y0 dx dy z zx zy zxy) (i j : ℕ) (hi : i + 1 < T.nx) (hj : j + 1 < T.ny) (x y : ℝ)
    (hx : InCell x0 dx x i) (hy : InCell y0 dy y j) : sagR T x y =
      patchV dx dy z zx zy zxy i j ((x - (x0 + i * dx)) / dx) ((y - (y0 + j * dy)) / dy) := by
  unfold sagR; rw [g.eval_cell hi hj hx hy, realOf_fin]
theorem Grid.slopeX_cell (g : Grid T x0 y0 dx dy z zx zy zxy) (i j : ℕ) (hi : i + 1 < T.nx) (hj : j + 1 < T.ny) (x y : ℝ)
    (hx : InCell x0 dx x i) (hy : InCell y0 dy y j) : slopeX T x y =
      patchX dx dy z zx zy zxy i j ((x - (x0 + i * dx)) / dx) ((y - (y0 + j * dy)) / dy) := by
  unfold slopeX; rw [g.grad_cell hi hj hx hy, realOf_fin]
theorem Grid.slopeY_cell (g : Grid T x0 y0 dx dy z zx zy zxy) (i j : ℕ) (hi : i + 1 < T.nx) (hj : j + 1 < T.ny) (x y : ℝ)
    (hx : InCell x0 dx x i) (hy : InCell y0 dy y j) : slopeY T x y =
      patchY dx dy z zx zy zxy i j ((x - (x0 + i * dx)) / dx) ((y - (y0 + j * dy)) / dy) := by
  unfold slopeY; rw [g.grad_cell hi hj hx hy, realOf_fin]

/-- One-dimensional differentiation across cell boundaries. -/
theorem hasDerivAt_cells {Q G : ℕ → ℝ → ℝ} {a d : ℝ} {n : ℕ} (hd : 0 < d) {f f' : ℝ → ℝ}
    (hf : ∀ i x, i + 1 < n → InClosedCell a d x i → Covered n a d x → f x = Q i ((x - (a + i * d)) / d))
    (hf' : ∀ i x, i + 1 < n → InClosedCell a d x i → Covered n a d x → f' x = G i ((x - (a + i * d)) / d))
    (hQ : ∀ i u, HasDerivAt (Q i) (G i u * d) u) {x : ℝ} (hx : Covered n a d x) (hne : a < x) : HasDerivAt f (f' x) x := by
  obtain ⟨i, hi, hc⟩ := covered_cell hd hx
  have piece : ∀ k u, HasDerivAt (fun t => Q k ((t - (a + k * d)) / d)) (G k ((u - (a + k * d)) / d)) u := by
    intro k u
    have h1 : HasDerivAt (fun t : ℝ => (t - (a + k * d)) / d) (1 / d) u :=
      (((hasDerivAt_id' u).sub_const _).div_const d)
    have := HasDerivAt.comp u (h₂ := Q k) (h := fun t : ℝ => (t - (a + k * d)) / d) (hQ k _) h1
    refine this.congr_deriv ?_
    field_simp
  have hcast : ((i : ℝ) + 1) ≤ (n : ℝ) - 1 := by
    have : ((i + 1 + 1 : ℕ) : ℝ) ≤ n := by exact_mod_cast hi
    push_cast at this; linarith
  have right : ∀ t, x ≤ t → t < a + (i + 1) * d → f t = Q i ((t - (a + i * d)) / d) := by
    intro t h1 h2
    refine hf i t hi ⟨le_trans hc.1 h1, h2.le⟩ ⟨by linarith, ?_⟩
    nlinarith
  have dr : HasDerivAt (fun t => Q i ((t - (a + i * d)) / d)) (f' x) x := by
    rw [hf' i x hi ⟨hc.1, hc.2.le⟩ hx]; exact piece i x
  rcases eq_or_lt_of_le hc.1 with he | hl
  · -- a node: the piece on the left is the previous cell
    obtain ⟨k, rfl⟩ : ∃ k, i = k + 1 := by
      rcases Nat.eq_zero_or_pos i with h0 | h0
      · exfalso; rw [h0] at he; push_cast at he; linarith
      · exact ⟨i - 1, by omega⟩
    have hxk : InClosedCell a d x k := ⟨by push_cast at he; nlinarith, by push_cast at he; linarith⟩
    have dl : HasDerivAt (fun t => Q k ((t - (a + k * d)) / d)) (f' x) x := by
      rw [hf' k x (by omega) hxk hx]; exact piece k x
    refine hasDerivAt_glue (a := a + k * d) (by push_cast at he; nlinarith) hc.2 right ?_ dr dl
    intro t h1 h2
    refine hf k t (by omega) ⟨h1.le, le_trans h2 hxk.2⟩ ⟨?_, lt_of_le_of_lt h2 hx.2⟩
    have : (0:ℝ) ≤ k * d := by positivity
    linarith
  · refine hasDerivAt_glue (a := a + i * d) hl hc.2 right ?_ dr dr
    intro t h1 h2
    refine hf i t hi ⟨h1.le, le_trans h2 hc.2.le⟩ ⟨?_, lt_of_le_of_lt h2 hx.2⟩
    have : (0:ℝ) ≤ i * d := by positivity
    linarith

/-! ## C26 -/

/-- Inside the grid sag and slopes are finite numbers (so `sagR`, `slopeX`, `slopeY` are what the surface reports). -/
theorem C26_finite_inside (g : Grid T x0 y0 dx dy z zx zy zxy) {x y : ℝ} (hx : Covered T.nx x0 dx x)
    (hy : Covered T.ny y0 dy y) : (bicubic T).sag (.fin x) (.fin y) = .fin (sagR T x y) ∧
      T.grad (.fin x) (.fin y) = (.fin (slopeX T x y), .fin (slopeY T x y)) := by
  obtain ⟨i, hi, hxi⟩ := covered_cell g.dx_pos hx
  obtain ⟨j, hj, hyj⟩ := covered_cell g.dy_pos hy
  refine ⟨?_, ?_⟩
  · show T.eval _ _ = _
    rw [g.sagR_cell i j hi hj x y hxi hyj, g.eval_cell hi hj hxi hyj]
  · rw [g.slopeX_cell i j hi hj x y hxi hyj, g.slopeY_cell i j hi hj x y hxi hyj, g.grad_cell hi hj hxi hyj]

theorem node_inCell (x0 : ℝ) {dx : ℝ} (hdx : 0 < dx) (i : ℕ) : InCell x0 dx (x0 + i * dx) i :=
  ⟨le_rfl, by linarith⟩

theorem node_frac (x0 dx : ℝ) (i : ℕ) : (x0 + i * dx - (x0 + i * dx)) / dx = 0 := by simp

/-- At every grid node not on the upper edges the tabulated value and slopes are reproduced. -/
theorem C26_nodes_partial (g : Grid T x0 y0 dx dy z zx zy zxy) {i j : ℕ} (hi : i + 1 < T.nx) (hj : j + 1 < T.ny) :
    (bicubic T).sag (.fin (x0 + i * dx)) (.fin (y0 + j * dy)) = .fin (z i j) ∧
    T.grad (.fin (x0 + i * dx)) (.fin (y0 + j * dy)) = (.fin (zx i j), .fin (zy i j)) := by
  have hdx := g.dx_pos.ne'
  have hdy := g.dy_pos.ne'
  refine ⟨?_, ?_⟩
  · show T.eval _ _ = _
    rw [g.eval_cell hi hj (node_inCell x0 g.dx_pos i) (node_inCell y0 g.dy_pos j), node_frac, node_frac]
    simp only [patchV, herm_zero]
  · rw [g.grad_cell hi hj (node_inCell x0 g.dx_pos i) (node_inCell y0 g.dy_pos j), node_frac, node_frac]
    simp only [patchX, patchY, herm_zero, hermG_zero, mul_div_cancel_right₀ _ hdx, mul_div_cancel_right₀ _ hdy]

theorem Grid.slopeX_closed (g : Grid T x0 y0 dx dy z zx zy zxy) {i j : ℕ} {x y : ℝ} (hi : i + 1 < T.nx) (hj : j + 1 < T.ny)
    (hx : InClosedCell x0 dx x i) (hy : InClosedCell y0 dy y j) (hcx : Covered T.nx x0 dx x) (hcy : Covered T.ny y0 dy y) :
    slopeX T x y = patchX dx dy z zx zy zxy i j ((x - (x0 + i * dx)) / dx) ((y - (y0 + j * dy)) / dy) :=
  closed_cell (patchX_matching dx dy z zx zy zxy) g.dx_pos g.dy_pos g.slopeX_cell hi hj hx hy hcx hcy
theorem Grid.slopeY_closed (g : Grid T x0 y0 dx dy z zx zy zxy) {i j : ℕ} {x y : ℝ} (hi : i + 1 < T.nx) (hj : j + 1 < T.ny)
    (hx : InClosedCell x0 dx x i) (hy : InClosedCell y0 dy y j) (hcx : Covered T.nx x0 dx x) (hcy : Covered T.ny y0 dy y) :
    slopeY T x y = patchY dx dy z zx zy zxy i j ((x - (x0 + i * dx)) / dx) ((y - (y0 + j * dy)) / dy) :=
  closed_cell (patchY_matching dx dy z zx zy zxy) g.dx_pos g.dy_pos g.slopeY_cell hi hj hx hy hcx hcy
theorem Grid.sagR_closed (g : Grid T x0 y0 dx dy z zx zy zxy) {i j : ℕ} {x y : ℝ} (hi : i + 1 < T.nx) (hj : j + 1 < T.ny)
    (hx : InClosedCell x0 dx x i) (hy : InClosedCell y0 dy y j) (hcx : Covered T.nx x0 dx x) (hcy : Covered T.ny y0 dy y) :
    sagR T x y = patchV dx dy z zx zy zxy i j ((x - (x0 + i * dx)) / dx) ((y - (y0 + j * dy)) / dy) :=
  closed_cell (patchV_matching dx dy z zx zy zxy) g.dx_pos g.dy_pos g.sagR_cell hi hj hx hy hcx hcy

/-- Cross derivative at the inner nodes: the y derivative of the reported x slope is the tabulated number. -/
theorem C26_cross_derivative (g : Grid T x0 y0 dx dy z zx zy zxy) {i j : ℕ} (hi : i + 1 < T.nx) (hj : j + 1 < T.ny)
    (hj0 : 0 < j) : HasDerivAt (fun w => slopeX T (x0 + i * dx) w) (zxy i j) (y0 + j * dy) := by
  classical
  have hdx := g.dx_pos.ne'
  have hdy := g.dy_pos.ne'
  have hcx := cell_covered g.dx_pos hi (node_inCell x0 g.dx_pos i)
  have hci : InClosedCell x0 dx (x0 + i * dx) i := ⟨le_rfl, (node_inCell x0 g.dx_pos i).2.le⟩
  have hcy := cell_covered g.dy_pos hj (node_inCell y0 g.dy_pos j)
  -- derivative of the slope inside a cell, as a function of the fraction `v`
  let G : ℕ → ℝ → ℝ := fun j v => hermG v (zx i j) (zx i (j + 1)) (zxy i j * dy) (zxy i (j + 1) * dy) / dy
  let f' : ℝ → ℝ := fun y => if h : Covered T.ny y0 dy y then
    G (covered_cell g.dy_pos h).choose ((y - (y0 + (covered_cell g.dy_pos h).choose * dy)) / dy) else 0
  have hG : ∀ k v, HasDerivAt (fun v => patchX dx dy z zx zy zxy i k 0 v) (G k v * dy) v := by
    intro k v
    refine (patchX_deriv_v dx dy z zx zy zxy i k 0 v).congr_deriv ?_
    simp only [G, hermG_zero]
    unfold hermG
    field_simp
  have hGm : ∀ k, G k 1 = G (k + 1) 0 := by
    intro k; simp only [G, hermG_zero, hermG_one]
  have hf' : ∀ k y, k + 1 < T.ny → InClosedCell y0 dy y k → Covered T.ny y0 dy y → f' y = G k ((y - (y0 + k * dy)) / dy) := by
    intro k y hk hy hc
    have := closed_cell (Q := fun _ k _ v => G k v) (x0 := x0) (dx := dx) (y0 := y0) (dy := dy) (nx := T.nx) (ny := T.ny)
      ⟨fun _ _ _ => rfl, fun _ k _ => hGm k⟩ g.dx_pos g.dy_pos (f := fun _ y => f' y) (i := i) (j := k) (x := x0 + i * dx) (y := y)
      ?_ hi hk hci hy hcx hc
    · exact this
    · intro _ k' _ hk' _ y' _ hy'
      have hcov := cell_covered g.dy_pos hk' hy'
      simp only [f', dif_pos hcov]
      have hs := (covered_cell g.dy_pos hcov).choose_spec
      have e : (covered_cell g.dy_pos hcov).choose = k' := by
        have h1 := floor_inCell g.dy_pos hs.2
        have h2 := floor_inCell g.dy_pos hy'
        rw [h1] at h2; exact_mod_cast h2
      rw [e]
  have main := hasDerivAt_cells (Q := fun k v => patchX dx dy z zx zy zxy i k 0 v) (G := G) (a := y0) (d := dy) (n := T.ny)
    g.dy_pos (f := fun w => slopeX T (x0 + i * dx) w) (f' := f') (x := y0 + j * dy) ?_ hf' hG hcy ?_
  · refine main.congr_deriv ?_
    rw [hf' j _ hj ⟨le_rfl, (node_inCell y0 g.dy_pos j).2.le⟩ hcy, node_frac]
    simp only [G, hermG_zero]
    field_simp
  · intro k y hk hy hc
    show slopeX T (x0 + i * dx) y = _
    rw [g.slopeX_closed hi hk hci hy hcx hc, node_frac]
  · have : (0:ℝ) < j * dy := mul_pos (by exact_mod_cast hj0) g.dy_pos
    linarith

/-- Sag and both reported slopes are continuous on the whole covered rectangle, cell edges included. -/
theorem C26_smooth (g : Grid T x0 y0 dx dy z zx zy zxy) :
    ContinuousOn (fun p : ℝ × ℝ => sagR T p.1 p.2) {p | Covered T.nx x0 dx p.1 ∧ Covered T.ny y0 dy p.2} ∧
    ContinuousOn (fun p : ℝ × ℝ => slopeX T p.1 p.2) {p | Covered T.nx x0 dx p.1 ∧ Covered T.ny y0 dy p.2} ∧
    ContinuousOn (fun p : ℝ × ℝ => slopeY T p.1 p.2) {p | Covered T.nx x0 dx p.1 ∧ Covered T.ny y0 dy p.2} :=
  ⟨continuousOn_cells (patchV_matching dx dy z zx zy zxy) (continuous_patchV dx dy z zx zy zxy) g.dx_pos g.dy_pos g.sagR_cell,
   continuousOn_cells (patchX_matching dx dy z zx zy zxy) (continuous_patchX dx dy z zx zy zxy) g.dx_pos g.dy_pos g.slopeX_cell,
   continuousOn_cells (patchY_matching dx dy z zx zy zxy) (continuous_patchY dx dy z zx zy zxy) g.dx_pos g.dy_pos g.slopeY_cell⟩

/-- The reported slopes are the derivatives of the sag, at nodes and cell edges too. -/
theorem C26_gradient (g : Grid T x0 y0 dx dy z zx zy zxy) {x y : ℝ} (hx : Covered T.nx x0 dx x) (hy : Covered T.ny y0 dy y) :
    (x0 < x → HasDerivAt (fun u => sagR T u y) (slopeX T x y) x) ∧
    (y0 < y → HasDerivAt (fun w => sagR T x w) (slopeY T x y) y) := by
  obtain ⟨i, hi, hxi⟩ := covered_cell g.dx_pos hx
  obtain ⟨j, hj, hyj⟩ := covered_cell g.dy_pos hy
  have hxi' : InClosedCell x0 dx x i := ⟨hxi.1, hxi.2.le⟩
  have hyj' : InClosedCell y0 dy y j := ⟨hyj.1, hyj.2.le⟩
  constructor
  · intro h
    exact hasDerivAt_cells (Q := fun k u => patchV dx dy z zx zy zxy k j u ((y - (y0 + j * dy)) / dy))
      (G := fun k u => patchX dx dy z zx zy zxy k j u ((y - (y0 + j * dy)) / dy)) g.dx_pos
      (f := fun u => sagR T u y) (f' := fun u => slopeX T u y)
      (fun k t hk ht hc => g.sagR_closed hk hj ht hyj' hc hy) (fun k t hk ht hc => g.slopeX_closed hk hj ht hyj' hc hy)
      (fun k u => patchV_deriv_u dx dy z zx zy zxy g.dx_pos.ne' k j u _) hx h
  · intro h
    exact hasDerivAt_cells (Q := fun k v => patchV dx dy z zx zy zxy i k ((x - (x0 + i * dx)) / dx) v)
      (G := fun k v => patchY dx dy z zx zy zxy i k ((x - (x0 + i * dx)) / dx) v) g.dy_pos
      (f := fun w => sagR T x w) (f' := fun w => slopeY T x w)
      (fun k t hk ht hc => g.sagR_closed hi hk hxi' ht hx hc) (fun k t hk ht hc => g.slopeY_closed hi hk hxi' ht hx hc)
      (fun k v => patchV_deriv_v dx dy z zx zy zxy g.dy_pos.ne' i k _ v) hy h

theorem bicubicNormal_fin {a b x y : ℝ} (h : T.grad (.fin x) (.fin y) = (.fin a, .fin b)) :
    bicubicNormal T (.fin x) (.fin y) = (unitNormal a b).fin := by
  have hp := slope_pos a b
  have hs := (Real.sqrt_pos.mpr hp).ne'
  unfold bicubicNormal unitNormal
  rw [h]
  have hn : Arith.isNaN (Dbl.fin a) = false := by simp [Arith.isNaN]
  simp only [hn, Dbl.one_dbl, Dbl.mul_fin, Dbl.add_fin, Dbl.neg_fin, Dbl.sqrt_fin hp.le, Dbl.div_fin hs]
  rfl

/-- The open rectangle spanned by the grid. -/
def openRect (T : Table Dbl) (x0 y0 dx dy : ℝ) : Set (ℝ × ℝ) :=
  {p | (x0 < p.1 ∧ p.1 < x0 + ((T.nx : ℝ) - 1) * dx) ∧ (y0 < p.2 ∧ p.2 < y0 + ((T.ny : ℝ) - 1) * dy)}

/-- C22 for tables: normals are unit, upward and perpendicular on the open rectangle. -/
theorem C22_bicubic (g : Grid T x0 y0 dx dy z zx zy zxy) : TrueNormals (bicubic T) (openRect T x0 y0 dx dy) := by
  have hopen : IsOpen (openRect T x0 y0 dx dy) := by
    unfold openRect
    exact ((isOpen_lt continuous_const continuous_fst).inter (isOpen_lt continuous_fst continuous_const)).inter
      ((isOpen_lt continuous_const continuous_snd).inter (isOpen_lt continuous_snd continuous_const))
  refine trueNormals_of hopen (sagR T) (slopeX T) (slopeY T) ?_ ?_ ?_ ?_
  · rintro x y ⟨⟨h1, h2⟩, h3, h4⟩; exact (C26_finite_inside g ⟨h1.le, h2⟩ ⟨h3.le, h4⟩).1
  · rintro x y ⟨⟨h1, h2⟩, h3, h4⟩; exact (C26_gradient g ⟨h1.le, h2⟩ ⟨h3.le, h4⟩).1 h1
  · rintro x y ⟨⟨h1, h2⟩, h3, h4⟩; exact (C26_gradient g ⟨h1.le, h2⟩ ⟨h3.le, h4⟩).2 h3
  · rintro x y ⟨⟨h1, h2⟩, h3, h4⟩
    exact bicubicNormal_fin (C26_finite_inside g ⟨h1.le, h2⟩ ⟨h3.le, h4⟩).2

/-- Outside the grid: NaN everywhere, or a flat zero surface, according to `nanpolicy`. -/
theorem C26_outside (g : Grid T x0 y0 dx dy z zx zy zxy) {x y : ℝ}
    (h : ¬ (Covered T.nx x0 dx x ∧ Covered T.ny y0 dy y)) :
    (T.useNan = true → (bicubic T).sag (.fin x) (.fin y) = .nan ∧ (bicubic T).normal (.fin x) (.fin y) = ⟨.nan, .nan, .nan⟩) ∧
    (T.useNan = false → (bicubic T).sag (.fin x) (.fin y) = .fin 0 ∧
      (bicubic T).normal (.fin x) (.fin y) = V3.fin ⟨0, 0, 1⟩) := by
  have hc := g.cell_none h
  constructor
  · intro hn
    constructor
    · show T.eval _ _ = _
      unfold Table.eval; rw [hc]; simp only [hn, if_true]; rfl
    · show bicubicNormal T _ _ = _
      unfold bicubicNormal Table.grad
      rw [hc]; simp only [hn, if_true]
      rfl
  · intro hn
    constructor
    · show T.eval _ _ = _
      unfold Table.eval; rw [hc]; simp only [hn, Bool.false_eq_true, if_false, Dbl.zero_dbl]
    · show bicubicNormal T _ _ = _
      have hg : T.grad (.fin x) (.fin y) = (.fin 0, .fin 0) := by
        unfold Table.grad; rw [hc]; simp only [hn, Bool.false_eq_true, if_false, Dbl.zero_dbl]
      rw [bicubicNormal_fin hg, unitNormal_zero]
      simp only [V3.fin, V3.map, Dbl.zero_dbl, Dbl.one_dbl]

/-- The nodes on the upper edges are *not* reproduced: there the table reports "outside". -/
theorem C26_last_node_violated (g : Grid T x0 y0 dx dy z zx zy zxy) (hn : T.useNan = true) (hx : 0 < T.nx) (j : ℕ) :
    (bicubic T).sag (.fin (x0 + ((T.nx - 1 : ℕ) : ℝ) * dx)) (.fin (y0 + j * dy)) = .nan := by
  refine ((C26_outside g ?_).1 hn).1
  rintro ⟨⟨_, h⟩, _⟩
  rw [Nat.cast_sub hx] at h
  push_cast at h
  exact lt_irrefl _ h

/-! ## C27 -/

/-- Samples of `p + q x + s y + t x y` on a grid. -/
def bilinear (p q s t x y : ℝ) : ℝ := p + q * x + s * y + t * x * y

theorem rowDiff_linear {n : ℕ} (hn : 2 ≤ n) {h : ℝ} (hh : 0 < h) (a b c : ℝ) {i : ℕ} (hi : i < n) (f : ℕ → Dbl)
    (hf : ∀ k < n, f k = .fin (a + b * (c + k * h))) : rowDiff n (.fin h) f i = .fin b := by
  have h2 : (2:ℝ) * h ≠ 0 := by positivity
  unfold rowDiff
  split_ifs with h1 h0
  · obtain ⟨m, rfl⟩ : ∃ m, n = m + 2 := ⟨n - 2, by omega⟩
    rw [hf _ (by omega), hf _ (by omega), Dbl.sub_fin, Dbl.div_fin hh.ne']
    congr 1
    have e1 : ((m + 2 - 1 : ℕ) : ℝ) = m + 1 := by push_cast; ring
    have e2 : ((m + 2 - 2 : ℕ) : ℝ) = m := by push_cast; ring
    rw [e1, e2]; field_simp; ring
  · rw [hf _ (by omega), hf _ (by omega), Dbl.sub_fin, Dbl.div_fin hh.ne']
    congr 1
    push_cast; field_simp; ring
  · obtain ⟨m, rfl⟩ : ∃ m, i = m + 1 := ⟨i - 1, by omega⟩
    rw [hf _ (by omega), hf _ (by omega), Dbl.sub_fin, Dbl.ofNat_dbl', Dbl.mul_fin, Dbl.div_fin h2]
    congr 1
    push_cast; field_simp; ring

/-- The numpy construction as a `Grid`, with the slopes of the sampled function. -/
theorem ofGrid_grid {xa ya dx dy p q s t : ℝ} {nx ny : ℕ} (hnx : 2 ≤ nx) (hny : 2 ≤ ny) (hdx : 0 < dx) (hdy : 0 < dy)
    (zs : ℕ → ℕ → Dbl) (b : Bool)
    (hz : ∀ j < ny, ∀ i < nx, zs j i = .fin (bilinear p q s t (xa + i * dx) (ya + j * dy))) :
    Grid (Table.ofGrid (.fin xa) (.fin (xa + ((nx - 1 : ℕ) : ℝ) * dx)) (.fin ya) (.fin (ya + ((ny - 1 : ℕ) : ℝ) * dy)) nx ny zs b)
      xa ya dx dy (fun i j => bilinear p q s t (xa + i * dx) (ya + j * dy)) (fun _ j => q + t * (ya + j * dy))
      (fun i _ => s + t * (xa + i * dx)) (fun _ _ => t) := by
  have hpos : ∀ {n : ℕ}, 2 ≤ n → ((n - 1 : ℕ) : ℝ) ≠ 0 := fun h => by exact_mod_cast (by omega)
  have e : ∀ {n : ℕ} (hn : 2 ≤ n) (a d : ℝ), (Dbl.fin (a + ((n - 1 : ℕ) : ℝ) * d) - Dbl.fin a) / Arith.const ((n - 1 : ℕ) : ℚ) = Dbl.fin d := by
    intro n hn a d
    have h1 : ((((n - 1 : ℕ) : ℚ)) : ℝ) ≠ 0 := by
      push_cast; exact hpos hn
    rw [Dbl.const_dbl, Dbl.sub_fin, Dbl.div_fin h1]
    congr 1
    push_cast
    have := hpos hn
    field_simp; ring
  have ix : ∀ {i j : ℕ}, i < nx → (nx * j + i) / nx = j ∧ (nx * j + i) % nx = i := by
    intro i j hi
    constructor
    · rw [Nat.mul_add_div (by omega), Nat.div_eq_of_lt hi, Nat.add_zero]
    · rw [Nat.mul_add_mod, Nat.mod_eq_of_lt hi]
  have dzy : ∀ j < ny, ∀ i < nx, rowDiff ny (Dbl.fin dy) (fun j => zs j i) j = .fin (s + t * (xa + i * dx)) := by
    intro j hj i hi
    refine rowDiff_linear hny hdy (p + q * (xa + i * dx)) (s + t * (xa + i * dx)) ya hj _ ?_
    intro k hk
    rw [hz k hk i hi]; congr 1; unfold bilinear; ring
  refine ⟨rfl, rfl, e hnx _ _, e hny _ _, hdx, hdy, ?_, ?_, ?_, ?_⟩
  · intro j hj i hi
    simp only [Table.ofGrid, (ix hi).1, (ix hi).2]
    exact hz j hj i hi
  · intro j hj i hi
    simp only [Table.ofGrid, (ix hi).1, (ix hi).2, e hnx]
    refine rowDiff_linear hnx hdx (p + s * (ya + j * dy)) (q + t * (ya + j * dy)) xa hi _ ?_
    intro k hk
    rw [hz j hj k hk]; congr 1; unfold bilinear; ring
  · intro j hj i hi
    simp only [Table.ofGrid, (ix hi).1, (ix hi).2, e hny]
    exact dzy j hj i hi
  · intro j hj i hi
    simp only [Table.ofGrid, (ix hi).1, (ix hi).2, e hnx, e hny]
    refine rowDiff_linear hnx hdx s t xa hi _ ?_
    intro k hk
    exact dzy j hj k hk

/-- Data sampled from `p + q x + s y + t x y` give back exactly that function, with exact slopes, everywhere in the
grid.  Affine functions are the case `t = 0`. -/
theorem C27_bilinear {xa ya dx dy p q s t : ℝ} {nx ny : ℕ} (hnx : 2 ≤ nx) (hny : 2 ≤ ny) (hdx : 0 < dx) (hdy : 0 < dy)
    (zs : ℕ → ℕ → Dbl) (b : Bool)
    (hz : ∀ j < ny, ∀ i < nx, zs j i = .fin (p + q * (xa + i * dx) + s * (ya + j * dy) + t * (xa + i * dx) * (ya + j * dy)))
    {x y : ℝ} (hx : Covered nx xa dx x) (hy : Covered ny ya dy y) :
    let T := Table.ofGrid (.fin xa) (.fin (xa + ((nx - 1 : ℕ) : ℝ) * dx)) (.fin ya) (.fin (ya + ((ny - 1 : ℕ) : ℝ) * dy)) nx ny zs b
    (bicubic T).sag (.fin x) (.fin y) = .fin (p + q * x + s * y + t * x * y) ∧
      T.grad (.fin x) (.fin y) = (.fin (q + t * y), .fin (s + t * x)) := by
  intro T
  have g : Grid T _ _ _ _ _ _ _ _ := ofGrid_grid hnx hny hdx hdy zs b hz
  obtain ⟨i, hi, hxi⟩ := covered_cell hdx hx
  obtain ⟨j, hj, hyj⟩ := covered_cell hdy hy
  have hu : x = xa + i * dx + (x - (xa + i * dx)) / dx * dx := by field_simp; ring
  have hv : y = ya + j * dy + (y - (ya + j * dy)) / dy * dy := by field_simp; ring
  refine ⟨?_, ?_⟩
  · show T.eval _ _ = _
    rw [g.eval_cell hi hj hxi hyj]
    congr 1
    generalize (x - (xa + i * dx)) / dx = u at hu ⊢
    generalize (y - (ya + j * dy)) / dy = v at hv ⊢
    rw [hu, hv]
    unfold patchV herm bilinear
    push_cast; ring
  · rw [g.grad_cell hi hj hxi hyj]
    generalize (x - (xa + i * dx)) / dx = u at hu ⊢
    generalize (y - (ya + j * dy)) / dy = v at hv ⊢
    rw [hu, hv]
    unfold patchX patchY herm hermG bilinear
    congr 2
    · push_cast; field_simp; ring
    · push_cast; field_simp; ring

theorem C27_affine {xa ya dx dy p q s : ℝ} {nx ny : ℕ} (hnx : 2 ≤ nx) (hny : 2 ≤ ny) (hdx : 0 < dx) (hdy : 0 < dy)
    (zs : ℕ → ℕ → Dbl) (b : Bool)
    (hz : ∀ j < ny, ∀ i < nx, zs j i = .fin (p + q * (xa + i * dx) + s * (ya + j * dy)))
    {x y : ℝ} (hx : Covered nx xa dx x) (hy : Covered ny ya dy y) :
    let T := Table.ofGrid (.fin xa) (.fin (xa + ((nx - 1 : ℕ) : ℝ) * dx)) (.fin ya) (.fin (ya + ((ny - 1 : ℕ) : ℝ) * dy)) nx ny zs b
    (bicubic T).sag (.fin x) (.fin y) = .fin (p + q * x + s * y) ∧
      (bicubic T).normal (.fin x) (.fin y) = (unitNormal q s).fin := by
  intro T
  have := C27_bilinear (t := 0) hnx hny hdx hdy zs b (by simpa using hz) hx hy
  refine ⟨by simpa using this.1, ?_⟩
  exact bicubicNormal_fin (by simpa using this.2)

/-! ## Non-vacuity: a concrete 3 × 4 table of a plane -/

/-- A table on the grid `x ∈ {0, 1, 2}`, `y ∈ {0, 1/2, 1, 3/2}` sampled from `1 + 2x - y + 3xy`, default derivatives. -/
noncomputable def demoTable (b : Bool) : Table Dbl :=
  Table.ofGrid (.fin 0) (.fin (0 + ((3 - 1 : ℕ) : ℝ) * 1)) (.fin 0) (.fin (0 + ((4 - 1 : ℕ) : ℝ) * (1 / 2))) 3 4
    (fun j i => .fin (1 + 2 * (0 + i * 1) + (-1) * (0 + j * (1 / 2)) + 3 * (0 + i * 1) * (0 + j * (1 / 2)))) b

example (b : Bool) : Grid (demoTable b) 0 0 1 (1 / 2) (fun i j => bilinear 1 2 (-1) 3 (0 + i * 1) (0 + j * (1 / 2)))
    (fun _ j => 2 + 3 * (0 + j * (1 / 2))) (fun i _ => -1 + 3 * (0 + i * 1)) (fun _ _ => 3) :=
  ofGrid_grid (by norm_num) (by norm_num) (by norm_num) (by norm_num) _ b (fun j _ i _ => rfl)

/-- Away from its edges it is `1 + 2x - y + 3xy`. -/
example (b : Bool) : (bicubic (demoTable b)).sag (.fin (3 / 2)) (.fin (3 / 4)) = .fin (1 + 2 * (3 / 2) + (-1) * (3 / 4) + 3 * (3 / 2) * (3 / 4)) :=
  (C27_bilinear (by norm_num) (by norm_num) (by norm_num) (by norm_num) _ b (fun j _ i _ => rfl)
    ⟨by norm_num, by norm_num⟩ ⟨by norm_num, by norm_num⟩).1

end Batoid.Props
