import Verif.Props.Malus
import Verif.Props.Bicubic

/-!
# Tabulated surfaces are smooth inside their cells (C98, C105, C106)

Inside a cell the spline is a polynomial.  On the edges between cells it has continuous slopes only (C26), so the theorems
that differentiate the normal do not apply there.
-/

namespace Batoid.Props
open Batoid Batoid.Surface Filter Topology

/-- Strictly inside cell `i`. -/
def InsideCell (x0 dx x : ℝ) (i : ℕ) : Prop := x0 + i * dx < x ∧ x < x0 + (i + 1) * dx

theorem InsideCell.inCell {x0 dx x : ℝ} {i : ℕ} (h : InsideCell x0 dx x i) : InCell x0 dx x i := ⟨h.1.le, h.2⟩

theorem inside_eventually {x0 dx x : ℝ} {i : ℕ} (h : InsideCell x0 dx x i) : ∀ᶠ u in 𝓝 x, InsideCell x0 dx u i :=
  (lt_mem_nhds h.1).and (gt_mem_nhds h.2)

section
variable {T : Table Dbl} {x0 y0 dx dy : ℝ} {z zx zy zxy : ℕ → ℕ → ℝ}

/-- C98: a table is smooth strictly inside every cell. -/
theorem C98_smooth_bicubic (g : Grid T x0 y0 dx dy z zx zy zxy) {i j : ℕ} (hi : i + 1 < T.nx) (hj : j + 1 < T.ny) {q : ℝ × ℝ}
    (hx : InsideCell x0 dx q.1 i) (hy : InsideCell y0 dy q.2 j) : ∃ f gx gy, SmoothAt (bicubic T) f gx gy q := by
  have near : ∀ᶠ p in 𝓝 q, InsideCell x0 dx p.1 i ∧ InsideCell y0 dy p.2 j :=
    (continuousAt_fst.eventually (inside_eventually hx)).and (continuousAt_snd.eventually (inside_eventually hy))
  let f : ℝ × ℝ → ℝ := fun p => patchV dx dy z zx zy zxy i j ((p.1 - (x0 + i * dx)) / dx) ((p.2 - (y0 + j * dy)) / dy)
  let gx : ℝ × ℝ → ℝ := fun p => patchX dx dy z zx zy zxy i j ((p.1 - (x0 + i * dx)) / dx) ((p.2 - (y0 + j * dy)) / dy)
  let gy : ℝ × ℝ → ℝ := fun p => patchY dx dy z zx zy zxy i j ((p.1 - (x0 + i * dx)) / dx) ((p.2 - (y0 + j * dy)) / dy)
  have df : DifferentiableAt ℝ f q := by
    show DifferentiableAt ℝ (fun p : ℝ × ℝ => patchV dx dy z zx zy zxy i j ((p.1 - (x0 + i * dx)) / dx) ((p.2 - (y0 + j * dy)) / dy)) q
    unfold patchV herm; fun_prop
  have dgx : DifferentiableAt ℝ gx q := by
    show DifferentiableAt ℝ (fun p : ℝ × ℝ => patchX dx dy z zx zy zxy i j ((p.1 - (x0 + i * dx)) / dx) ((p.2 - (y0 + j * dy)) / dy)) q
    unfold patchX herm hermG; fun_prop
  have dgy : DifferentiableAt ℝ gy q := by
    show DifferentiableAt ℝ (fun p : ℝ × ℝ => patchY dx dy z zx zy zxy i j ((p.1 - (x0 + i * dx)) / dx) ((p.2 - (y0 + j * dy)) / dy)) q
    unfold patchY herm hermG; fun_prop
  have hdx := g.dx_pos.ne'
  have hdy := g.dy_pos.ne'
  have hux : HasDerivAt (fun u => f (u, q.2)) (gx q) q.1 := by
    have hs : HasDerivAt (fun u : ℝ => (u - (x0 + i * dx)) / dx) (1 / dx) q.1 := ((hasDerivAt_id' q.1).sub_const _).div_const dx
    exact (HasDerivAt.comp q.1 (h₂ := fun u => patchV dx dy z zx zy zxy i j u ((q.2 - (y0 + j * dy)) / dy))
      (patchV_deriv_u dx dy z zx zy zxy hdx i j _ _) hs).congr_deriv (by simp only [gx]; field_simp)
  have huy : HasDerivAt (fun u => f (q.1, u)) (gy q) q.2 := by
    have hs : HasDerivAt (fun u : ℝ => (u - (y0 + j * dy)) / dy) (1 / dy) q.2 := ((hasDerivAt_id' q.2).sub_const _).div_const dy
    exact (HasDerivAt.comp q.2 (h₂ := fun u => patchV dx dy z zx zy zxy i j ((q.1 - (x0 + i * dx)) / dx) u)
      (patchV_deriv_v dx dy z zx zy zxy hdy i j _ _) hs).congr_deriv (by simp only [gy]; field_simp)
  refine ⟨f, gx, gy, ?_, ?_, ?_, dgx, dgy⟩
  · filter_upwards [near] with p hp
    exact g.eval_cell hi hj hp.1.inCell hp.2.inCell
  · filter_upwards [near] with p hp
    exact bicubicNormal_fin (g.grad_cell hi hj hp.1.inCell hp.2.inCell)
  · refine df.hasFDerivAt.congr_fderiv ?_
    have h1 : HasDerivAt (fun u => f (u, q.2)) _ q.1 :=
      HasFDerivAt.comp_hasDerivAt (f := fun u : ℝ => (u, q.2)) q.1 df.hasFDerivAt ((hasDerivAt_id' q.1).prodMk (hasDerivAt_const q.1 q.2))
    have h2 : HasDerivAt (fun u => f (q.1, u)) _ q.2 :=
      HasFDerivAt.comp_hasDerivAt (f := fun u : ℝ => (q.1, u)) q.2 df.hasFDerivAt ((hasDerivAt_const q.2 q.1).prodMk (hasDerivAt_id' q.2))
    ext
    · simpa using h1.unique hux
    · simpa using h2.unique huy

end

/-- The table of C27 at the middle of its second cell. -/
example (b : Bool) : ∃ f gx gy, SmoothAt (bicubic (demoTable b)) f gx gy (3 / 2, 3 / 4) := by
  have g : Grid (demoTable b) 0 0 1 (1 / 2) _ _ _ _ :=
    ofGrid_grid (by norm_num) (by norm_num) (by norm_num) (by norm_num) _ b (fun j _ i _ => rfl)
  exact C98_smooth_bicubic g (i := 1) (j := 1) (by simp [demoTable, Table.ofGrid]) (by simp [demoTable, Table.ofGrid]) ⟨by norm_num, by norm_num⟩
    ⟨by norm_num, by norm_num⟩

end Batoid.Props
