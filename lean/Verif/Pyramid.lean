import Verif.Arith
import Verif.Py

/-!
# The layout of Zernike plots

Model of `zernikePyramid` (batoid/plotUtils.py L21-137): where the panels are put, what they show and in which colour range.

Simplifications: matplotlib is not modelled.  A panel is described by its cell of the grid and by how far it is moved at the end, in halves
of the width of a cell (`amt` is half the distance of the panels 4 and 5).  The deprecated
`title`, the callback and the figure options are left out.  `noll_to_zern` of galsim is a parameter.
-/

namespace Batoid.Pyramid
open Arith
variable {F : Type} [Arith F]

/-- One panel. -/
structure Panel (F : Type) where
  j : ℤ
  row : ℤ
  col : ℤ
  moved : ℤ            -- in halves of the width of a cell
  index : ℤ            -- the row of `zs` it shows
  vmin : F
  vmax : F

/-- The cell of a panel: batoid/plotUtils.py L89-92. -/
def cell (nmin ncol n m : ℤ) : ℤ × ℤ :=
  if n % 2 = 0 then (n - nmin, m / 2 + ncol / 2) else (n - nmin, (m - 1) / 2 + ncol / 2)

/-- To which side a panel is moved: batoid/plotUtils.py L96-99, L131-132. -/
def moved (nmax n : ℤ) : ℤ :=
  if nmax % 2 = 0 ∧ (nmax - n) % 2 = 1 then 1
  else if nmax % 2 = 1 ∧ (nmax - n) % 2 = 1 then -1
  else 0

/-- The colour range: batoid/plotUtils.py L105-110.  Division of Python numbers by the integer zero raises. -/
def range (vdim : Bool) (n : ℤ) (vmin vmax : F) : Except PyErr (F × F) :=
  if vdim then
    if n = 0 then .error .zeroDivisionError else .ok (vmin / const (n : ℚ), vmax / const (n : ℚ))
  else .ok (vmin, vmax)

/-- The distance of the panels 4 and 5 in cells, twice `amt`: batoid/plotUtils.py L130. -/
def amount (noll : ℤ → ℤ × ℤ) (nmin ncol : ℤ) : ℤ := (cell nmin ncol (noll 4).1 (noll 4).2).2 - (cell nmin ncol (noll 5).1 (noll 5).2).2

/-- One panel: the bodies of the two loops. -/
def panel (noll : ℤ → ℤ × ℤ) (jmin nmin nmax ncol : ℤ) (vdim : Bool) (vmin vmax : F) (j : ℤ) : Except PyErr (Panel F) := do
  let (n, m) := noll j
  let (row, col) := cell nmin ncol n m
  let (lo, hi) ← range vdim n vmin vmax
  pure ⟨j, row, col, moved nmax n * amount noll nmin ncol, j - jmin, lo, hi⟩

/-- `zernikePyramid(xs, ys, zs, jmin, vmin, vmax, vdim)`, for `zs` with `count` rows.  `noll_to_zern` refuses indices below one,
`GridSpec` an empty grid; L130 needs the panels 4 and 5. -/
def zernikePyramid (noll : ℤ → ℤ × ℤ) (count : ℕ) (jmin : ℤ) (vdim : Bool) (vmin vmax : F) : Except PyErr (List (Panel F)) :=
  let jmax := (count : ℤ) + jmin - 1                                     -- L67
  if jmax < 1 ∨ jmin < 1 then .error .valueError                         -- L68-69
  else
    let nmax := (noll jmax).1
    let nmin := (noll jmin).1
    let nrow := nmax - nmin + 1
    let ncol := nmax + 1
    if nrow ≤ 0 then .error .valueError                                  -- L73
    else do
      let ps ← ((List.range count).map fun k : ℕ => jmin + (k : ℤ)).mapM (panel noll jmin nmin nmax ncol vdim vmin vmax)
      if jmin ≤ 4 ∧ 4 ≤ jmax ∧ jmin ≤ 5 ∧ 5 ≤ jmax then pure ps else .error .keyError   -- L130

end Batoid.Pyramid
