import Verif.Construct
import Verif.RayVector

/-!
# Fans of rays

Model of `RayVector.asFan` (batoid/rayVector.py L446-457).  The options of `asGrid` are passed on; random grids are left out.
-/

namespace Batoid.Construct
open Arith
variable {F : Type} [Arith F]

/-- `if n > 1: rvs.append(RayVector.asGrid(...))`; comparing `None` with a number raises. -/
def fanPart (n : Option ℤ) (g : ℤ → GridArgs F) (a : Args F) (flux : F) : Except PyErr (List (Option (RayVec F))) :=
  match n with
  | none => .error .typeError
  | some k => if 1 < k then (asGrid a (g k) none flux).map fun r => [r] else .ok []

/-- A grid with a `source` is `None`, whose attribute `x` the concatenation asks for. -/
def present : Option (RayVec F) → Except PyErr (RayVec F)
  | some rv => .ok rv
  | none => .error .attributeError

/-- `RayVector.asFan`: batoid/rayVector.py L446-457. -/
def asFan (a : Args F) (g : GridArgs F) (flux : F) : Except PyErr (RayVec F) := do
  let first ← fanPart g.nx (fun k => { g with nx := some k, ny := some 1 }) a flux
  let second ← fanPart g.ny (fun k => { g with nx := some 1, ny := some k }) a flux
  let rvs ← (first ++ second).mapM present
  RayVec.concatenate rvs

end Batoid.Construct
