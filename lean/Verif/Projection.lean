import Verif.Arith
import Verif.Py

/-!
# Field projections

Model of `batoid/utils.py` L21-481, one element at a time.  For arrays the code masks the elements where the formula divides
by zero and overwrites them; for scalars it returns early.  Both have the effect of the `if` below on each element.
-/

namespace Batoid.Projection
open Arith
variable {F : Type} [Arith F]

/-- `gnomonicToDirCos`: batoid/utils.py L21-44. -/
def gnomonicToDirCos (u v : F) : F × F × F :=
  let gamma := 1 / Arith.sqrt (1 + u * u + v * v)
  (u * gamma, v * gamma, -gamma)

/-- `dirCosToGnomonic`: batoid/utils.py L47-69. -/
def dirCosToGnomonic (alpha beta gamma : F) : F × F := (-alpha / gamma, -beta / gamma)

/-- `postelToDirCos`: batoid/utils.py L72-109. -/
def postelToDirCos (u v : F) : F × F × F :=
  let rho := Arith.sqrt (u * u + v * v)
  if eq rho 0 then (0, 0, const (-1))
  else
    let srho := Arith.sin rho
    (u / rho * srho, v / rho * srho, -Arith.cos rho)

/-- `dirCosToPostel`: batoid/utils.py L112-146. -/
def dirCosToPostel (alpha beta gamma : F) : F × F :=
  if eq gamma (const (-1)) then (0, 0)
  else
    let rho := Arith.acos (-gamma)
    let srho := Arith.sin rho
    (alpha * rho / srho, beta * rho / srho)

/-- `zemaxToDirCos`: batoid/utils.py L149-175. -/
def zemaxToDirCos (u v : F) : F × F × F :=
  let tanu := Arith.tan u
  let tanv := Arith.tan v
  let norm := Arith.sqrt (1 + tanu * tanu + tanv * tanv)
  (tanu / norm, tanv / norm, const (-1) / norm)

/-- `dirCosToZemax`: batoid/utils.py L178-202. -/
def dirCosToZemax (alpha beta gamma : F) : F × F := (Arith.atan (-alpha / gamma), Arith.atan (-beta / gamma))

/-- `stereographicToDirCos`: batoid/utils.py L205-241. -/
def stereographicToDirCos (u v : F) : F × F × F :=
  let rho := Arith.sqrt (u * u + v * v)
  if eq rho 0 then (0, 0, const (-1))
  else
    let theta := 2 * Arith.atan (rho / 2)
    let stheta := Arith.sin theta
    (u / rho * stheta, v / rho * stheta, -Arith.cos theta)

/-- `dirCosToStereographic`: batoid/utils.py L244-278. -/
def dirCosToStereographic (alpha beta gamma : F) : F × F :=
  if eq gamma (const (-1)) then (0, 0)
  else
    let theta := Arith.acos (-gamma)
    let rho := 2 * Arith.tan (theta / 2)
    let stheta := Arith.sin theta
    (alpha * rho / stheta, beta * rho / stheta)

/-- `orthographicToDirCos`: batoid/utils.py L281-305. -/
def orthographicToDirCos (u v : F) : F × F × F :=
  let rho := Arith.sqrt (u * u + v * v)
  let theta := Arith.asin rho
  (u, v, -Arith.cos theta)

/-- `dirCosToOrthographic`: batoid/utils.py L308-329. -/
def dirCosToOrthographic (alpha beta _gamma : F) : F × F := (alpha, beta)

/-- `lambertToDirCos`: batoid/utils.py L332-369. -/
def lambertToDirCos (u v : F) : F × F × F :=
  let rhosqr := u * u + v * v
  if eq rhosqr 0 then (0, 0, const (-1))
  else
    let rho := Arith.sqrt rhosqr
    let gamma := (2 - rhosqr) / 2
    let r := Arith.sqrt (1 - gamma * gamma)
    (u * r / rho, v * r / rho, -gamma)

/-- `dirCosToLambert`: batoid/utils.py L372-406. -/
def dirCosToLambert (alpha beta gamma : F) : F × F :=
  if eq gamma (const (-1)) then (0, 0)
  else
    let rho := Arith.sqrt (2 + 2 * gamma)
    let norm := Arith.sqrt (1 - gamma * gamma)
    (alpha * rho / norm, beta * rho / norm)

/-- `fieldToDirCos`: batoid/utils.py L409-443. -/
def fieldToDirCos (u v : F) (projection : String) : Except PyErr (F × F × F) :=
  if projection = "postel" then .ok (postelToDirCos u v)
  else if projection = "zemax" then .ok (zemaxToDirCos u v)
  else if projection = "gnomonic" then .ok (gnomonicToDirCos u v)
  else if projection = "stereographic" then .ok (stereographicToDirCos u v)
  else if projection = "lambert" then .ok (lambertToDirCos u v)
  else if projection = "orthographic" then .ok (orthographicToDirCos u v)
  else .error .valueError

/-- `dirCosToField`: batoid/utils.py L446-480. -/
def dirCosToField (alpha beta gamma : F) (projection : String) : Except PyErr (F × F) :=
  if projection = "postel" then .ok (dirCosToPostel alpha beta gamma)
  else if projection = "zemax" then .ok (dirCosToZemax alpha beta gamma)
  else if projection = "gnomonic" then .ok (dirCosToGnomonic alpha beta gamma)
  else if projection = "stereographic" then .ok (dirCosToStereographic alpha beta gamma)
  else if projection = "lambert" then .ok (dirCosToLambert alpha beta gamma)
  else if projection = "orthographic" then .ok (dirCosToOrthographic alpha beta gamma)
  else .error .valueError

end Batoid.Projection
