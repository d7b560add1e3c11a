import Verif.Arith

/-!
# Sky coordinates of the application

Model of `lst`, `eq_to_az` and `az_to_eq` of `batoid/app.py` (L54-97).

`Arith` has no `arctan2`; it is composed of `atan` as in the C standard.  Infinite arguments, which would need cases of their own, only
arise from divisions by zero and then give NaN here.
-/

namespace Batoid.Sky
open Arith
variable {F : Type} [Arith F]

/-- `np.arctan2(y, x)` for arguments that are not infinite. -/
def arctan2 (y x : F) : F :=
  if lt 0 x then atan (y / x)
  else if lt x 0 then (if lt y 0 then atan (y / x) - Arith.pi else atan (y / x) + Arith.pi)
  else if lt 0 y then Arith.pi / 2
  else if lt y 0 then -(Arith.pi / 2)
  else if eq y 0 && eq x 0 then 0
  else nan

/-- `np.deg2rad`. -/
def deg2rad (x : F) : F := x * (Arith.pi / const 180)

/-- `np.rad2deg`. -/
def rad2deg (x : F) : F := x * (const 180 / Arith.pi)

/-- `x % y` on floats with `y > 0`. -/
def fmod (x y : F) : F := x - y * const (floor (x / y) : ℚ)

/-- `lst`: batoid/app.py L54-63. -/
def lst (jd lon : F) : F :=
  let T := jd / const 36525
  fmod (const (28046061837 / 100000000) + const (36098564736629 / 100000000000) * (jd - const 2451545)
    + const (387933 / 1000000000) * T * T - T * T * T / const 38710000 + lon) (const 360)

/-- `eq_to_az`: batoid/app.py L66-81.  The result is the pair of altitude and azimuth. -/
def eqToAz (raDeg decDeg jd latDeg lonDeg : F) : F × F :=
  let ra := deg2rad raDeg
  let dec := deg2rad decDeg
  let ha := deg2rad (lst jd lonDeg) - ra
  let lat := deg2rad latDeg
  let sinlat := sin lat
  let coslat := cos lat
  let sindec := sin dec
  let sinalt := sindec * sinlat + cos dec * coslat * cos ha
  let alt := asin sinalt
  let sinaz := -(sin ha) * cos dec / cos alt
  let cosaz := (sindec - sinalt * sinlat) / (cos alt * coslat)
  (rad2deg alt, rad2deg (arctan2 sinaz cosaz))

/-- `az_to_eq`: batoid/app.py L84-94.  The result is the pair of right ascension and declination. -/
def azToEq (altDeg azDeg jd latDeg lonDeg : F) : F × F :=
  let alt := deg2rad altDeg
  let az := deg2rad azDeg
  let lat := deg2rad latDeg
  let sindec := sin alt * sin lat + cos alt * cos lat * cos az
  let dec := asin sindec
  let sinha := -(sin az) * cos alt / cos dec
  let cosha := (sin alt - sin dec * sin lat) / (cos dec * cos lat)
  let ha := arctan2 sinha cosha
  let ra := deg2rad (lst jd lonDeg) - ha
  (rad2deg ra, rad2deg dec)

end Batoid.Sky
