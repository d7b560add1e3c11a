import Verif.CoordSys

/-!
# Rays and ray vectors

Model of one row of the arrays of `RayVector` (`include/rayVector.h`,
`batoid/rayVector.py` L46-77) and of the per-ray loops of `src/rayVector.cpp`.
-/

namespace Batoid
open Arith

/-- One ray: position, velocity, time, vacuum wavelength, flux and flags. -/
@[ext] structure Ray (F : Type) where
  r : V3 F
  v : V3 F
  t : F
  wavelength : F
  flux : F
  vignetted : Bool
  failed : Bool

/-- `RayVector`: arrays of equal length plus the coordinate system they refer to. -/
@[ext] structure RayVec (F : Type) where
  rays : List (Ray F)
  coordSys : CoordSys F

namespace Ray
variable {F : Type} [Arith F]

/-- `positionAtTime`: src/rayVector.cpp L49-53. -/
def positionAtTime (ray : Ray F) (t : F) : V3 F := ray.r + ray.v.smulR (t - ray.t)

/-- `propagateInPlace`: src/rayVector.cpp L76-81. -/
def propagate (ray : Ray F) (t : F) : Ray F :=
  { ray with r := ray.r + ray.v.smulR (t - ray.t), t := t }

/-- `phase`: src/rayVector.cpp L110-121 (the same expression in L155-162 and L207-214). -/
def phase (ray : Ray F) (r : V3 F) (t : F) : F :=
  (V3.dot (r - ray.r) ray.v / V3.dot ray.v ray.v - (t - ray.t)) * (2 * Arith.pi / ray.wavelength)

/-- `amplitude`: src/rayVector.cpp L155-165, (real, imaginary). -/
def amplitude (ray : Ray F) (r : V3 F) (t : F) : F × F :=
  (Arith.cos (ray.phase r t), Arith.sin (ray.phase r t))

/-- `applyForwardTransform`: src/batoid.cpp L94-107. -/
def forward (ct : CoordTransform F) (ray : Ray F) : Ray F :=
  { ray with r := ct.forward ray.r, v := ct.forwardVel ray.v }

/-- `applyReverseTransform`: src/batoid.cpp L134-147. -/
def reverse (ct : CoordTransform F) (ray : Ray F) : Ray F :=
  { ray with r := ct.reverse ray.r, v := ct.reverseVel ray.v }

end Ray

namespace RayVec
variable {F : Type} [Arith F]

/-- Body of the loop of `sumAmplitude`: src/rayVector.cpp L207-220. -/
def sumAmplitudeStep (r : V3 F) (t : F) (ignoreVignetted : Bool) (acc : F × F) (ray : Ray F) : F × F :=
  if !ray.failed && !(ignoreVignetted && ray.vignetted) then
    (acc.1 + (ray.amplitude r t).1 * ray.flux, acc.2 + (ray.amplitude r t).2 * ray.flux)
  else acc

/-- `sumAmplitude`: src/rayVector.cpp L169-222, sequential order of the reduction. -/
def sumAmplitude (rv : RayVec F) (r : V3 F) (t : F) (ignoreVignetted : Bool) : F × F :=
  rv.rays.foldl (sumAmplitudeStep r t ignoreVignetted) (0, 0)

/-- `applyForwardTransform`: batoid/trace.py L5-11. -/
def applyForward (ct : CoordTransform F) (rv : RayVec F) : RayVec F :=
  ⟨rv.rays.map (Ray.forward ct), ct.toSys⟩

/-- `applyReverseTransform`: batoid/trace.py L14-20. -/
def applyReverse (ct : CoordTransform F) (rv : RayVec F) : RayVec F :=
  ⟨rv.rays.map (Ray.reverse ct), ct.fromSys⟩

/-- `RayVector.toCoordSys`: batoid/rayVector.py L1272-1287. -/
def toCoordSys (rv : RayVec F) (cs : CoordSys F) : RayVec F :=
  applyForward (CoordTransform.make rv.coordSys cs) rv

/-- `RayVector.propagate`: batoid/rayVector.py L139-154. -/
def propagate (rv : RayVec F) (t : F) : RayVec F :=
  ⟨rv.rays.map (fun ray => ray.propagate t), rv.coordSys⟩

end RayVec
end Batoid
