import Verif.Kernels

/-!
# Histories of public ray operations

The public functions that act in place on a `RayVector` (`batoid/trace.py`, methods of
`batoid/rayVector.py`) as one inductive type, so that properties can range over arbitrary
finite histories.
-/

namespace Batoid

/-- One public operation on a ray vector. `rSplit` appears twice, once per returned vector. -/
inductive RayOp (F : Type) where
  | intersect (s : Surface F) (cs : Option (CoordSys F)) (c : Option (Coating F)) (niter : ℕ)
  | reflect (s : Surface F) (cs : Option (CoordSys F)) (c : Option (Coating F)) (niter : ℕ)
  | refract (s : Surface F) (m1 m2 : Medium F) (cs : Option (CoordSys F)) (c : Option (Coating F)) (niter : ℕ)
  | splitRefracted (s : Surface F) (m1 m2 : Medium F) (c : Coating F) (cs : Option (CoordSys F)) (niter : ℕ)
  | splitReflected (s : Surface F) (m1 m2 : Medium F) (c : Coating F) (cs : Option (CoordSys F)) (niter : ℕ)
  | refractScreen (s screen : Surface F) (cs : Option (CoordSys F)) (niter : ℕ)
  | obscure (o : Obsc F)
  | toCoordSys (cs : CoordSys F)
  | applyForward (ct : CoordTransform F)
  | applyReverse (ct : CoordTransform F)
  | propagate (t : F)

namespace RayOp
variable {F : Type} [Arith F]

/-- Effect of the operation. -/
def run (rv : RayVec F) : RayOp F → RayVec F
  | .intersect s cs c n => rv.intersect s cs c n
  | .reflect s cs c n => rv.reflect s cs c n
  | .refract s m1 m2 cs c n => rv.refract s m1 m2 cs c n
  | .splitRefracted s m1 m2 c cs n => (rv.rSplit s m1 m2 c cs n).1
  | .splitReflected s m1 m2 c cs n => (rv.rSplit s m1 m2 c cs n).2
  | .refractScreen s sc cs n => rv.refractScreen s sc cs n
  | .obscure o => rv.obscure o
  | .toCoordSys cs => rv.toCoordSys cs
  | .applyForward ct => rv.applyForward ct
  | .applyReverse ct => rv.applyReverse ct
  | .propagate t => rv.propagate t

/-- The function the operation applies to each ray, given the frame of the vector. -/
def onRay (from_ : CoordSys F) : RayOp F → Ray F → Ray F
  | .intersect s cs c n => Ray.intersect s (CoordTransform.make from_ (cs.getD from_)) c n
  | .reflect s cs c n => Ray.reflect s (CoordTransform.make from_ (cs.getD from_)) c n
  | .refract s _ m2 cs c n => Ray.refract s (CoordTransform.make from_ (cs.getD from_)) m2 c n
  | .splitRefracted s _ m2 c cs n => fun ray =>
      (Ray.rSplit s (CoordTransform.make from_ (cs.getD from_)) m2 c n ray).1
  | .splitReflected s _ m2 c cs n => fun ray =>
      (Ray.rSplit s (CoordTransform.make from_ (cs.getD from_)) m2 c n ray).2
  | .refractScreen s sc cs n => Ray.refractScreen s (CoordTransform.make from_ (cs.getD from_)) sc n
  | .obscure o => Ray.obscure o
  | .toCoordSys cs => Ray.forward (CoordTransform.make from_ cs)
  | .applyForward ct => Ray.forward ct
  | .applyReverse ct => Ray.reverse ct
  | .propagate t => fun ray => ray.propagate t

theorem run_rays (rv : RayVec F) (op : RayOp F) :
    (op.run rv).rays = rv.rays.map (op.onRay rv.coordSys) := by
  cases op <;> rfl

/-- Operations that look for an intersection with a surface. -/
def isSurfaceOp : RayOp F → Bool
  | .obscure _ => false
  | .toCoordSys _ => false
  | .applyForward _ => false
  | .applyReverse _ => false
  | .propagate _ => false
  | _ => true

/-- Run a history. -/
def runAll (rv : RayVec F) (ops : List (RayOp F)) : RayVec F := ops.foldl run rv

end RayOp
end Batoid
