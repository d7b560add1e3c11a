import Verif.Ray
import Verif.Surface
import Verif.Medium
import Verif.Obscuration

/-!
# Ray kernels

Model of the per-ray loop bodies of `src/batoid.cpp` and of their python
wrappers in `batoid/trace.py`, generic in the arithmetic.
-/

namespace Batoid
open Arith

namespace Ray
variable {F : Type} [Arith F]

/-- Loop body of `obscure`: src/batoid.cpp L169-171. -/
def obscure (o : Obsc F) (ray : Ray F) : Ray F :=
  { ray with vignetted := ray.vignetted || o.contains ray.r.x ray.r.y }

/-- The result of a failed intersection: src/batoid.cpp L265-266 (and L373, L501, L667, L840). -/
def markFailed (ray : Ray F) : Ray F := { ray with failed := true, vignetted := true }

/-- `1/sqrt(vx*vx + vy*vy + vz*vz)`: src/batoid.cpp L254-257. -/
def invSpeed (v : V3 F) : F := 1 / Arith.sqrt (V3.dot v v)

/-- Loop body of `intersect`: src/batoid.cpp L223-269. -/
def intersect (s : Surface F) (ct : CoordTransform F) (coating : Option (Coating F)) (niter : ℕ)
    (ray : Ray F) : Ray F :=
  if ray.failed then ray else
    let r := ct.forward ray.r
    let v := ct.forwardVel ray.v
    match s.timeToIntersect r v 0 niter with
    | (false, _) => ray.markFailed
    | (true, dt) =>
      let r' := r + v.smulR dt
      let flux := match coating with
        | none => ray.flux
        | some c =>
          let n := s.normal r'.x r'.y
          ray.flux * c.getTransmit ray.wavelength (V3.dot v n * invSpeed v)
      { ray with r := r', v := v, t := ray.t + dt, flux := flux }

/-- Loop body of `reflect`: src/batoid.cpp L321-377. -/
def reflect (s : Surface F) (ct : CoordTransform F) (coating : Option (Coating F)) (niter : ℕ)
    (ray : Ray F) : Ray F :=
  if ray.failed then ray else
    let r := ct.forward ray.r
    let v := ct.forwardVel ray.v
    match s.timeToIntersect r v 0 niter with
    | (false, _) => ray.markFailed
    | (true, dt) =>
      let r' := r + v.smulR dt
      let n := s.normal r'.x r'.y
      let alpha := V3.dot v n
      let v' := v - V3.smul (2 * alpha) n
      let flux := match coating with
        | none => ray.flux
        | some c => ray.flux * c.getReflect ray.wavelength (alpha * invSpeed v')
      { ray with r := r', v := v', t := ray.t + dt, flux := flux }

/-- Flip the normal against the ray: src/batoid.cpp L465-473. Returns `(n, alpha)`. -/
def orient (n : V3 F) (nv : V3 F) : V3 F × F :=
  let alpha := V3.dot nv n
  if gt alpha 0 then (n.smulR (const (-1)), alpha * const (-1)) else (n, alpha)

/-- Refracted velocity, `none` for total internal reflection: src/batoid.cpp L455-496. -/
def refractDir (n2 : F) (nrm : V3 F) (v : V3 F) : Option (V3 F) :=
  let n1 := invSpeed v
  let nv := v.smulR n1
  let o := orient nrm nv
  let eta := n1 / n2
  let sinsqr := eta * eta * (1 - o.2 * o.2)
  if gt sinsqr 1 then none
  else
    let nfactor := eta * o.2 + Arith.sqrt (1 - sinsqr)
    let w := V3.smul eta nv - V3.smul nfactor o.1
    some ⟨w.x / n2, w.y / n2, w.z / n2⟩

/-- Loop body of `refract`: src/batoid.cpp L431-505. -/
def refract (s : Surface F) (ct : CoordTransform F) (m2 : Medium F) (coating : Option (Coating F))
    (niter : ℕ) (ray : Ray F) : Ray F :=
  if ray.failed then ray else
    let r := ct.forward ray.r
    let v := ct.forwardVel ray.v
    match s.timeToIntersect r v 0 niter with
    | (false, _) => ray.markFailed
    | (true, dt) =>
      let r' := r + v.smulR dt
      let n := s.normal r'.x r'.y
      let alpha := (orient n (v.smulR (invSpeed v))).2
      let flux := match coating with
        | none => ray.flux
        | some c => ray.flux * c.getTransmit ray.wavelength alpha
      match refractDir (m2.getN ray.wavelength) n v with
      | none =>
        { ray with r := r', v := ⟨nan, nan, nan⟩, t := ray.t + dt, flux := flux,
                   failed := true, vignetted := true }
      | some v' => { ray with r := r', v := v', t := ray.t + dt, flux := flux }

/-- Loop body of `rSplit`: src/batoid.cpp L581-673.  First component: the refracted ray stored in
`rv`, second: the reflected ray stored in `rvSplit` (which starts as a copy of `rv`,
batoid/trace.py L125). -/
def rSplit (s : Surface F) (ct : CoordTransform F) (m2 : Medium F) (coating : Coating F)
    (niter : ℕ) (ray : Ray F) : Ray F × Ray F :=
  if ray.failed then (ray, ray) else
    let r := ct.forward ray.r
    let v := ct.forwardVel ray.v
    match s.timeToIntersect r v 0 niter with
    | (false, _) => (ray.markFailed, ray.markFailed)
    | (true, dt) =>
      let r' := r + v.smulR dt
      let t' := ray.t + dt
      let n1 := invSpeed v
      let n := s.normal r'.x r'.y
      let o := orient n (v.smulR n1)
      let rt := coating.getCoefs ray.wavelength o.2
      let k := 2 * o.2
      let v2 : V3 F := ⟨v.x - k * o.1.x / n1, v.y - k * o.1.y / n1, v.z - k * o.1.z / n1⟩
      let reflected := { ray with r := r', v := v2, t := t', flux := ray.flux * rt.1 }
      let refracted := match refractDir (m2.getN ray.wavelength) n v with
        | none =>
          { ray with r := r', v := ⟨nan, nan, nan⟩, t := t', flux := ray.flux * rt.2,
                     failed := true, vignetted := true }
        | some v' => { ray with r := r', v := v', t := t', flux := ray.flux * rt.2 }
      (refracted, reflected)

/-- Bent velocity of `refractScreen`: src/batoid.cpp L743-821. `e3` is the surface normal, `g` the
screen gradient. -/
def screenDir (e3 : V3 F) (g : F × F) (v : V3 F) : V3 F :=
  let norm := Arith.sqrt (V3.dot v v)
  let norm_inv := 1 / norm
  let e1norm := Arith.sqrt (e3.z * e3.z + e3.x * e3.x)
  let e1 : V3 F := ⟨e3.z / e1norm, 0, -e3.x / e1norm⟩
  let e2 := V3.cross e3 e1
  let cos1 := v.x * norm_inv * e1.x + v.y * norm_inv * e1.y + v.z * norm_inv * e1.z
  let cos2 := v.x * norm_inv * e2.x + v.y * norm_inv * e2.y + v.z * norm_inv * e2.z
  let cos3 := v.x * norm_inv * e3.x + v.y * norm_inv * e3.y + v.z * norm_inv * e3.z
  let dPd1 := g.1 * e1.x + g.2 * e1.y
  let dPd2 := g.1 * e2.x + g.2 * e2.y
  let down := lt cos3 0
  let c1 := if down then cos1 + dPd1 else cos1 - dPd1
  let c2 := if down then cos2 + dPd2 else cos2 - dPd2
  let c3 := if down then -Arith.sqrt (1 - c1 * c1 - c2 * c2) else Arith.sqrt (1 - c1 * c1 - c2 * c2)
  ⟨c1 * norm * e1.x + c2 * norm * e2.x + c3 * norm * e3.x,
   c1 * norm * e1.y + c2 * norm * e2.y + c3 * norm * e3.y,
   c1 * norm * e1.z + c2 * norm * e2.z + c3 * norm * e3.z⟩

/-- Loop body of `refractScreen`: src/batoid.cpp L720-844. -/
def refractScreen (s : Surface F) (ct : CoordTransform F) (screen : Surface F) (niter : ℕ)
    (ray : Ray F) : Ray F :=
  if ray.failed then ray else
    let r := ct.forward ray.r
    let v := ct.forwardVel ray.v
    match s.timeToIntersect r v 0 niter with
    | (false, _) => ray.markFailed
    | (true, dt) =>
      let r' := r + v.smulR dt
      let v' := screenDir (s.normal r'.x r'.y) (screen.grad r'.x r'.y) v
      { ray with r := r', v := v', t := ray.t + dt + screen.sag r'.x r'.y }

end Ray

namespace RayVec
variable {F : Type} [Arith F]

/-- `coordSys = rv.coordSys if coordSys is None`: batoid/trace.py L69-71. -/
def target (rv : RayVec F) (cs : Option (CoordSys F)) : CoordSys F := cs.getD rv.coordSys

/-- Shape shared by the wrappers of batoid/trace.py L47-153: build the transform, run the kernel on
every ray, then overwrite `rv.coordSys`. -/
def runKernel (rv : RayVec F) (cs : Option (CoordSys F)) (k : CoordTransform F → Ray F → Ray F) :
    RayVec F :=
  ⟨rv.rays.map (k (CoordTransform.make rv.coordSys (rv.target cs))), rv.target cs⟩

/-- batoid/trace.py L41-44. -/
def obscure (rv : RayVec F) (o : Obsc F) : RayVec F := ⟨rv.rays.map (Ray.obscure o), rv.coordSys⟩

/-- batoid/trace.py L47-81. -/
def intersect (rv : RayVec F) (s : Surface F) (cs : Option (CoordSys F))
    (coating : Option (Coating F)) (niter : ℕ) : RayVec F :=
  rv.runKernel cs (fun ct => Ray.intersect s ct coating niter)

/-- batoid/trace.py L84-98. -/
def reflect (rv : RayVec F) (s : Surface F) (cs : Option (CoordSys F))
    (coating : Option (Coating F)) (niter : ℕ) : RayVec F :=
  rv.runKernel cs (fun ct => Ray.reflect s ct coating niter)

/-- batoid/trace.py L101-116. The first medium is passed but unused by the C++ kernel. -/
def refract (rv : RayVec F) (s : Surface F) (_m1 m2 : Medium F) (cs : Option (CoordSys F))
    (coating : Option (Coating F)) (niter : ℕ) : RayVec F :=
  rv.runKernel cs (fun ct => Ray.refract s ct m2 coating niter)

/-- batoid/trace.py L119-136: `(rv, rvSplit)`. -/
def rSplit (rv : RayVec F) (s : Surface F) (_m1 m2 : Medium F) (coating : Coating F)
    (cs : Option (CoordSys F)) (niter : ℕ) : RayVec F × RayVec F :=
  (rv.runKernel cs (fun ct ray => (Ray.rSplit s ct m2 coating niter ray).1),
   rv.runKernel cs (fun ct ray => (Ray.rSplit s ct m2 coating niter ray).2))

/-- batoid/trace.py L139-153. -/
def refractScreen (rv : RayVec F) (s screen : Surface F) (cs : Option (CoordSys F)) (niter : ℕ) :
    RayVec F :=
  rv.runKernel cs (fun ct => Ray.refractScreen s ct screen niter)

end RayVec
end Batoid
