import Verif.Analysis

/-!
# Zernike decompositions

Models of `zernike`, `zernikeGQ`, `_dZernikeBasis`, `zernikeTA`, `zernikeXYAberrations` and `doubleZernike` of `batoid/analysis.py`.
The Zernike polynomials of galsim, their gradients, `np.linalg.lstsq` and `np.polynomial.legendre.leggauss` are arguments.  Sums are
taken from left to right, numpy adds in another order.
-/

namespace Batoid.Analysis
open Arith Construct
variable {F : Type} [Arith F]

/-- A family of functions on the pupil: Noll index, outer radius, inner radius, x, y. -/
abbrev Family (F : Type) := ℕ → F → F → F → F → F

/-- Row `j` of `zernikeBasis(jmax, x, y, R_outer, R_inner)` of galsim; row 0 is not used and is zero. -/
def basisRow (zern : Family F) (outer inner : F) (pts : List (F × F)) (j : ℕ) : List F :=
  pts.map fun p => if j = 0 then 0 else zern j outer inner p.1 p.2

/-- Row `j` of one half of `_dZernikeBasis`: batoid/analysis.py L707-717; rows 0 and 1 are zero. -/
def gradRow (grad : Family F) (outer inner : F) (pts : List (F × F)) (j : ℕ) : List F :=
  pts.map fun p => if j < 2 then 0 else grad j outer inner p.1 p.2

/-- `np.dot` of two vectors. -/
def dotF (a b : List F) : F := (List.zipWith (· * ·) a b).foldl (· + ·) 0

/-- `epRays`: the points where rays cross the stop surface, batoid/analysis.py L544-548, L653-654, L777-780. -/
def stopPoints (s : System F) (rv : RayVec F) : Except PyErr (List (F × F)) :=
  match s.attrs.stopSurface with
  | none => .error .attributeError
  | some stop =>
    .ok (((rv.toCoordSys stop.coordSys).intersect stop.surface none none s.niter).rays.map fun ray => (ray.r.x, ray.r.y))

/-- `optic.pupilSize`. -/
def System.pupil (s : System F) : Except PyErr F :=
  match s.attrs.pupilSize with
  | none => .error .attributeError
  | some p => .ok p

/-- The transpose of a list of rows, of which each has the length `n`. -/
def transpose (rows : List (List F)) (n : ℕ) : List (List F) :=
  (List.range n).map fun i => rows.map fun row => row.getD i 0

/-- `zernike`: batoid/analysis.py L477-565. -/
def zernike (lstsq : Lstsq F) (zern : Family F) (s : System F) (thx thy wavelength : F) (projection : String) (nx : ℤ)
    (sphereRadius : Option F) (ref : Reference) (jmax : ℕ) (eps : F) : Except PyErr (List F) := do
  let rays ← startGrid s thx thy wavelength projection nx
  let pts ← stopPoints s rays
  let wf ← wavefront s thx thy wavelength projection nx sphereRadius ref
  let w := (pts.zip wf.cells).filter fun c => !c.2.2
  let pupil ← s.pupil
  let rows := (List.range (jmax + 1)).map (basisRow zern (pupil / 2) (pupil / 2 * eps) (w.map (·.1)))
  let sol := lstsq (transpose rows w.length) (w.map (·.2.1))
  if sol.2 < jmax then .error .runtimeError else .ok (sol.1.set 0 0)

/-- The radius of the reference sphere. -/
def System.radius (s : System F) (sphereRadius : Option F) : Except PyErr F :=
  match sphereRadius, s.sphereRadius with
  | some r, _ => .ok r
  | none, some r => .ok r
  | none, none => .error .attributeError

/-- The chief ray of `zernikeGQ`, before it is traced: batoid/analysis.py L676-682. -/
def gqChief (s : System F) (d : V3 F) (wavelength : F) : Except PyErr (RayVec F) :=
  match s.attrs.backDist, s.attrs.inMedium, s.attrs.stopSurface with
  | some back, some med, some stop => do
    match ← fromStop { backDist := some back, wavelength := some wavelength, dirCos := some d, medium := some med, stopSurface := some stop }
      [(0, 0)] 1 with
    | some rv => .ok rv
    | none => .error .attributeError
  | _, _, _ => .error .attributeError

/-- The reference sphere: batoid/analysis.py L688-695. -/
def toSphere (niter : ℕ) (target : CoordSys F) (radius : F) (rv : RayVec F) : RayVec F :=
  (rv.toCoordSys target).intersect (Surface.sphere (-radius)) none none niter

/-- `zernikeGQ`: batoid/analysis.py L568-704. -/
def zernikeGQ (leggauss : ℤ → Except PyErr (List F × List F)) (zern : Family F) (s : System F) (thx thy wavelength : F) (projection : String)
    (rings : ℤ) (spokes : Option (Count F)) (sphereRadius : Option F) (ref : Reference) (jmax : ℕ) (eps : F) : Except PyErr (List F) := do
  let d ← Projection.fieldToDirCos thx thy projection
  let pupil ← s.pupil
  let inner := eps * pupil / 2
  match ← asSpokes leggauss { optic := some s.attrs, wavelength := some wavelength, dirCos := some ⟨d.1, d.2.1, d.2.2⟩ } none inner spokes
    (some (.num rings)) "GQ" 1 with
  | none => .error .attributeError
  | some rays => do
    let pts ← stopPoints s rays
    let radius ← s.radius sphereRadius
    let rays := s.trace rays
    if rays.rays.any (·.failed) then .error .valueError
    else do
      let chief ← match ref with
        | .mean => .ok ⟨[], rays.coordSys⟩
        | .chief => do
          let c ← gqChief s ⟨d.1, d.2.1, d.2.2⟩ wavelength
          .ok (s.trace c)
        | .other => .error .unboundLocal
      let point ← match ref with
        | .mean => .ok (meanV ((clear rays.rays).map (·.r)))
        | _ => (item chief.rays 0).map (·.r)
      let target := rays.coordSys.shiftLocal (point + ⟨0, 0, radius⟩)
      let rays := toSphere s.niter target radius rays
      let t0 ← match ref with
        | .mean => .ok (mean ((clear rays.rays).map (·.t)))
        | _ => (item (toSphere s.niter target radius chief).rays 0).map (·.t)
      let area := pi * (1 - eps * eps)
      .ok ((List.range (jmax + 1)).map fun j =>
        dotF (basisRow zern (pupil / 2) inner pts j) (rays.rays.map fun ray => (t0 - ray.t) / wavelength * ray.flux) / area)

/-- The points of the field of `doubleZernike`, with their weights: batoid/analysis.py L947-960. -/
def fieldPoints (leggauss : ℤ → Except PyErr (List F × List F)) (field : F) (rings spokes : ℤ) : Except PyErr (List (F × F) × List F) := do
  let lw ← leggauss rings
  let radii := lw.1.map fun t => Arith.sqrt ((1 + t) / 2) * field
  if spokes = 0 then .error .zeroDivisionError
  else do
    let w := lw.2.map fun x => x * (pi / const ((2 * spokes : ℤ) : ℚ))
    let azs ← Numpy.linspace 0 (2 * pi) spokes false
    let w ← Numpy.broadcastTo w azs.length radii.length
    .ok ((Numpy.meshgrid radii azs).map fromPolar, w)

/-- `doubleZernike`: batoid/analysis.py L909-974; `gq` is `zernikeGQ` with the rest of its arguments.  Row `k`, column `j`. -/
def doubleZernike (leggauss : ℤ → Except PyErr (List F × List F)) (zern : Family F) (gq : F → F → ℤ → ℤ → Except PyErr (List F))
    (field : F) (rings : ℤ) (spokes : Option ℤ) (kmax : ℕ) : Except PyErr (List (List F)) := do
  let spokes := spokes.getD (2 * rings + 1)
  let fw ← fieldPoints leggauss field rings spokes
  let coefs ← fw.1.mapM fun th => gq th.1 th.2 rings spokes
  let ncol := (coefs.headD []).length
  .ok ((List.range (kmax + 1)).map fun k => (List.range ncol).map fun j =>
    dotF (basisRow zern field 0 fw.1 k) (List.zipWith (fun (row : List F) w => row.getD j 0 * w) coefs fw.2) / pi)

/-- The rays of `zernikeTA` and `zernikeXYAberrations`: where they cross the stop, relative to the reference where they end, and
whether they are vignetted: batoid/analysis.py L768-794, L864-889. -/
def transverse (junk : ℕ → F) (s : System F) (thx thy wavelength : F) (projection : String) (nrad naz : ℤ) (ref : Reference) :
    Except PyErr (List ((F × F) × (F × F) × Bool)) := do
  let d ← Projection.fieldToDirCos thx thy projection
  let rays ← polarFor junk s wavelength nrad naz d
  let uv ← stopPoints s rays
  let traced := (s.trace rays).rays
  let point ← match ref with
    | .mean => .ok (meanV ((clear traced).map (·.r)))
    | .chief => do
      match ← fromStop { optic := some s.attrs, wavelength := some wavelength, dirCos := some ⟨d.1, d.2.1, d.2.2⟩ } [(0, 0)] 1 with
      | some rv => (item (s.trace rv).rays 0).map (·.r)
      | none => .error .attributeError
    | .other => .error .unboundLocal
  .ok (uv.zip (traced.map fun ray => ((ray.r.x - point.x, ray.r.y - point.y), ray.vignetted)))

/-- `zernikeTA`: batoid/analysis.py L720-814. -/
def zernikeTA (lstsq : Lstsq F) (gradX gradY : Family F) (junk : ℕ → F) (s : System F) (thx thy wavelength : F) (projection : String)
    (nrad naz : ℤ) (ref : Reference) (jmax : ℕ) (eps : F) (focal : Option F) : Except PyErr (List F) := do
  let data ← transverse junk s thx thy wavelength projection nrad naz ref
  let w := data.filter fun c => !c.2.2
  let f ← match focal with
    | some f => .ok f
    | none => focalLength junk s thx thy wavelength 6 36 projection
  let pupil ← s.pupil
  let gx := (List.range (jmax + 1)).map (gradRow gradX (pupil / 2) (eps * pupil / 2) (w.map (·.1)))
  let gy := (List.range (jmax + 1)).map (gradRow gradY (pupil / 2) (eps * pupil / 2) (w.map (·.1)))
  let sol := lstsq (transpose gx w.length ++ transpose gy w.length) ((w.map (·.2.1.1)) ++ w.map (·.2.1.2))
  if (sol.2 : ℤ) < jmax - 1 then .error .runtimeError
  else .ok ((sol.1.set 0 0).map fun r => -r / f / wavelength)

/-- `zernikeXYAberrations`: batoid/analysis.py L817-906. -/
def zernikeXYAberrations (lstsq : Lstsq F) (zern : Family F) (junk : ℕ → F) (s : System F) (thx thy wavelength : F) (projection : String)
    (nrad naz : ℤ) (ref : Reference) (jmax : ℕ) (eps : F) (includeVignetted : Bool) : Except PyErr (List F × List F) := do
  let data ← transverse junk s thx thy wavelength projection nrad naz ref
  let w := if includeVignetted then data else data.filter fun c => !c.2.2
  let pupil ← s.pupil
  let rows := (List.range (jmax + 1)).map (basisRow zern (pupil / 2) (pupil / 2 * eps) (w.map (·.1)))
  let solx := lstsq (transpose rows w.length) (w.map (·.2.1.1))
  let soly := lstsq (transpose rows w.length) (w.map (·.2.1.2))
  if min solx.2 soly.2 < jmax then .error .runtimeError else .ok (solx.1.set 0 0, soly.1.set 0 0)

end Batoid.Analysis
