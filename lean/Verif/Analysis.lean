import Verif.Construct
import Verif.RayVector
import Verif.Optic
import Verif.Grids

/-!
# Analysis functions

Models of `batoid/analysis.py` and of `bilinear_fit` of `batoid/utils.py`.  The functions that use the Zernike basis
of galsim are in `Verif.Zernike`.
`np.linalg.lstsq` is an argument.  Sums are taken from left to right, numpy adds in another order.
-/

namespace Batoid.Analysis
open Arith Construct
variable {F : Type} [Arith F]

/-- `_reciprocalLatticeVectors`: batoid/analysis.py L8-12. -/
def reciprocalLatticeVectors (a1 a2 : F × F) (N : ℤ) : (F × F) × (F × F) :=
  let norm := 2 * pi / (a1.1 * a2.2 - a1.2 * a2.1) / const (N : ℚ)
  ((norm * a2.2, norm * a2.1), (norm * a1.2, norm * a1.1))

/-- `_closestApproach`: batoid/analysis.py L977-1003. -/
def closestApproach (P u Q v : V3 F) : Except PyErr (V3 F) :=
  let a := V3.dot u u
  let b := V3.dot u v
  let c := V3.dot v v
  let w0 := P - Q
  let d := V3.dot u w0
  let e := V3.dot v w0
  let den := a * c - b * b
  if eq den 0 then .error .valueError
  else
    let sc := (b * e - c * d) / den
    .ok (P + V3.smul sc u)

/-- `np.mean` of numbers. -/
def mean (l : List F) : F := l.foldl (· + ·) 0 / const (l.length : ℚ)

/-- `np.mean(..., axis=0)` of points. -/
def meanV (l : List (V3 F)) : V3 F := ⟨mean (l.map (·.x)), mean (l.map (·.y)), mean (l.map (·.z))⟩

/-- An optic with the attributes that the analysis functions read. -/
structure System (F : Type) where
  optic : Optic F
  attrs : OpticAttrs F
  sphereRadius : Option F
  niter : ℕ

/-- `optic.trace(rays)`. -/
def System.trace (s : System F) (rv : RayVec F) : RayVec F := s.optic.trace s.niter false rv

/-- The loop of `exitPupilPos`, batoid/analysis.py L1038-1046: closest approaches to the z axis, and their mean. -/
def pupilOf (rays : List (Ray F)) : Except PyErr (V3 F) := do
  let ps ← rays.mapM fun ray => closestApproach ray.r ray.v ⟨0, 0, 0⟩ ⟨0, 0, 1⟩
  .ok (meanV ps)

/-- `exitPupilPos`: batoid/analysis.py L1006-1046, with `projection` as the only keyword argument. -/
def exitPupilPos (s : System F) (wavelength smallAngle : F) (projection : String) : Except PyErr (V3 F) := do
  let rays ← fromFieldAngles { optic := some s.attrs, wavelength := some wavelength, projection := projection }
    [(0, smallAngle), (0, -smallAngle), (smallAngle, 0), (-smallAngle, 0)] 0 0 1
  pupilOf ((s.trace rays).toCoordSys (CoordSys.std F)).rays

/-! ## Reference points -/

/-- `reference`: `'mean'`, `'chief'` or another string. -/
inductive Reference where
  | mean | chief | other

/-- `cridx`: batoid/analysis.py L291, L355, L403. -/
def chiefIndex (nx : ℤ) : ℤ := if nx % 2 = 0 then nx / 2 * nx + nx / 2 else (nx * nx - 1) / 2

/-- `array[i]` with an integer. -/
def item {A : Type} (l : List A) (i : ℤ) : Except PyErr A :=
  match l[(if i < 0 then i + l.length else i).toNat]? with
  | some a => if -(l.length : ℤ) ≤ i then .ok a else .error .indexError
  | none => .error .indexError

/-- `rays[~rays.vignetted]`, also as `np.where(1-rays.vignetted)[0]`. -/
def clear (rays : List (Ray F)) : List (Ray F) := rays.filter fun ray => !ray.vignetted

/-- `point`: batoid/analysis.py L287-292, L351-356.  With another `reference` the variable is not assigned. -/
def refPoint (ref : Reference) (nx : ℤ) (rays : List (Ray F)) : Except PyErr (V3 F) :=
  match ref with
  | .mean => .ok (meanV ((clear rays).map (·.r)))
  | .chief => (item rays (chiefIndex nx)).map (·.r)
  | .other => .error .unboundLocal

/-- `t0`: batoid/analysis.py L367-371. -/
def refTime (ref : Reference) (nx : ℤ) (rays : List (Ray F)) : Except PyErr F :=
  match ref with
  | .mean => .ok (mean ((clear rays).map (·.t)))
  | .chief => (item rays (chiefIndex nx)).map (·.t)
  | .other => .error .unboundLocal

/-- The grid of rays that `huygensPSF`, `wavefront` and `spot` start with: batoid/analysis.py L270-275, L342-346, L393-397. -/
def startGrid (s : System F) (thx thy wavelength : F) (projection : String) (nx : ℤ) : Except PyErr (RayVec F) := do
  let d ← Projection.fieldToDirCos thx thy projection
  match ← asGrid { optic := some s.attrs, wavelength := some wavelength, dirCos := some ⟨d.1, d.2.1, d.2.2⟩ } { nx := some nx } none 1 with
  | some rv => .ok rv
  | none => .error .attributeError

/-! ## Wavefront -/

/-- `optic.pupilSize/(nx-2)` or `optic.pupilSize/(nx-1)`, for Python floats: batoid/analysis.py L237-247, L376-385. -/
def pupilStep (s : System F) (nx : ℤ) : Except PyErr F :=
  match s.attrs.pupilSize with
  | none => .error .attributeError
  | some p => if nx - spare nx = 0 then .error .zeroDivisionError else .ok (p / const ((nx - spare nx : ℤ) : ℚ))

/-- The result of `wavefront`: the flattened masked array, with `true` for masked entries, and the lattice. -/
structure Wavefront (F : Type) where
  nx : ℤ
  cells : List (F × Bool)
  lattice : Grids.Lattice F

/-- The rays on the reference sphere: batoid/analysis.py L357-365. -/
def onReferenceSphere (niter : ℕ) (point : V3 F) (radius : F) (rv : RayVec F) : RayVec F :=
  let target := rv.coordSys.shiftLocal (point + ⟨0, 0, radius⟩)
  (rv.toCoordSys target).intersect (Surface.sphere (-radius)) none none niter

/-- `wavefront`: batoid/analysis.py L306-386. -/
def wavefront (s : System F) (thx thy wavelength : F) (projection : String) (nx : ℤ) (sphereRadius : Option F) (ref : Reference) :
    Except PyErr (Wavefront F) := do
  let rays ← startGrid s thx thy wavelength projection nx
  let radius ← match sphereRadius, s.sphereRadius with
    | some r, _ => .ok r
    | none, some r => .ok r
    | none, none => .error .attributeError
  let rays := s.trace rays
  let point ← refPoint ref nx rays.rays
  let rays := onReferenceSphere s.niter point radius rays
  let t0 ← refTime ref nx rays.rays
  let cells := rays.rays.map fun ray => ((t0 - ray.t) / wavelength, ray.vignetted)
  if (cells.length : ℤ) ≠ nx * nx then .error .valueError  -- reshape
  else do
    let u ← pupilStep s nx
    let lattice ← Grids.Lattice.make [nx.toNat, nx.toNat] (.mat 2 [[u, 0], [0, u]])
    .ok ⟨nx, cells, lattice⟩

/-! ## Spots -/

/-- `spot`: batoid/analysis.py L389-411. -/
def spot (s : System F) (thx thy wavelength : F) (projection : String) (nx : ℤ) (ref : Reference) : Except PyErr (List (F × F)) := do
  let rays ← startGrid s thx thy wavelength projection nx
  let rays := s.trace rays
  let point ← match ref with
    | .other => .ok ⟨0, 0, 0⟩
    | _ => refPoint ref nx rays.rays
  let rays := rays.toCoordSys (rays.coordSys.shiftLocal point)
  .ok ((clear rays.rays).map fun ray => (ray.r.x, ray.r.y))

/-! ## FFT PSF: the padded pupil -/

/-- `expwf`: batoid/analysis.py L457-463, given the entries of the pupil array, `none` for masked ones.  The result is the size and
the contents of the padded array. -/
def embed {A : Type} (zero : A) (nx pad : ℤ) (cell : ℕ → ℕ → Option A) : Except PyErr (ℤ × (ℕ → ℕ → A)) :=
  let size := nx * pad
  if size < 0 then .error .valueError
  else
    let se := Py.adjustIndices size (some (size / 2 - nx / 2)) (some (size / 2 + nx / 2)) 1
    -- the mask has to have the shape of the slice
    if (Py.rangeLen se.1 se.2 1 : ℤ) ≠ nx then .error .indexError
    else .ok (size, fun r c =>
      if se.1 ≤ (r : ℤ) ∧ (r : ℤ) < se.2 ∧ se.1 ≤ (c : ℤ) ∧ (c : ℤ) < se.2 then
        (cell ((r : ℤ) - se.1).toNat ((c : ℤ) - se.1).toNat).getD zero
      else zero)

/-! ## Huygens PSF -/

/-- One value of the PSF, `np.abs(rays.sumAmplitude(point, time))**2`: batoid/analysis.py L300-302. -/
def intensity (rv : RayVec F) (p : V3 F) (time : F) : F :=
  let a := rv.sumAmplitude p time true
  a.1 * a.1 + a.2 * a.2

/-- The output points: batoid/analysis.py L294-298, in the order of the output array.  Row `i`, column `j` of the output belongs to
entry `[j, i]` of the coordinates. -/
def outPoints (lattice : Grids.Lattice F) (n : ℕ) (point : V3 F) : List (V3 F) :=
  (List.range n).flatMap fun i => (List.range n).map fun j =>
    let c := lattice.coords.getD (j * n + i) []
    ⟨c.getD 0 0 + point.x, c.getD 1 0 + point.y, 0⟩

/-- The part of `huygensPSF` after the choice of the lattice vectors, the rows of `primitiveX`, and of `pad_factor`:
batoid/analysis.py L262-303.  The values of the output lattice row by row. -/
def huygensOn (s : System F) (thx thy wavelength : F) (projection : String) (nx : ℤ) (rows : List (List F)) (pad : ℤ) (nxOut : Option ℤ)
    (ref : Reference) : Except PyErr (Grids.Lattice F × List F) := do
  let n := nxOut.getD nx * pad
  let rays ← startGrid s thx thy wavelength projection nx
  if n < 0 then .error .valueError
  else do
    let lattice ← Grids.Lattice.make [n.toNat, n.toNat] (.mat 2 rows)
    let rays := s.trace rays
    let point ← refPoint ref nx rays.rays
    let first ← item rays.rays 0
    .ok (lattice, (outPoints lattice n.toNat point).map fun p => intensity rays p first.t)

/-- `huygensPSF` with `dx` given as a number or as a pair, and `nx` given: batoid/analysis.py L254-303. -/
def huygensPSF (s : System F) (thx thy wavelength : F) (projection : String) (nx : ℤ) (dx : Ext F) (dy : Option (Ext F)) (nxOut : Option ℤ)
    (ref : Reference) : Except PyErr (Grids.Lattice F × List F) := do
  let rows : List (List F) ← match dx, dy with
    | .num d, none => .ok [[d, 0], [0, d]]
    | .num d, some (.num e) => .ok [[d, 0], [0, e]]
    | .vec a b, some (.vec c d) => .ok [[a, b], [c, d]]
    | _, _ => .error .valueError
  huygensOn s thx thy wavelength projection nx rows 1 nxOut ref

/-! ## Derivatives -/

/-- A 2x2 array. -/
structure M2 (F : Type) where
  a : F
  b : F
  c : F
  d : F

/-- The means of `drdth` for the rays traced with the nominal and the two shifted directions: batoid/analysis.py L119-134. -/
def meansOf (dth : F) (n : ℕ) (rays : List (Ray F)) : M2 F :=
  let nominal := rays.take n
  let w := fun (l : List (Ray F)) => ((l.zip nominal).filter fun p => !p.2.vignetted).map (·.1)
  let rx := w ((rays.drop n).take n)
  let ry := w ((rays.drop (2 * n)).take n)
  let mx := mean ((w nominal).map (·.r.x))
  let my := mean ((w nominal).map (·.r.y))
  ⟨(mean (rx.map (·.r.x)) - mx) / dth, (mean (ry.map (·.r.x)) - mx) / dth,
   (mean (rx.map (·.r.y)) - my) / dth, (mean (ry.map (·.r.y)) - my) / dth⟩

/-- `RayVector.asPolar(optic=optic, wavelength=wavelength, dirCos=d, nrad=nrad, naz=naz)`. -/
def polarFor (junk : ℕ → F) (s : System F) (wavelength : F) (nrad naz : ℤ) (d : F × F × F) : Except PyErr (RayVec F) := do
  match ← asPolar junk { optic := some s.attrs, wavelength := some wavelength, dirCos := some ⟨d.1, d.2.1, d.2.2⟩ } none none
    (some nrad) (some naz) 6 1 with
  | some rv => .ok rv
  | none => .error .attributeError

/-- `drdth`: batoid/analysis.py L57-134. -/
def drdth (junk : ℕ → F) (s : System F) (thx thy wavelength : F) (nrad naz : ℤ) (projection : String) : Except PyErr (M2 F) := do
  let dth : F := const (1 / 100000)
  let d0 ← Projection.fieldToDirCos thx thy projection
  let d1 ← Projection.fieldToDirCos (thx + dth) thy projection
  let d2 ← Projection.fieldToDirCos thx (thy + dth) projection
  let r0 ← polarFor junk s wavelength nrad naz d0
  let r1 ← polarFor junk s wavelength nrad naz d1
  let r2 ← polarFor junk s wavelength nrad naz d2
  let all ← RayVec.concatenate [r0, r1, r2]
  .ok (meansOf dth r0.rays.length (s.trace all).rays)

/-- `np.linalg.det` of a 2x2 array. -/
def M2.det (m : M2 F) : F := m.a * m.d - m.b * m.c

/-- `np.linalg.inv` of a 2x2 array, by the adjugate; `LinAlgError`, a `ValueError`, for singular ones. -/
def M2.inv (m : M2 F) : Except PyErr (M2 F) :=
  if eq m.det 0 then .error .valueError
  else .ok ⟨m.d / m.det, -m.b / m.det, -m.c / m.det, m.a / m.det⟩

/-- `dthdr`: batoid/analysis.py L137-176. -/
def dthdr (junk : ℕ → F) (s : System F) (thx thy wavelength : F) (nrad naz : ℤ) (projection : String) : Except PyErr (M2 F) := do
  (← drdth junk s thx thy wavelength nrad naz projection).inv

/-- `focalLength`: batoid/analysis.py L1049-1083. -/
def focalLength (junk : ℕ → F) (s : System F) (thx thy wavelength : F) (nrad naz : ℤ) (projection : String) : Except PyErr F := do
  .ok (Arith.sqrt (← drdth junk s thx thy wavelength nrad naz projection).det)

/-- `np.linalg.lstsq`: from the rows of the matrix and the right hand side to the solution and the rank. -/
abbrev Lstsq (F : Type) := List (List F) → List F → List F × ℕ

/-- `bilinear_fit`: batoid/utils.py L9-19.  The two columns of the solution, each from its own right hand side. -/
def bilinearFit (lstsq : Lstsq F) (u k : List (F × F)) : List F × List F :=
  let a := u.map fun p => [(1 : F), p.1, p.2]
  ((lstsq a (k.map Prod.fst)).1, (lstsq a (k.map Prod.snd)).1)

/-- `dkdu`: batoid/analysis.py L15-54; `soln[1:]` has the derivatives along one pupil axis in each row. -/
def dkdu (lstsq : Lstsq F) (junk : ℕ → F) (s : System F) (thx thy wavelength : F) (nrad naz : ℤ)
    (projection : String) : Except PyErr (M2 F) := do
  let args : Args F :=
    { optic := some s.attrs, wavelength := some wavelength, theta_x := some thx, theta_y := some thy, projection := projection }
  match ← asPolar junk args none none (some nrad) (some naz) 6 1 with
  | none => .error .attributeError
  | some rays =>
    let traced := s.trace rays
    let w := ((rays.rays.zip traced.rays).filter fun p => !p.2.vignetted)
    let fit := bilinearFit lstsq (w.map fun p => (p.1.r.x, p.1.r.y)) (w.map fun p => ((RayVec.waveVector p.2).x, (RayVec.waveVector p.2).y))
    .ok ⟨fit.1.getD 1 0, fit.2.getD 1 0, fit.1.getD 2 0, fit.2.getD 2 0⟩

/-! ## FFT PSF: the transform and the lattice -/

/-- `a.dot(b)` for 2x2 arrays. -/
def M2.dot (a b : M2 F) : M2 F :=
  ⟨a.a * b.a + a.b * b.c, a.a * b.b + a.b * b.d, a.c * b.a + a.d * b.c, a.c * b.b + a.d * b.d⟩

/-- `primitiveX`: batoid/analysis.py L248-257 and L465-472; `dkdu` is called with its default numbers of rays. -/
def psfVectors (lstsq : Lstsq F) (junk : ℕ → F) (s : System F) (thx thy wavelength : F) (projection : String) (u : M2 F) (size : ℤ) :
    Except PyErr (List (List F)) := do
  let k := (← dkdu lstsq junk s thx thy wavelength 6 36 projection).dot u
  let x := reciprocalLatticeVectors (k.a, k.b) (k.c, k.d) size
  .ok [[x.1.1, x.1.2], [x.2.1, x.2.2]]

/-- `huygensPSF` without `dx`: batoid/analysis.py L236-303. -/
def huygensDefault (lstsq : Lstsq F) (junk : ℕ → F) (s : System F) (thx thy wavelength : F) (projection : String) (nx : ℤ) (nxOut : Option ℤ)
    (ref : Reference) : Except PyErr (Grids.Lattice F × List F) := do
  let u ← pupilStep s nx
  let rows ← psfVectors lstsq junk s thx thy wavelength projection ⟨u, 0, 0, u⟩ (2 * nx)
  huygensOn s thx thy wavelength projection nx rows 2 nxOut ref

/-- `np.exp(2j*np.pi*x)` as real and imaginary part. -/
def cis (x : F) : F × F := (Arith.cos (2 * pi * x), Arith.sin (2 * pi * x))

/-- The product of complex numbers. -/
def cmul (a b : F × F) : F × F := (a.1 * b.1 - a.2 * b.2, a.1 * b.2 + a.2 * b.1)

/-- `np.fft.fft2` of a square array: entry `[p, q]` of the transform by its definition, whereas numpy uses a fast algorithm. -/
def fft2 (size : ℕ) (a : ℕ → ℕ → F × F) (p q : ℕ) : F × F :=
  let terms := (List.range size).flatMap fun r => (List.range size).map fun c =>
    cmul (a r c) (cis (const (-(((p * r + q * c : ℕ) : ℚ) / size))))
  ((terms.map Prod.fst).foldl (· + ·) 0, (terms.map Prod.snd).foldl (· + ·) 0)

/-- `np.fft.fftshift`: entry `i` of the shifted axis is this entry of the original one. -/
def unshift (size i : ℕ) : ℕ := (i + (size - size / 2)) % size

/-- `np.exp(2j*np.pi*wfarr[~wfarr.mask])`, an entry of the array: batoid/analysis.py L462-463. -/
def phasor (cells : List (F × Bool)) (nx r c : ℕ) : Option (F × F) :=
  match cells[r * nx + c]? with
  | some (x, false) => some (cis x)
  | _ => none

/-- `fftPSF`: batoid/analysis.py L414-474.  The lattice and the values row by row. -/
def fftPSF (lstsq : Lstsq F) (junk : ℕ → F) (s : System F) (thx thy wavelength : F) (projection : String) (nx pad : ℤ) (sphereRadius : Option F)
    (ref : Reference) : Except PyErr (Grids.Lattice F × List F) := do
  let wf ← wavefront s thx thy wavelength projection nx sphereRadius ref
  let (size, expwf) ← embed ((0, 0) : F × F) nx pad (phasor wf.cells nx.toNat)
  let n := size.toNat
  let psf := (List.range n).flatMap fun i => (List.range n).map fun j =>
    let z := fft2 n expwf (unshift n i) (unshift n j)
    z.1 * z.1 + z.2 * z.2
  let pv := wf.lattice.primitiveVectors
  let u : M2 F := ⟨(pv.getD 0 []).getD 0 0, (pv.getD 0 []).getD 1 0, (pv.getD 1 []).getD 0 0, (pv.getD 1 []).getD 1 0⟩
  let rows ← psfVectors lstsq junk s thx thy wavelength projection u size
  let lattice ← Grids.Lattice.make [n, n] (.mat 2 rows)
  .ok (lattice, psf)

end Batoid.Analysis
