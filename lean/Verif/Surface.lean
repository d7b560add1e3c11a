import Verif.Vec
import Verif.Py

/-!
# Surfaces

Model of `src/surface.cpp`, `plane.cpp`, `tilted.cpp`, `paraboloid.cpp`,
`sphere.cpp`, `quadric.cpp`, `asphere.cpp`, `polynomialSurface.cpp`, `table.cpp`,
`bicubic.cpp` and `sum.cpp`, generic in the arithmetic.

A surface is the record of its virtual methods.  `timeToIntersect` has the
in/out parameter `dt` of the C++ signature as argument and as result.
-/

namespace Batoid

open Arith

/-- Virtual methods of `Surface`: include/surface.h L12-34. -/
structure Surface (F : Type) where
  /-- `sag(x, y)` -/
  sag : F → F → F
  /-- `normal(x, y, nx, ny, nz)` -/
  normal : F → F → V3 F
  /-- `timeToIntersect(x,y,z,vx,vy,vz,dt,niter)`: returns success and the final `dt`. -/
  timeToIntersect : V3 F → V3 F → F → ℕ → Bool × F

namespace Surface
variable {F : Type} [Arith F]

/-- `Surface::grad`: src/surface.cpp L51-64 (no subclass overrides it). -/
def grad (s : Surface F) (x y : F) : F × F :=
  let n := s.normal x y
  if isNaN n.x then (nan, nan) else (-n.x / n.z, -n.y / n.z)

/-- One pass of the loop body of `Surface::timeToIntersect`: src/surface.cpp L37-47.
State: `dt`; `rP` and `sz` are functions of it. -/
def newtonStep (sag : F → F → F) (normal : F → F → V3 F) (r v : V3 F) (dt : F) : F :=
  let rP := r + v.smulR dt
  let sz := sag rP.x rP.y
  let n := normal rP.x rP.y
  ((rP.x - r.x) * n.x + (rP.y - r.y) * n.y + (sz - r.z) * n.z) / V3.dot n v

/-- `niter` passes of the loop. -/
def newtonIter (sag : F → F → F) (normal : F → F → V3 F) (r v : V3 F) : ℕ → F → F
  | 0, dt => dt
  | k + 1, dt => newtonIter sag normal r v k (newtonStep sag normal r v dt)

/-- `Surface::timeToIntersect`: src/surface.cpp L22-49. -/
def newton (sag : F → F → F) (normal : F → F → V3 F) (r v : V3 F) (dt : F) (niter : ℕ) : Bool × F :=
  let dt' := newtonIter sag normal r v niter dt
  let rP := r + v.smulR dt'
  (lt (Arith.abs (sag rP.x rP.y - rP.z)) (const (1/10^12)), dt')

/-! ## Plane -/

/-- src/plane.cpp L13-30. -/
def plane : Surface F where
  sag _ _ := 0
  normal _ _ := ⟨0, 0, 1⟩
  timeToIntersect r v dt _ := if eq v.z 0 then (false, dt) else (true, -r.z / v.z)

/-! ## Tilted -/

/-- src/tilted.cpp L14-37. -/
def tilted (tanx tany : F) : Surface F where
  sag x y := x * tanx + y * tany
  normal _ _ := ⟨-tanx, -tany, Arith.sqrt (1 - tanx * tanx - tany * tany)⟩
  timeToIntersect r v dt _ :=
    let num := r.z - r.x * tanx - r.y * tany
    let den := v.x * tanx + v.y * tany - v.z
    if eq den 0 then (false, dt) else (true, num / den)

/-! ## Paraboloid -/

/-- The root pair computed by Paraboloid, Sphere and Quadric alike:
paraboloid.cpp L59-64, sphere.cpp L56-62, quadric.cpp L58-64. -/
def rootPair (a b c disc : F) : F × F :=
  let dt1 := if gt b 0 then (-b - Arith.sqrt disc) / (2 * a) else 2 * c / (-b + Arith.sqrt disc)
  (dt1, c / (a * dt1))

/-- src/paraboloid.cpp L15-21. -/
def paraboloidSag (R : F) (x y : F) : F :=
  if eq R 0 then 0 else (x * x + y * y) * (1 / 2 / R)

/-- src/paraboloid.cpp L23-36. -/
def paraboloidNormal (R : F) (x y : F) : V3 F :=
  if eq R 0 then ⟨0, 0, 1⟩ else
    let nz := 1 / Arith.sqrt (1 + (x * x + y * y) * (1 / R) * (1 / R))
    ⟨-x * (1 / R) * nz, -y * (1 / R) * nz, nz⟩

/-- src/paraboloid.cpp L38-71. -/
def paraboloidTime (R : F) (r v : V3 F) (dt : F) : Bool × F :=
  let a := (v.x * v.x + v.y * v.y) * (1 / 2 / R)
  let b := (r.x * v.x + r.y * v.y) * (1 / R) - v.z
  let c := (r.x * r.x + r.y * r.y) * (1 / 2 / R) - r.z
  if eq a 0 then (true, -c / b) else
    let disc := b * b - 4 * a * c
    if lt disc 0 then (false, dt) else
      let p := rootPair a b c disc
      (true, if lt (v.z * R) 0 then Arith.max p.1 p.2 else Arith.min p.1 p.2)

def paraboloid (R : F) : Surface F where
  sag := paraboloidSag R
  normal := paraboloidNormal R
  timeToIntersect r v dt _ := paraboloidTime R r v dt

/-! ## Sphere -/

/-- src/sphere.cpp L15-19. -/
def sphereSag (R : F) (x y : F) : F :=
  if eq R 0 then 0 else R * (1 - Arith.sqrt (1 - (x * x + y * y) * (1 / R / R)))

/-- src/sphere.cpp L69-72. -/
def sphereDzdr (R : F) (r : F) : F :=
  let rat := r * (1 / R)
  rat / Arith.sqrt (1 - rat * rat)

/-- src/sphere.cpp L21-34. -/
def sphereNormal (R : F) (x y : F) : V3 F :=
  let rsqr := x * x + y * y
  if eq R 0 || eq rsqr 0 then ⟨0, 0, 1⟩ else
    let r := Arith.sqrt rsqr
    let dzdr := sphereDzdr R r
    let nz := 1 / Arith.sqrt (1 + dzdr * dzdr)
    ⟨-x / r * dzdr * nz, -y / r * dzdr * nz, nz⟩

/-- src/sphere.cpp L36-67. -/
def sphereTime (R : F) (r v : V3 F) (dt : F) : Bool × F :=
  let vr2 := v.x * v.x + v.y * v.y
  let vz2 := v.z * v.z
  let vrr0 := v.x * r.x + v.y * r.y
  let r02 := r.x * r.x + r.y * r.y
  let z0term := r.z - R
  let a := vz2 + vr2
  let b := 2 * v.z * z0term + 2 * vrr0
  let c := z0term * z0term - R * R + r02
  let disc := b * b - 4 * a * c
  if lt disc 0 then (false, dt) else
    let p := rootPair a b c disc
    (true, if lt (v.z * R) 0 then Arith.max p.1 p.2 else Arith.min p.1 p.2)

def sphere (R : F) : Surface F where
  sag := sphereSag R
  normal := sphereNormal R
  timeToIntersect r v dt _ := sphereTime R r v dt

/-! ## Quadric -/

/-- src/quadric.cpp L18-25 with `_cp1RR` of L14. -/
def quadricSag (R conic : F) (x y : F) : F :=
  let r2 := x * x + y * y
  if eq R 0 then 0 else r2 / (R * (1 + Arith.sqrt (1 - r2 * ((conic + 1) / R / R))))

/-- src/quadric.cpp L73-77. -/
def quadricDzdr (R conic : F) (r : F) : F :=
  if eq R 0 then 0 else r / (R * Arith.sqrt (1 - r * r * ((conic + 1) / R / R)))

/-- The body shared by Quadric::normal (quadric.cpp L27-39) and Asphere::normal
(asphere.cpp L48-63), which only differ in the `_dzdr` they call. -/
def radialNormal (dzdr : F → F) (x y : F) : V3 F :=
  let r := Arith.sqrt (x * x + y * y)
  if eq r 0 then ⟨0, 0, 1⟩ else
    let d := dzdr r
    let nz := 1 / Arith.sqrt (1 + d * d)
    ⟨-x / r * d * nz, -y / r * d * nz, nz⟩

/-- src/quadric.cpp L41-71 with the constants of L9-14. -/
def quadricTime (R conic : F) (r v : V3 F) (dt : F) : Bool × F :=
  let cp1 := conic + 1
  let cp1inv := 1 / cp1
  let z0term := r.z - R / cp1
  let vrr0 := v.x * r.x + v.y * r.y
  let a := v.z * v.z + (v.x * v.x + v.y * v.y) * cp1inv
  let b := 2 * (v.z * z0term + vrr0 * cp1inv)
  let c := z0term * z0term - R * R / cp1 / cp1 + (r.x * r.x + r.y * r.y) * cp1inv
  let disc := b * b - 4 * a * c
  if lt disc 0 then (false, dt) else
    let p := rootPair a b c disc
    let z1 := r.z + v.z * p.1
    let z2 := r.z + v.z * p.2
    (true, if lt (Arith.abs z1) (Arith.abs z2) then p.1 else p.2)

def quadric (R conic : F) : Surface F where
  sag := quadricSag R conic
  normal := radialNormal (quadricDzdr R conic)
  timeToIntersect r v dt _ := quadricTime R conic r v dt

/-! ## Asphere -/

/-- The loop of `Asphere::sag`: asphere.cpp L39-44, state `(rr, result)`. -/
def asphereSagLoop (r2 : F) : List F → F × F → F × F
  | [], st => st
  | c :: cs, (rr, res) => asphereSagLoop r2 cs (rr * r2, res + c * (rr * r2))

/-- src/asphere.cpp L37-46; `coefs` are the padded coefficients. -/
def asphereSag (R conic : F) (coefs : List F) (x y : F) : F :=
  (asphereSagLoop (x * x + y * y) coefs (1, quadricSag R conic x y)).2

/-- `_computeDzDrCoefs`: asphere.cpp L10-16; the counter `i` starts at 2 and grows by 2. -/
def dzdrCoefs : ℕ → List F → List F
  | _, [] => []
  | i, c :: cs => c * const (i : ℚ) :: dzdrCoefs (i + 2) cs

/-- The loop of `Asphere::_dzdr`: asphere.cpp L66-73, state `(rrr, result)`. -/
def asphereDzdrLoop (rr : F) : List F → F × F → F × F
  | [], st => st
  | c :: cs, (rrr, res) => asphereDzdrLoop rr cs (rrr * rr, res + c * rrr)

/-- src/asphere.cpp L65-74. -/
def asphereDzdr (R conic : F) (coefs : List F) (r : F) : F :=
  (asphereDzdrLoop (r * r) (dzdrCoefs 2 coefs) (r, quadricDzdr R conic r)).2

/-- src/asphere.cpp L76-85. -/
def asphere (R conic : F) (coefs : List F) : Surface F where
  sag := asphereSag R conic coefs
  normal := radialNormal (asphereDzdr R conic coefs)
  timeToIntersect r v dt niter :=
    match quadricTime R conic r v dt with
    | (false, dt') => (false, dt')
    | (true, dt') =>
      newton (asphereSag R conic coefs) (radialNormal (asphereDzdr R conic coefs)) r v dt' niter

/-- The padded coefficient array of `Asphere.__init__`: batoid/surface.py L378-395.
`imin` is a python int. -/
def asphereCtor (imin : ℤ) (coefs : List F) : Except PyErr (List F) :=
  if imin ≤ 0 then .error .valueError
  else if imin ≠ 1 then .ok (List.replicate (imin - 1).toNat 0 ++ coefs)
  else .ok coefs

/-! ## Polynomial surfaces -/

/-- `horner`: polynomialSurface.cpp L50-57; `coefs` is the array at the given offset. -/
def horner (x : F) (coefs : ℕ → F) (n : ℕ) : F :=
  (List.range n).foldr (fun i res => res * x + coefs i) 0

/-- `horner2d`: polynomialSurface.cpp L59-66. -/
def horner2d (x y : F) (coefs : ℕ → F) (nx ny : ℕ) : F :=
  (List.range ny).foldr (fun i res => res * x + horner y (fun j => coefs (i * nx + j)) nx) 0

/-- src/polynomialSurface.cpp L10-48. Arrays are flat, as in the C++ code. -/
structure PolyData (F : Type) where
  coefs : ℕ → F
  gradx : ℕ → F
  grady : ℕ → F
  xorigin : F
  yorigin : F
  xsize : ℕ
  ysize : ℕ

def polySag (p : PolyData F) (x y : F) : F :=
  horner2d (x - p.xorigin) (y - p.yorigin) p.coefs p.xsize p.ysize

def polyNormal (p : PolyData F) (x y : F) : V3 F :=
  let nx := -horner2d (x - p.xorigin) (y - p.yorigin) p.gradx (p.xsize - 1) (p.ysize - 1)
  let ny := -horner2d (x - p.xorigin) (y - p.yorigin) p.grady (p.xsize - 1) (p.ysize - 1)
  let nz := 1 / Arith.sqrt (nx * nx + ny * ny + 1)
  ⟨nx * nz, ny * nz, nz⟩

def polynomial (p : PolyData F) : Surface F where
  sag := polySag p
  normal := polyNormal p
  timeToIntersect := newton (polySag p) (polyNormal p)

/-! ## Bicubic tables -/

/-- `oneDSpline`: table.cpp L42-49. -/
def oneDSpline (x val0 val1 der0 der1 : F) : F :=
  let a := 2 * (val0 - val1) + der0 + der1
  let b := 3 * (val1 - val0) - 2 * der0 - der1
  val0 + x * (der0 + x * (b + x * a))

/-- `oneDGrad`: table.cpp L51-56. -/
def oneDGrad (x val0 val1 der0 der1 : F) : F :=
  let a := 2 * (val0 - val1) + der0 + der1
  let b := 3 * (val1 - val0) - 2 * der0 - der1
  der0 + x * (2 * b + x * 3 * a)

/-- `Table`: table.cpp L12-25. Flat arrays, row `iy` of length `nx`. -/
structure Table (F : Type) where
  x0 : F
  y0 : F
  dx : F
  dy : F
  z : ℕ → F
  dzdx : ℕ → F
  dzdy : ℕ → F
  d2zdxdy : ℕ → F
  nx : ℕ
  ny : ℕ
  useNan : Bool

namespace Table

/-- The grid cell and bounds test: table.cpp L59-63 and L96-98; `none` is "outside".
(`ix >= _nx-1` compares as `size_t`; a negative `ix` is outside either way.) -/
def cell (T : Table F) (x y : F) : Option (ℕ × ℕ) :=
  let ix := floor ((x - T.x0) / T.dx)
  let iy := floor ((y - T.y0) / T.dy)
  if ix ≥ (T.nx : ℤ) - 1 ∨ ix < 0 ∨ iy ≥ (T.ny : ℤ) - 1 ∨ iy < 0 then none
  else some (ix.toNat, iy.toNat)

/-- `xgrid`, `xfrac`: table.cpp L64, L66. -/
def xfrac (T : Table F) (x : F) (ix : ℕ) : F := (x - (T.x0 + const (ix : ℚ) * T.dx)) / T.dx
/-- `ygrid`, `yfrac`: table.cpp L65, L67. -/
def yfrac (T : Table F) (y : F) (iy : ℕ) : F := (y - (T.y0 + const (iy : ℚ) * T.dy)) / T.dy

/-- Value of the bicubic patch: table.cpp L69-89. -/
def patch (T : Table F) (ix iy : ℕ) (xf yf : F) : F :=
  let i00 := T.nx * iy + ix
  let i10 := T.nx * (iy + 1) + ix
  let val0 := oneDSpline xf (T.z i00) (T.z (i00+1)) (T.dzdx i00 * T.dx) (T.dzdx (i00+1) * T.dx)
  let val1 := oneDSpline xf (T.z i10) (T.z (i10+1)) (T.dzdx i10 * T.dx) (T.dzdx (i10+1) * T.dx)
  let der0 := oneDSpline xf (T.dzdy i00) (T.dzdy (i00+1)) (T.d2zdxdy i00 * T.dx) (T.d2zdxdy (i00+1) * T.dx)
  let der1 := oneDSpline xf (T.dzdy i10) (T.dzdy (i10+1)) (T.d2zdxdy i10 * T.dx) (T.d2zdxdy (i10+1) * T.dx)
  oneDSpline yf val0 val1 (der0 * T.dy) (der1 * T.dy)

/-- `Table::eval`: table.cpp L58-90. -/
def eval (T : Table F) (x y : F) : F :=
  match T.cell x y with
  | none => if T.useNan then nan else 0
  | some (ix, iy) => T.patch ix iy (T.xfrac x ix) (T.yfrac y iy)

/-- x part of `Table::grad`: table.cpp L113-134. -/
def patchGradX (T : Table F) (ix iy : ℕ) (xf yf : F) : F :=
  let i00 := T.nx * iy + ix
  let i10 := T.nx * (iy + 1) + ix
  let val0 := oneDGrad xf (T.z i00) (T.z (i00+1)) (T.dzdx i00 * T.dx) (T.dzdx (i00+1) * T.dx)
  let val1 := oneDGrad xf (T.z i10) (T.z (i10+1)) (T.dzdx i10 * T.dx) (T.dzdx (i10+1) * T.dx)
  let der0 := oneDGrad xf (T.dzdy i00) (T.dzdy (i00+1)) (T.d2zdxdy i00 * T.dx) (T.d2zdxdy (i00+1) * T.dx)
  let der1 := oneDGrad xf (T.dzdy i10) (T.dzdy (i10+1)) (T.d2zdxdy i10 * T.dx) (T.d2zdxdy (i10+1) * T.dx)
  oneDSpline yf val0 val1 (der0 * T.dy) (der1 * T.dy) / T.dx

/-- y part of `Table::grad`: table.cpp L136-157. -/
def patchGradY (T : Table F) (ix iy : ℕ) (xf yf : F) : F :=
  let i00 := T.nx * iy + ix
  let i10 := T.nx * (iy + 1) + ix
  let val0 := oneDGrad yf (T.z i00) (T.z i10) (T.dzdy i00 * T.dy) (T.dzdy i10 * T.dy)
  let val1 := oneDGrad yf (T.z (i00+1)) (T.z (i10+1)) (T.dzdy (i00+1) * T.dy) (T.dzdy (i10+1) * T.dy)
  let der0 := oneDGrad yf (T.dzdx i00) (T.dzdx i10) (T.d2zdxdy i00 * T.dy) (T.d2zdxdy i10 * T.dy)
  let der1 := oneDGrad yf (T.dzdx (i00+1)) (T.dzdx (i10+1)) (T.d2zdxdy (i00+1) * T.dy) (T.d2zdxdy (i10+1) * T.dy)
  oneDSpline xf val0 val1 (der0 * T.dx) (der1 * T.dx) / T.dy

/-- `Table::grad`: table.cpp L92-158. -/
def grad (T : Table F) (x y : F) : F × F :=
  match T.cell x y with
  | none => if T.useNan then (nan, nan) else (0, 0)
  | some (ix, iy) =>
    (T.patchGradX ix iy (T.xfrac x ix) (T.yfrac y iy),
     T.patchGradY ix iy (T.xfrac x ix) (T.yfrac y iy))

end Table

/-! ### Construction of the table by `Bicubic.__init__` -/

/-- Differences along a row of length `n` with spacing `h`: one pattern used three times in batoid/surface.py L551-567
(central differences inside, one-sided at both ends; the last column is written last). -/
def rowDiff (n : ℕ) (h : F) (f : ℕ → F) (i : ℕ) : F :=
  if i = n - 1 then (f (n - 1) - f (n - 2)) / h
  else if i = 0 then (f 1 - f 0) / h
  else (f (i + 1) - f (i - 1)) / (2 * h)

/-- The table built by `Bicubic.__init__` when no derivatives are given: batoid/surface.py L539-587.  `z iy ix` is
`zs[iy, ix]`; `xa`, `xb` are the first and last of `xs`. -/
def Table.ofGrid (xa xb ya yb : F) (nx ny : ℕ) (z : ℕ → ℕ → F) (useNan : Bool) : Table F :=
  let dx := (xb - xa) / const ((nx - 1 : ℕ) : ℚ)
  let dy := (yb - ya) / const ((ny - 1 : ℕ) : ℚ)
  let dzdx := fun iy ix => rowDiff nx dx (fun i => z iy i) ix
  let dzdy := fun iy ix => rowDiff ny dy (fun j => z j ix) iy
  let d2zdxdy := fun iy ix => rowDiff nx dx (fun i => dzdy iy i) ix
  { x0 := xa, y0 := ya, dx := dx, dy := dy
    z := fun k => z (k / nx) (k % nx)
    dzdx := fun k => dzdx (k / nx) (k % nx)
    dzdy := fun k => dzdy (k / nx) (k % nx)
    d2zdxdy := fun k => d2zdxdy (k / nx) (k % nx)
    nx := nx, ny := ny, useNan := useNan }

/-- `Bicubic::normal`: bicubic.cpp L23-40. -/
def bicubicNormal (T : Table F) (x y : F) : V3 F :=
  let g := T.grad x y
  if isNaN g.1 then ⟨nan, nan, nan⟩ else
    let nz := 1 / Arith.sqrt (1 + g.1 * g.1 + g.2 * g.2)
    ⟨-g.1 * nz, -g.2 * nz, nz⟩

/-- src/bicubic.cpp L11-40; `timeToIntersect` is inherited. -/
def bicubic (T : Table F) : Surface F where
  sag := T.eval
  normal := bicubicNormal T
  timeToIntersect := newton T.eval (bicubicNormal T)

/-! ## Sum -/

/-- `Sum::sag`: sum.cpp L23-28. -/
def sumSag (ss : List (Surface F)) (x y : F) : F :=
  ss.foldl (fun acc s => acc + s.sag x y) 0

/-- `Sum::normal`: sum.cpp L30-45. -/
def sumNormal (ss : List (Surface F)) (x y : F) : V3 F :=
  let g := ss.foldl (fun (acc : F × F) s =>
    let n := s.normal x y
    (acc.1 + n.x / n.z, acc.2 + n.y / n.z)) (0, 0)
  let nz := 1 / Arith.sqrt (g.1 * g.1 + g.2 * g.2 + 1)
  ⟨g.1 * nz, g.2 * nz, nz⟩

/-- `Sum::timeToIntersect`: sum.cpp L47-56.  `_surfaces[0]` of an empty list is undefined
behaviour in C++; the model reports failure there and theorems ask for a nonempty list. -/
def sumTime (ss : List (Surface F)) (r v : V3 F) (dt : F) (niter : ℕ) : Bool × F :=
  match ss with
  | [] => (false, dt)
  | s :: _ =>
    match s.timeToIntersect r v dt niter with
    | (false, dt') => (false, dt')
    | (true, dt') => newton (sumSag ss) (sumNormal ss) r v dt' niter

def sum (ss : List (Surface F)) : Surface F where
  sag := sumSag ss
  normal := sumNormal ss
  timeToIntersect := sumTime ss

end Surface
end Batoid
