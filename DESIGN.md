# Design of the formal model of batoid

Subject: `/repo` (jmeyers314/batoid at the pinned commit), python + C++.
Deliverable: a Lean 4 model under `lean/Verif/` with machine-checked theorems for
the properties listed in `properties.jsonl`.

## 1. Modelling principles

**Arithmetic is a parameter.** Every definition that mirrors C++ or python
arithmetic is written once, over an arbitrary type `F` with the class `Arith F`
(operations only: `+ - * /`, negation, `sqrt`, `abs`, comparisons returning
`Bool`, constants, `nan`).  No laws are assumed in the class.

* *Structural* theorems (flags, frame bookkeeping, batching and thread
  schedules, tree traversal, name lookup, path logic, failed rays untouched...)
  are proved for **every** `Arith F`.  They therefore also hold for IEEE-754
  doubles with rounding, signed zeros and NaN, which is one instance.
* *Geometric / algebraic* theorems are proved for the instance `Dbl`, the
  "ideal double": `nan`, `pinf`, `ninf`, `fin r` with `r : ℝ`; special values
  propagate as IEEE prescribes, comparisons with NaN are false, finite
  arithmetic is exact (no rounding), overflow does not occur and zero is
  unsigned (`x/0` is `nan`, `+inf`, `-inf` by the sign of `x`).  Division by zero
  and square roots of negative numbers are thus *not* totalised to `0`.
* *Accuracy* theorems are proved for the instance `Flt rd`: numbers as in `Dbl`, but the result of every operation, literal and
  `<cmath>` function is rounded by an arbitrary `rd : ℝ → ℝ` with relative error at most `u` (`2^-53` for doubles; `rd53_rounds`
  shows that rounding to 53 binary digits is such an `rd`).  They bound the error of the computed numbers for all inputs.

**Independent specification.** Documented formulas (surface equations, Snell's
law, projections, lattices...) are stated over plain `ℝ` (or with Mathlib's
`HasDerivAt`, `Finset.sum`, `Real.sqrt`...) in the statement of the theorem or in
small `Spec` definitions that do not mention the model; theorems say that the
code-mirroring model on `Dbl` refines them and, outside their domain, that it
fails / gives NaN as the code does.

**Exceptions are values** (`Except`), Python dictionaries are association
lists in insertion order, in-place mutation of a `RayVector` is a state-passing
function, C++ loops are recursive functions on lists or `Nat` iterations.

**Violations.** Where the code does not have the property users rely on, the
property is kept, the largest true part is proved under a name ending in
`_partial`, and a counterexample theorem (`..._violated`, `..._counterexample`) with a
concrete witness is proved beside it.

## 2. Modules

Model (every definition cites the lines of `/repo` it mirrors):

| module | models |
|---|---|
| `Arith` | the class `Arith`, the ideal doubles `Dbl` and their simp calculus |
| `Vec` | 3-vectors and 3x3 matrices (`numpy` `@`, `.T`, `vec3.h`) |
| `CoordSys` | `batoid/coordSys.py`, `batoid/coordTransform.py`, `src/coordtransform` parts of `batoid.cpp` |
| `Ray`, `RayVector` | a ray, `RayVector`: propagation, phase, amplitude, indexing, concatenation, `==` |
| `Surface`, `Roots` | `src/{plane,tilted,paraboloid,sphere,quadric,asphere,polynomialSurface,bicubic,table,sum,surface}.cpp`, `batoid/surface.py` |
| `Medium` | `src/{medium,coating}.cpp`, `batoid/medium.py`, `batoid/coating.py` |
| `Obscuration` | `src/obscuration.cpp`, `batoid/obscuration.py` |
| `Kernels` | the loops of `src/batoid.cpp` and their wrappers in `batoid/trace.py` |
| `Ops` | histories of public ray operations |
| `Schedule` | the OpenMP parallel loops as interleavings of loads and stores |
| `DualView` | `src/dualView.cpp` and the host/device protocol of `batoid/rayVector.py` |
| `Py` | Python exceptions and dictionaries |
| `Optic` | `batoid/optic.py`: trace, traceFull, paths, traceSplit, lookup, with*, clearObscuration; optics are values |
| `Rounding` | the arithmetic `Flt rd` with rounding |
| `OpticHeap` | the same classes as objects in memory: sharing, `cached_property` caches |
| `Projection` | `batoid/utils.py` field projections |
| `Numpy`, `Grids` | `linspace`, `meshgrid` and friends; `hexapolar`, `Lattice` |
| `Construct` | `RayVector.asGrid/asPolar/asSpokes/fromStop/fromFieldAngles/...` |
| `Fan` | `RayVector.asFan` |
| `Arrays` | which arrays a `RayVector` owns, shares or modifies |
| `Buffers` | arrays as memory: what numpy shows and what a C++ pointer reads (eight-byte elements; blocks do not overlap) |
| `Lifetime` | who keeps whom: python objects, their C++ objects, arrays and `new[]` memory, and when they are released |
| `Analysis` | `batoid/analysis.py`: lattice helpers, chief ray, exit pupil, wavefront, spot, FFT and Huygens PSF, linear maps |
| `Drawing` | `getGlobalRays` of `batoid/optic.py` |
| `Pickle` | `__getstate__`/`__setstate__` of all classes, default pickling of optics |
| `Zernike` | `batoid/analysis.py`: `zernike`, `zernikeGQ`, `zernikeTA`, `zernikeXYAberrations`, `doubleZernike`; galsim's Zernikes, `leggauss` and `lstsq` are parameters |
| `Objects` | `__eq__`, `__hash__`, keys and reprs of all classes |
| `Unwind` | batoid/trace.py and `trace` of batoid/optic.py as sequences of statements that may raise or be interrupted |
| `Reduction` | what the OpenMP `reduction` of `sumAmplitude` may return: any partition, order and grouping |
| `Printed` | `__repr__` of all classes as expressions, binding of arguments and `eval` of them; how numpy prints arrays is a parameter |
| `Parse` | `batoid/parse.py` |
| `Outline` | `draw2d`, `draw3d`, `get3dmesh`, `getXZSlice` of `batoid/optic.py` |
| `Sky` | `lst`, `eq_to_az`, `az_to_eq` of `batoid/app.py` |
| `App` | `RubinCSApp` of `batoid/app.py`: positions of stars, telescope, frames, grid and ray lines; the controls and their handlers |
| `Pyramid` | `batoid/plotUtils.py`: the layout of `zernikePyramid` |
| `Telescopes` | `batoid/data/*/*.yaml`: types, names and media (generated by `tools/telescopes.py`) |

Properties (`Verif/Props/*`): each module has the theorems `Cnn_*` of its area, lemmas, and examples showing that hypotheses can be
met.  `Frames` C01-C07, `Optics`/`Path` C08-C11, C15, C19, C69, C72, `Kernels` C12-C15, C17, C69, `Schedule` C16, `Trace` C18,
C51, C52, C55, `Intersect` C20, C21, C23, C30, `Normals`/`Gradients` C22, C24, C28, C29, `Polynomial` C25, `Bicubic` C26, C27,
`Media` C31, C32, `Obscurations`/`Polygon`/`PolygonGrid` C33-C37, `Rays` C38-C41, C47, `GridRays`/`Launch`/`PlaneWave` C42-C45,
`Arrays` C46, `Names` C48, `Edits` C49, C50, C58, `Rigid` C53, `Split`/`SplitEnds` C54, `Coatings` C56, `Ghosts` C57,
`Projections` C59, `Grids` C60, C61, `Parse` C62, C63, C83, C84, `DualView` C64, `Analysis`/`Imaging` C65-C67, `Objects` C68,
C80-C82, `OpticHeap`/`Histories` C70, C71, `Clear` C73, `Wavefront`/`Newtonian` C74, C75, `Psf` C76, C77, `Stigmatic` C78,
`Trace` C79, `Quadrature` C85, `Zernike` C86, `LeastSquares`/`Fits` C87, `DoubleZernike` C88 (with `Screen`, a camera without lens, as the concrete system), `Derivatives` C89, `Gradient` C90, `FFT` C91, `Drawing` C92, `Pickle` C93, `Perturb` C94, `Telescopes` C95, `Select` C96, `Reversal` C97, `Malus`/`MalusChief`/`MalusTable` C98, `Symmetry`/`SymmetryPoly` C99, `Skew` C100, `Outline` C101, `Sky` C102, `Pyramid` C103, `Fan` C104, `Etendue`/`EtendueScreen` C105, `Fermat` C106, `Pointing` C107, `Panel` C108, `Paraxial` C109, `Routes`/`RoutesTrace` C110, `RoundFrames` C111, C112, `RoundCalc`/`RoundObsc` C113, `RoundNormals` C114, `RoundRays` C115, `RoundSnell` C116, `Buffers` C117, `RoundLanding` C118, `Units` C119, `Convergence` C120, `Straight` C121, `Cartesian` C122, `Lifetime` C123, `Printed` C124, `RoundSag` C125, `RoundFocus` C126, `Unwind` C127, `Energy` C128, `RoundClock` C129, `RoundPoly` C130, `RoundLens` C131, `RoundPhase` C132, `RoundNewton` C133, `RoundMedium` C134, `RoundTable` C135, `RoundField` C136, `RoundLaunch` C137, `RoundGrid` C138, `RoundPolar` C139.

## 3. Plan per property

(Status is kept in `MANIFEST.json`; this section says what is modelled and how.)

| id | model | proof |
|---|---|---|
| C01-C04 | `CoordSys` over ℝ, histories as an inductive reachability relation | induction over histories; ring identities |
| C05-C07 | `CoordTransform`, ray transforms, lists of frames | algebra, induction over the list |
| C08-C11 | kernels `reflect`, `refract`, `intersect` on `Dbl` rays | refinement to vector formulas over ℝ; Snell as cross product law |
| C12-C13 | kernels for every `Arith F`, operations as an inductive type | invariant by induction over operation lists |
| C14 | same | counterexample for failed rays, `_partial` for live rays |
| C15 | `rSplit` vs `reflect`/`refract` | case analysis, any `Arith F`; flux sum on `Dbl` |
| C16 | per-ray programs of micro steps and arbitrary schedules | induction over the schedule |
| C17, C33 | `obscure`, nested `Obsc` | pointwise, structural induction |
| C18 | `Interface.trace` | unfolding into kernel specs |
| C19 | `refractScreen` | algebra in the orthonormal tangent frame |
| C20, C21 | each solver on `Dbl` | quadratic formula, sign analysis |
| C22, C24-C26, C28, C29 | sag/normal of each surface | `HasDerivAt` of the sag spec; Tilted counterexample |
| C23 | Newton loop | invariant of the loop, any `Arith F` for the residual test |
| C27 | finite-difference derivative tables | algebra |
| C30 | solvers on `Dbl` | counterexamples + `_partial` |
| C31, C32 | `TableMedium::getN`, formulas | list induction; counterexample at last wavelength |
| C34-C37 | shapes | real algebra, list induction; counterexample for `containsGrid` |
| C38-C41 | `RayVector` methods | algebra, list induction |
| C42-C46 | constructors | integer and real algebra; counterexamples |
| C47 | `__eq__` | counterexample + partial |
| C48-C58 | optic trees | structural induction, counterexamples for name-prefix, skip, coating defects |
| C59 | six projection pairs | trigonometric identities |
| C60, C61 | grids | list induction, integer arithmetic |
| C62, C63 | config trees | induction |
| C64 | host/device state machine | invariant |
| C65 | normal equations | convexity |
| C66, C67 | small arithmetic | algebra, counterexamples |
| C68 | eq / hash keys | case analysis, counterexample |
| C69, C72 | flux and optical path of a ray through any history of kernels | invariants by induction over the history |
| C70, C71 | objects with caches and shared items (`OpticHeap`), programs as histories of calls | refinement of every method to the functions on values; invariant "caches hold what would be computed now" over all histories |
| C73 | `clearObscuration` on trees, traces | structural induction: the trace is that of the same tree without masks |
| C74 | `chiefRay`/`fromStop`, `exitPupilPos` | the traced ray alone decides; grid size plays no role |
| C75 | `wavefront` on a reference sphere | algebra over ℝ; concrete stigmatic telescope (`Newtonian`) |
| C76 | `spot` | exact mean, translation of the cloud |
| C77 | `huygensPSF` | value at every lattice point as the squared modulus of a sum of plane waves |
| C78 | conic mirrors | focal property from the quadratic solver, equal path lengths |
| C79 | `Optic.trace` with coatings | coatings never read, any arithmetic |
| C80-C82 | `Objects` | equality implies equal optical behaviour; hash respects `==`; order of unions |
| C83, C84 | `Parse` | structural induction over nested configurations |

| C85 | `asSpokes` with Gaussian quadrature; `leggauss` enters through its contract (`GaussRule`) | exactness of equally spaced azimuths for trigonometric polynomials, polar coordinates, linearity over monomials |
| C86 | `zernikeGQ` | launch (C45), trace, reference sphere (C75), then C85 for wavefront times Zernike; counterexample for frames other than the global one |
| C87 | `zernike`, `zernikeTA`, `zernikeXYAberrations`; `lstsq` enters through its contract (`LeastSquares`: exact rank, shortest minimiser; shown to be satisfiable) | zero columns do not change rank and minimum, full rank gives uniqueness |
| C88 | `doubleZernike` over `zernikeGQ` (as in C86); `leggauss` enters as a Gauss-Legendre rule, the Zernike polynomials as polynomials orthonormal on the (annular) disk | the quadrature of C85 on the disk of field angles, then C86 at every field angle |
| C89 | `drdth`, `dthdr`, `focalLength` over `asPolar` and `trace` | the centroids are written as sums over the set of unvignetted indices; the camera without lens gives the values; focalLength takes the square root of a determinant, which is negative for a reversed detector (C89_reversed_violated) |
| C90 | `dkdu`, `bilinear_fit`; `np.linalg.lstsq` enters as a least squares solver | rows of the design matrix are (1, x, y); minimality against all planes; uniqueness when the lit positions are not on a line; the paraboloid as a computed case |
| C91 | `fftPSF`, `psfVectors`, `huygensDefault`; `np.fft.fft2` by its definition, `fftshift` as an index map | the window of the padded array and the shift turned into a sum over lit pupil points (`pupilSum`), Parseval by orthogonality of the roots of unity; the lattice is dual exactly when `dkdu` is diagonal (`C91_exact`); partial: turned detectors (`C91_rotated_violated`) and odd `nx` (`C91_odd_violated`) |
| C92 | `getGlobalRays` with its name lookup, loop and errors | specification by stages (the rays after the first m interfaces); the loop invariant gives vertices and counts, `countP_prefix` with monotone vignetting turns the count into a prefix; segments from the kernels (`onRay_moves`); partial: the first vertex counts as visible even if the ray arrives vignetted (`C92_entry_violated`), and names have to be distinct as in C51 |
| C93 | pickled values as trees of class and state, `__getstate__` and `__setstate__` class by class, including the C++ object that `__setstate__` builds | structural induction over surfaces, obscurations and optics: `unpickle (pickle o) = (o, denote o)` |
| C94 | `withPerturbedSurface` of interfaces and compounds over `Surface.sum` | lookup as in C48/C50, sums from C28; zero perturbations: the first guess of the solver is exact and Newton's step keeps it (`newtonIter_exact`); partial: names that are prefixes of later siblings, as in C50 |
| C95 | types, names and media of the 39 files (`tools/telescopes.py`), numbers arbitrary | induction over the shape for every configuration that fits it; the finite facts about the names of the shapes by kernel evaluation; C48-C51 for the rest; counterexamples for hidden optics and PFS |
| C96 | `timeToIntersect` of the five surfaces solved in closed form (C20) | characterise the two roots and show the sign test picks the one with the smaller height (or smaller distance from the vertex plane); reparametrise the line; counterexamples for level rays and rays that start on the surface |
| C97 | `Optic.trace` in both directions, `Ray.reflect`, `Ray.refract`, `timeToIntersect` | reversal of a single crossing by an independent form of Snell's law and the law of reflection, then induction over the interfaces visited; C96 gives that the turned ray finds the same point; counterexample for every phase screen |
| C98 | `Optic.trace`, `Ray.reflect`, `Ray.refract`, `Ray.refractScreen`, surfaces | a beam is a smooth curve of rays (`Wavefront`); an implicit function lemma makes meeting time, point and normal differentiable; the laws of reflection and of Snell keep the eikonal relation; induction over interfaces.  For planes, paraboloids, spheres and conics the clean course of a single ray is enough.  Exact condition for phase screens; counterexample for every Tilted mirror.  Surfaces met by iteration are covered only where the returned point is exactly on the sag |
| C99 | `Optic.trace`, `Ray.intersect/reflect/refract/refractScreen`, `newton`, surfaces, `Obsc.contains` | every kernel commutes with an orthogonal matrix that keeps the z axis, on vectors that are finite or all NaN; the iteration of `Surface::timeToIntersect` takes the same steps for turned arguments (induction over its passes); then induction over visited interfaces.  Fixed points of the symmetry give the meridional plane and the axis.  Polynomial surfaces are symmetric when the polynomial is (the slopes follow by differentiating the invariance; criteria by parity of exponents and for radial polynomials).  Bicubic tables are not: `C99_bicubic_violated` |
| C100 | `Optic.trace`, kernels, surfaces, frames | the mirror image in the plane through the axis and the point of incidence keeps the surface, hence (C99) the normal lies in that plane; velocities change along the normal only (reflection, refraction) or along the gradient of the screen; the twist is linear in the velocity and vanishes on the normal; induction over visited interfaces.  `Revolution` names the surfaces syntactically |
| C101 | `Outline.*` (`Verif/Outline.lean`): `getXZSlice`, `draw2d`, `draw3d`, `get3dmesh`, `fillLens` | the lists of points are computed in closed form from `linspace` (the two half slices join into one even sampling); trees by induction; the mesh is the list of drawn curves separated by NaN.  Violations: decentred apertures, `nslice=1`, lists as `only`, meshes of trees with undrawn interfaces, lenses with one hole |
| C102 | `Sky.lst`, `eqToAz`, `azToEq` (`Verif/Sky.lean`) | unit vectors: the formulas are the components of one half turn about an axis in the meridian, which is its own inverse; `arctan2` by its defining property; angles in range are unique.  Violations: the azimuth at the zenith is NaN, `lst` counts centuries from day 0 |
| C103 | `Pyramid.zernikePyramid` (`Verif/Pyramid.lean`) | the cell and the shift by half a cell are computed modulo 2: twice the final column is `m + nmax`; injectivity from that of Noll's numbering, which is defined and proved to have the assumed properties (`nollIndex_like`).  Violations: `jmin = 1` with `vdim`, `jmin > 4` |
| C104 | `Construct.asFan` (`Verif/Fan.lean`) | from C42: a grid with one row or column is a line, and two plane waves of one direction joined are one (the velocity is determined by direction and index).  Violations: the defaults raise, a single point raises, the central ray is there twice |
| C105 | `Optic.trace`, `Ray.reflect`, `Ray.refract`, surfaces | reflection and refraction change `v/(v·v)` along the normal (`turns_kick`); differentiated along two beams the change of the form is the antisymmetric part of the second derivative of the sag, which vanishes (`hess_symm`); free flight keeps the form; induction over interfaces for any number of beams (`Pencil`).  The Pfaffian of four beams is the étendue.  For planes, paraboloids, spheres and conics the clean course of one ray is enough.  Counterexample for every Tilted mirror.  Surfaces met by iteration are covered only where the returned point is exactly on the sag. `C105_screen`: one phase screen, whichever way the light goes, by the symmetry of the second derivatives of surface and screen. |
| C106 | `Optic.trace`, `Ray.reflect`, `Ray.refract`, surfaces | `pathTime` is written with distances and speeds only; the derivative of one leg, `turns_kick` and the fact that curves on a surface are perpendicular to its normal; induction over interfaces.  Meeting points ahead of the light (`0 < dt`).  Counterexample for every Tilted mirror.  Phase screens are left out |
| C107 | `App` (drawing), `Sky`, `Optic` | `C107_star` compares the product of rotations with the vectors of C102; `C107_aim` chains the theorems of C49 on edits (rigid motions compose, names and media stay) and identifies the composed motion as `Pointing`; `C107_pointing` joins it with C102; frames, axes, grid and ray lines by computation and by indices.  The camera must be a part other than the telescope itself, with its stop surface (if any) aligned (see C49).  Borders of rafts and the azimuth ring are left out |
| C108 | `App` (`Panel`), `Sky` | The four mutually recursive handlers with a bound on their depth (`none` is RecursionError).  `assigns`: every nested call sets a control to its final value, by induction on the number of controls that do not show it yet; it needs that the two conversions are inverse on the values they return (C102).  Then `C108_event_partial` for each action (five calls deep at most), `C108_session_partial` by induction, `C108_initial`.  Fails for the frame of the camera and at the zenith, hence partial.  That spots and wavefront do not depend on where the telescope points is C53/C49, so they are required to be current in the other settings only; angles are exact reals |
| C109 | `Station`, `gauss` (Gauss' formulas), `Vertex`, `Index`, `CentredIface` describe the system without the model; `C109_vertex`, `C109_asphere`: curvature of the reported normals at the vertex; `C109_gauss`: by induction over the interfaces, the beam of `trace` has the rates of `gauss` (with `chief_step`, `kick_global` of C105); `C109_pencil`: the same for any smooth surfaces given the meeting points; `C109_matrix`, `C109_scale`, `C109_mirror`, `C109_lens`: consequences |
| C110 | `Route` (inductive: transmitted or reflected at each interface of the flattened list) with `Leg`, `bright`, `Way`, `Lists` specify the result without queue or recursion; `C110_routes`: by induction over the fuel, the loop lists the routes through the items not yet done, joined by `route_join`/`route_split`; `C110_nesting`; `C110_distinct_paths`: names tell the route; `C110_trace_path`: a route is a walk in the sense of C57, its rays are those of `ghost` up to flux; `C110_returns`: with C54, no exception |
| C111 | `Flt rd` (`Rounding`) runs the model of the transforms with rounding after every operation; `Rounds u rd`, `nrm`, Frobenius norm and `Nearly δ` are the specification; error of a rounded inner product, matrix product and difference by the usual forward analysis, composed along the code: `C111_forward`, `C111_velocity`, `C111_reverse`, `C111_round_trip` |
| C112 | `StoredOp` is an edit with stored numbers, `run` its effect with rounding, `exact` without; `Rounds.mul_nearly` bounds a rounded product of nearly orthonormal matrices, `storedOp_step` one edit, `C112_drift` by induction over the history; example: a thousand rotations in double precision (`rd53`, `rotX_nearly`) |
| C113 | `Obsc.withNums` gives an obscuration its stored numbers; specification: `Away u x y o`, by cases on the shape, in terms of the distance to the rim (`pdist`), the coordinates along and across a vane (`along`, `across`) and the horizontal distance to an edge of a polygon (`FarFromEdge`); `C113_contains` by induction on the tree, `C113_obscure` for the kernel; `C113_needs_margin`: at the rim itself the answer can differ |
| C114 | `UnitNormals rd η s`; `Rel u k`, a calculus of relative errors closed under products, quotients, roots and sums of nonnegative numbers, follows each formula; `Stored` (a finite result has finite operands) removes the cases where something overflows; theorems `C114_plane` … `C114_tilted`; example: on a paraboloid the normal is stored at every point |
| C115 | specification: `mirrorImage n v`, the exact reflection across `n` of any length; `advance_near` for positions, `C115_propagate`, `C115_plane`; `reflect_near` for the formula, `C115_reflect` for the kernel; `KeepsSpeed` lists the operations, `keepsSpeed_step` bounds one, `C115_speed` by induction over the history |
| C116 | `incoming_near`, `orient_near`, `snell_sine`, `snell_factor`, `outgoing_near` follow `refractDir` step by step; `refract_len`: the squared length of `η v - (η α + c) n` is 1 because `c²` (not `c`) is accurate; `C116_direction` for the formula, `C116_refract` for the kernel with any surface and frame, `C116_history` for a refraction followed by any history of C115; examples in double precision |
| C117 | arrays as views of memory blocks (offset, strides, element type), `Buffers`: numpy's element against what a C++ pointer finds; conversions of each constructor | conversions keep the elements and make them dense; induction over copies and slices; witnesses for integers, strided views, wrong shapes and lengths |
| C118 | `Err u k a b M`, a calculus of absolute errors of sums; `Solves a b c K x`: the residual of a quadratic is at most `K` times the sizes of its terms; the computed pair of roots solves with `45 u` (`rootPair_solves`, for vanishing leading coefficient `rootPair_linear`), because the discriminant is near in the backward sense and the second root `c / (a x)` solves as well as the first; theorems `C118_sphere`, `C118_sphere_distance`, `C118_sphere_miss`, `C118_sphere_clear`, `C118_paraboloid`, `C118_quadric`, `C118_tilted`, and `C118_iterated` for the surfaces met by iteration (the residual test is on the very point returned); examples in double precision for each. Missing: underflow and overflow as in C111; how far the computed sag is from the exact one; which of two exact roots the computed one belongs to when they merge |
| C119 | `Units F σ`: laws of a change of unit, `σ k` acting on quantities of dimension length^k; `units_dbl` (exact arithmetic, every positive ratio, NaN and infinities included), `units_flt` (arithmetic with rounding, ratios that the rounding respects), `units_rd53` (double precision, powers of two, by `rd53_shift`). Dimensional analysis of every definition of `Surface`, `Obscuration`, `CoordSys`, `Kernels` by moving `σ` outwards: `shape_*`, `hit_*`, `contains_units`, `*_units`; `sameTable_ofGrid` for heights on a grid. Whole systems: C119_trace (any admissible arithmetic; surfaces met by iteration enter by `UnitHits`), C119_closed, C119_exact, C119_double; C119_split, C119_phase, C119_amplitude, C119_table. Partial: C119_iterated_partial: the verdict of the iteration is the same unless the last distance lies between 1e-12 of the two units; C119_newton_violated: `z = x^2`, a ray that meets it in metres and is marked as missing in millimetres; C119_glass_violated: in every unit other than the metre some Sellmeier glass has another index (1e12 converts metres to microns), while phases need the wavelength in the unit of the positions. |
| C120 | `newton` = `Surface::timeToIntersect` with `asphere`, `sum`, `polynomial`, `bicubic` starts (`StartsAt`) on exact numbers. Specification `Gentle`: sag with total derivative, reported normal of that graph, closing speed of the line against the graph bounded below and Lipschitz; `Meets`. Mean value theorem, induction on the steps, intermediate values for existence. `C120_converges`, `C120_found`, `C120_only`, `C120_figure`, `C120_near`, `C120_parallel`, `_polynomial`, `_asphere`; `C120_far_violated` shows a crossing ray that five steps lose. | |
| C121 | `Straight`: `C121_straight` by induction over the visited interfaces; a ray with finite coordinates behind an interface had finite coordinates, a finite time to it and (for lenses) a finite normal before it (`alive_step`, `alive_first`), so no hypothesis on the surfaces is needed; `C121_stack` (invariant `Passed`), `C121_plate`, `C121_mirrors`, `C121_corner`, `C121_periscope` |
| C122 | `Cartesian`: Conic and spherical faces are modelled by `Surface.quadric`/`Surface.sphere` and `Iface.trace`. Specified by the conic (`OnSheet`), the focus and the times, without the model's normals or refraction. Proved from Snell's law at the landing point: `C122_focus`, `C122_collimate`, `C122_aplanatic` (any ray that comes out alive), `C122_arrives` (rays within the rim do come out, on the vertex sheet), `C122_singlet` (after a stack of flat faces). Exact arithmetic. |
| C123 | `Lifetime`: A heap of python objects, C++ objects, arrays and `new[]` blocks; constructors mirror which arrays they make, which references python keeps and which raw pointers C++ keeps. Specified by `Touched` (all that references and pointers lead to) and release of what python does not keep. Proved by an invariant over all histories: `C123_safe_partial` for programs that do not assign attributes of objects with C++ objects or elements of `items`; `C123_once`; `C123_freed` without sums and unions. The rest fails: `C123_items_violated`, `C123_attribute_violated`, `C123_array_violated`, `C123_leak_violated`. Not modelled: memory on a device, exceptions in constructors, resizing of arrays in place, private attributes. |
| C124 | Texts are syntax trees of calls (`Verif.Printed`); how numpy prints arrays is a parameter. `__repr__` of all classes, Python's binding of arguments and the constructors' checks are modelled. By mutual induction: the text of every legal object evaluates, what comes back prints the same, and is the object itself where array texts are exact (C124_medium, C124_coating, C124_surface, C124_obscuration, C124_coordSys, C124_coordTransform, C124_lattice, C124_rays). For optics all but coatings, `skip` and `stopSurface` comes back (C124_optic_partial, C124_trace_partial). Fails: those attributes are lost (C124_attributes_violated), compounds and unions without items cannot be printed (C124_empty_violated), arrays of more than 1000 elements cannot be read (C124_long_violated), digits beyond the eighth are lost (C124_digits_violated) |
| C125 | Rounding (`Flt rd`). The true height and normal are given by the equation of the conic of revolution and by its gradient (`OnConic`, `ConicNormal`), the distance from the rim by `OffRim c`. Relative errors of every intermediate number; the subtraction from one under the root costs `2 k c` roundings (`Rel.one_sub`). Aspheres: induction over the coefficients; the slope against the derivative (`HasDerivAt`); the normal moves by no more than the slope (`upward_lip`). Mirrors: C115 with the normal replaced by the true one. `C125_sphere_violated`: in double precision `Sphere(1).sag(2^-30, 0) = 0`. |
| C126 | Rounding (`Flt rd`). `Arrives p w t F d`: after the time `t` the ray is within `d` of `F`. The reflecting property of conics (`mirror_parabola`, `mirror_conic`: signed focal distances, valid for ellipsoids and hyperboloids) at the point of the surface over the computed landing point; the landing point by C118 (turned into a height error by `height_near`), the normal by C125, the reflection by C115; `carry` adds up the errors. Frames and detectors: `C126_shift`, `C126_spot`; whole systems: `C126_prime_focus`, `C126_cassegrain`, each with a ray traced in double precision. |
| C127 | The in-place functions once more, statement by statement, as computations on the rays that may stop (`Act`): by an exception, or by an interrupt before any statement (a counter). Arguments are None, right or wrong. Calls without interrupts: case analysis of all arguments, `C127_intersect`, `C127_reflect`, `C127_refract`, `C127_refractScreen`, `C127_rSplit`, `C127_obscure`, `C127_toCoordSys` (done as the model of the kernels says, or raised and untouched). Traces: a calculus of computations that return or are interrupted (`Does`), composed by induction on the tree: `C127_trace` (refines `Optic.trace`), `C127_interrupt_partial` (the rays are at one interface: those before it done, those after it untouched). Paths: `C127_path`, `C127_path_known`, `C127_path_partial`. False in general: names of a path are looked up on the way (`C127_path_violated`), an interrupt can leave new numbers with the old label, at every interface (`C127_interrupt_violated`, `C127_relabel_violated`) |
| C128 | Kernels on exact reals with special values, specification by the cosine between velocity and normal and the flux of rays not vignetted. `C128_angle_split`, `C128_angle_single` (what the coating is asked by each of the four functions, for every coating), `C128_split_partial` (conservation over lists of rays, below the critical angle). False in general: `C128_total_reflection_violated` (for every coating, light beyond the critical angle is lost up to its reflectivity; `C128_half_lost_violated` a concrete ray), `C128_angle_violated` (`reflect` and `rSplit` ask about angles of different sign) |
| C129 | Rounding model (`Flt rd`): `clockSlack` bounds the disagreement of clock and place after `intersect`, `reflect`, `refract` for every surface; composed with C118 and C126 for the parabola, the prime focus (all clocks equal, tied to the directrix) and the conic from focus to focus. Proved; over/underflow excluded as in C118. |
| C130 | `Surface.polynomial`, `Surface.sum`, `Surface.newton`, `Ray.intersect`, `Ray.reflect` over `Flt rd`. Specification: the double sum `polyValue`, derivatives in the sense of analysis for the slopes, `SlopeNormal` (the unit normal of a surface with given slopes). Induction over Horner's rule in the calculus of `RoundLanding`; the unit normal is a Lipschitz function of the slopes (`upward_close`); induction over the parts of a sum. The gradient arrays may hold their coefficients with `g` roundings. Proved. Cell choice in bicubic tables is discontinuous and not covered. |
| C131 | `Ray.refract`, `Ray.refractDir`, `Surface.quadricTime`, `Surface.quadricNormal`, `Ray.intersect` over `Flt rd`. Specification: `Refracted` (Snell's law by cross products, unit length, same side), `OnConic`, `ConicNormal`, `Arrives`. The tangential part and the length of the computed direction are known from C116; Lagrange's identity gives the normal part up to the cosine (`direction_known`). Proved. |
| C132 | `Ray.phase`, `Ray.amplitude`, `RayVec.sumAmplitudeStep`, `RayVec.Reduced` (every result that the OpenMP `reduction` clause allows), `Analysis.intensity`, `RayVec.waveVector` over `Flt rd`. Specification: `truePhase` (plane wave, C39), `trueWaves` (sum of complex exponentials), `radians`, `totalLight`, `waveSlack`. Running error analysis by induction on the reduction (`reduced_err`), Lipschitz bounds for sine and cosine. Proved. |
| C133 | `Surface.newtonIter`, `timeToIntersect`, `Ray.intersect` over `Flt rd`. Specification: `Bending` (true height with slopes, approach speed bounded below and Lipschitz), `Reported` (accuracy of heights and normals next to the ray, as C125 and C130 prove for quadrics, aspheres and polynomials), `BeginsAt`, `stepSlack`. One rounded step is the exact step up to `stepSlack` (`step_near`), then a noisy quadratic recursion by induction (`noisy_step`). `C133_converges`, `C133_found`, `C133_lands`; a ray on the bowl `z = x^2 + y^2` in double precision meets every hypothesis. Proved. |
| C134 | `tableGetN`, `sellmeierN`, `sumitaN`, `airN` over `Flt rd`. Specification: `interpolated`, `resonance`, `sumita`, `filippenko` (C32), with all terms made positive `filippenkoSize`. Differences that may cancel are treated with a coarser unit of rounding `10 κ u` (`uncancelled`, `Rounds.coarser`), the rest by the calculus of `Rel` and `Err`. Fused silica, a Sumita glass, mountain air and a table in double precision as concrete cases. Proved. |
| C135 | `Table.cell`, `Table.eval`, `Table.grad`, `bicubicNormal` over `Flt rd`. Specification: the real interpolation `sagR`, `slopeX`, `slopeY` of C26 for the same entries (`exactTable`), whose continuity and derivatives are proved there. Bounds and steepness of cubic pieces (`TamePiece`), the computed cell is the right one or its neighbour with a fraction next to 0 or 1 (`Placed`), and matching patches (`cell_across`). A table of nine nodes in double precision as concrete case. Proved. |
| C136 | The functions of C59 over `Flt rd`. Specification: the exact unit direction which shows the field angle under the law of the projection (`Proj.Shows`, `Proj.Sees` of C59). `C136_direction`, `C136_back`, `C136_orthographic` (up to 45 degrees) proved; `C136_lambert_violated`, `C136_postel_violated` and `C136_stereographic_violated` at 2^-30 rad in double precision. `C136_lambert` says how much lambert loses: a relative error of 140 u over the square of the field radius between sqrt(200 u) and 60 degrees, in both directions (on the way back the errors of `sqrt(1 - gamma**2)` cancel, those of `sqrt(2 + 2 gamma)` do not). `C136_postel_back`: the case gamma = -1 is the only one in which postel loses the angle on the way back; otherwise `rho / sin(rho)` is right although `rho` is not (`sinc_gap`: sin t / t moves no more than cos t). Orthographic nearer to the horizon (where the axial component cancels) and lambert beyond 60 degrees are left out, and so is the way back for stereographic where gamma is not -1. Concrete: two degrees in double precision. Partial. |
| C137 | `velocity`, `launchFrame`, `finishParallel`, `finish`, `launch`, `fromFieldAngles` over `Flt rd`. Specification: `LaunchedAt` (the point lies on the line through the stop point and on the plane perpendicular to the light), not mentioning frames. No entry of the frame cancels, so each is right to 44 roundings; the rest is bookkeeping with `Err`. The stop points are taken as computed (their accuracy: C111, C125). `fromFieldAngles` does not use the frames: it backs each ray up along its own direction (`C136_direction`, then `backed_up`). Concrete: an aperture of 40 m in double precision, within 0.1 nm; field angles up to a radian, within 1 nm. Proved. |
| C138 | `gridAxis`, `gridPoints`, `asGrid`, `asFan` over `Flt rd`. Specification: `gridSpec` of C42 and `LaunchedAt` of C137. Relative errors along the axes, `C111_forward` for the frames, `C137_launch`, and that backing up does not spread points apart (`launched_lip`). Concrete: 101 by 101 rays over ten meters in double precision, each within a nanometer. Proved. |
| C139 | `linspace`, `spread`, `spokesShape`, `fromPolar`, `asSpokes`, `fromStop`, `asPolarRandom`, `launch` over `Flt rd`. Specification: `spokesSpec`, `equalRadii`, `equalAzimuths` of C45 and `LaunchedAt` of C137. Both ways in which numpy forms the values of `linspace` are right to 5 roundings; azimuths below 2 pi are then right to 126 u and cosines move no more than their angles. Concrete: any number of rings between one and four meters and any number of spokes in double precision, each ray within a nanometer. For `spacing='GQ'` the nodes and weights numpy returns are parameters (nodes in [-1, 1], finite weights, numbers of rings and spokes positive, inner <= outer, and 1 a floating point number); the square of a ring's radius is a sum of nonnegative terms, `inner² (1 - t)/2 + outer² (1 + t)/2` up to the scale, so it is right to a relative error even next to the centre. Not covered: how numpy finds the nodes, and `asPolar` without `nrandom`, whose number of rays per ring is the floor of a rounded number. Proved for the calls named. |

## 4. Trusted base

* Lean 4.33.0's kernel and Mathlib's definitions; theorems depend on at most
  `propext`, `Classical.choice`, `Quot.sound` (`AXIOMS.md` lists the axioms of every
  theorem named in `MANIFEST.json`).  No own axioms, no `sorry`, no
  `native_decide`/`bv_decide`.
* The reading of the C++/python source as Lean definitions (cited line by line).
* Exact reals: geometric theorems are about `Dbl`, i.e. doubles without rounding, overflow and signed zero.
  Accuracy theorems are about `Flt rd`, i.e. doubles with rounding, without overflow, underflow and signed zero; the functions of
  `<cmath>` are taken as correct to a relative error `u`, numpy's `dot` as summing from left to right.
  Structural theorems hold for every `Arith F`, hence for IEEE doubles.
* Sequentially consistent memory for the parallel loops; iterations are arbitrary interleavings of loads and stores.

Modelled code, by file:

* `batoid/`: `coordSys.py`, `coordTransform.py`, `rayVector.py`, `trace.py`, `surface.py` (except the galsim part of
  `Zernike`), `medium.py`, `coating.py`, `obscuration.py`, `optic.py`, `lattice.py`, `parse.py`, `utils.py` (projections,
  hexapolar), `analysis.py` (see `Verif/Analysis.lean`), `global_vars.py` (iteration count).
* `src/`: all files.  `batoid.cpp`: every kernel; the GPU variants only as host/device flags (`DualView`).

Not modelled:

* rounding (except in theorems stated for every arithmetic or for `Flt rd`), overflow, underflow, signed zeros, the identity shortcut of Python's
  container comparison for NaN;
* the OpenMP runtime, GPU memory, pybind11 conversions (argument types are assumed right), pickle's byte format (pickled objects are trees);
* plotting itself (matplotlib, plotly, labels, widgets; of `app.py` the azimuth ring, the borders of the rafts, spots and wavefront; what `draw2d`, `draw3d` and `getGlobalRays` hand over is modelled), text of `repr` (an arbitrary function to strings);
* galsim (its Zernike polynomials are a parameter: any family of polynomials), numpy's FFT (its definition as a sum is used), `leggauss` (specified by exactness up
  to degree 2k-1), `lstsq` (specified as the shortest minimiser, with the exact rank instead of the one up to machine precision), random numbers (draws are arguments);
* YAML (configurations are already dictionaries), `eval` of class names (a parameter giving the constructors).

## 5. Disagreements between the code and the properties

Each entry names the theorem that shows it on the model, or says "reading" when it was only noticed while reading.

Rays and kernels
1. A failed ray keeps the coordinates of the frame before the operation while `rv.coordSys` changes (C14_failed_ray_frame_violated).
2. `refractScreen` of a ray bent beyond the horizon leaves it live with NaN velocity (C19_over_bent_ray_stays_live_violated).
3. `rv[-k]` for k > 1 returns the last k rays (C41_negative_index_violated); `concatenate` takes the first frame only
   (C41_concatenate_frames_violated); `==` ignores the frame and the length (C47_*_violated).
4. With a device: assignment to `rv.wavelength` is lost, and the reflected half of `rSplit` is stale (C64_*_violated).
5. `rSplit` passes the signed cosine to the coating (C128_angle_split); on total internal reflection the reflected flux is not total (C128_total_reflection_violated).

Surfaces
6. `Tilted::normal` returns (-tanx, -tany, sqrt(1-tanx²-tany²)) (src/tilted.cpp L22-24): unit but not perpendicular (C22_tilted_violated).
7. Sphere, Paraboloid: rays starting on the surface succeed with NaN (C30_*_violated); Quadric with conic -1 always gives NaN
   (C30_quadric_parabolic_violated); Sphere/Quadric may return the other cap or sheet (C20_*_violated).
8. A ray inside a plane is reported as missing it, or hits at NaN (C21_ray_inside_plane_violated).
9. The nodes on the upper edges of a table are outside of it (C26_last_node_violated), so a table over a symmetric range is not
   symmetric (C99_bicubic_violated).
10. `CPPPolynomialSurface` takes the two sizes of a coefficient array in the wrong order (C117_polynomial_violated).

Media, coatings, obscurations
11. `TableMedium` at the last tabulated wavelength reads past the end (C31_last_wavelength_violated).
12. `ObscPolygon::containsGrid` omits the closing edge, uses the stride of the wrong axis and advances at most one intercept per
    column (C36_closing_edge_violated, C36_stride_violated, C36_coarse_grid_violated).

Optics
13. `Optic.__init__` sets `skip = False` whatever is passed (optic.py L44), so constructors and every copy lose it
    (C55_constructor_ignores_skip_violated, C55_copies_lose_skip_violated, C53_skipped_violated); `trace` of a skipped optic
    itself traces (C55_own_skip_violated); `traceSplit` of a compound with a skipped item raises TypeError (C55_traceSplit_skip_violated).
14. Constructors overwrite coatings, so copies drop them (C56_copies_drop_coatings_violated); `RefractiveInterface.rSplit` uses the
    reverse coating forwards and vice versa (C56_coating_swapped_violated).
15. Names: a sibling whose name is a prefix captures edits (C50_*_violated); same-named siblings are conflated by lookup and
    `traceFull` (C48_same_name_siblings_violated, C51_same_name*_violated); insert/remove of nested targets silently do nothing and
    ambiguous bystanders raise KeyError (C58_*_violated); `Lens.withRemovedOptic` always raises AssertionError (C58_lens_removal_raises).
16. `Interface.withLocalRotation` turns the stop surface about its own axes (C49_stop_of_rotated_interface_violated).
17. A path of one element reflects instead of tracing (C57_single_interface_violated).
18. `traceSplit` never ends on a failed ray that is not vignetted (C54_failed_ray_loops_violated).
19. After `clearObscuration` the cached radii are those of the old obscuration, and copies inherit them (C70_radii_violated).
20. Copies that change a named part share the others, and `clearObscuration` changes both (C71_shared_violated).
21. `OPDScreen.rSplit` and `Interface.rSplit` do not exist as methods that work; `Detector.rSplit` refuses reverse (model: exceptions).

Constructors of rays
22. `nx = 2` with a spacing gives a side of length 0; a spacing that does not divide the side is changed (C42_*_violated).
23. Vector spacings are used transposed, and the default second vector is the first (C44_*_violated).
24. The start distance is measured from the origin of the ray frame (C43_distance_violated); a point source makes `fromStop`-like
    constructors return None (C43_source_violated); a direction along x gives NaN.
25. Ring arrays with an integer number of spokes give one azimuth (C45_rings_violated); an unknown `spacing` uses the ring count as radius.
26. `fromStop` keeps and changes the caller's arrays, `fromFieldAngles` with the orthographic projection divides them
    (C46_*_violated); an array given as flux is shared.

Analysis, grids
27. `_reciprocalLatticeVectors` lacks two minus signs (analysis.py L10-11, C66_violated).
28. `fftPSF` raises IndexError for every odd `nx` (C67_odd_violated, C91_odd_violated).
29. `wavefront` with nx = 1 or 2 divides by zero (C75_small_violated); an unknown `reference` gives UnboundLocalError.
30. `huygensPSF` evaluates the waves at z = 0 of the last frame, not at the reference point; `nx=None` without `dx` raises TypeError (reading).
31. `hexapolar` with `nrad = 0` and zero-dimensional lattices raise (reading).

Equality, hashing, parsing
32. `Bicubic` values that differ in the case of `nanpolicy` are equal with different hashes (C68_bicubic_violated); polygons compare
    by broadcasting (C68_polygon_violated, C81_polygon_violated); unions of items with equal repr depend on order (C82_tie_violated).
33. `==` of optics ignores skip, coatings and the stop surface (C80_skip_violated).
34. A plain `Interface` in a configuration ignores its media and obscuration (C63_interface_violated, C83_obscuration_violated);
    a `Lens` drops items after the second (C83_lens_violated); parsing consumes the dictionaries it is given; `skip` is not parsed;
    `stopSurface` is placed relative to the global frame.

Zernike decompositions
35. `zernikeGQ` launches its chief ray without the `coordSys` of the optic, hence in the global frame: a perfect telescope shifted along
    its axis gets a spurious piston (C86_frame_violated), a rotated one a chief ray in another direction (reading).

Derivatives
36. `focalLength` is the square root of the determinant of `drdth`: NaN for a detector whose axes are reversed (C89_reversed_violated).
37. `dkdu` is transposed with respect to its docstring and differentiates by the launch position, not by the pupil coordinate (C90, reading).
38. For a detector turned by `psi` about the axis the lattice of `fftPSF` and of `huygensPSF` without `dx` is turned the wrong way, by
    `2 psi` in total; pixels of `fftPSF` are zero where the waves do not cancel (C91_rotated_violated). The cause is item 27.

Drawing and pickling
39. `getGlobalRays` counts the first vertex of a ray as visible even if the ray arrives vignetted (C92_entry_violated).
40. `drawTrace2d` and `drawTrace3d` document a parameter `globalSys` that they do not have: it ends up among the plot options (reading).
41. `RayVector.asFan` with its default `nx=None` or `ny=None` raises TypeError (C104_default_violated), with both at most one ValueError (C104_single_violated); a fan in both directions holds the central ray twice (C104_centre_violated).
42. `CompoundOptic.get3dmesh` raises TypeError when an item has no outer radius (C101_mesh_violated); `getXZSlice(nslice=1)` fails its
    assertion for an inner radius 0 (C101_one_point_violated); outlines ignore the centre of the obscuration (C101_aperture_violated);
    `draw2d(only=[...])` raises although a list is documented (C101_only_violated); a lens with a hole in the second surface only is filled
    with half of it (C101_lens_violated).
43. In pickle protocols 0 and 1 the empty state of `Plane` is not restored, so the copy has no C++ surface (reading).
44. `withPerturbedSurface` with an unknown name raises KeyError where the other methods raise ValueError (part of C94_named_partial).
45. Optics of five shipped files cannot be shifted, rotated or resurfaced, by the defect of C50 (C95_hidden_violated): DECam `CHIMNEY_*_2` and `MASK_2`, DESI `B10`-`B15`, LSST_r_baffles `M1CaBaffle2` and `M2BaffleBottom`, PFS `M1S2`, SDSS `Windscreen 2`, `Conical baffle 2` and `M1 baffle`.
46. In `PFS.yaml` the mirror `M1` inside glass has vacuum media (C95_media_violated).
47. `AuxTel.yaml` and `Calypso.yaml` give `z` beside instead of inside `coordSys` of the stop surface, where it is ignored; `PFS.yaml` has an ignored key `XPSurface`, `donsoptikz1.yaml` an ignored `dist` (reading).
48. A ray that runs parallel to the vertex plane of a sphere is sent to one end of its chord or to the other depending on its direction (C96_level_violated). A ray that starts on the surface stays where it is even if it starts on the far side, and for Quadric the time may be NaN (C96_start_violated).
49. `refractScreen` bends light that goes along the normal the other way than light that goes against it, although the delay it adds is the same: a ray turned round behind an OPDScreen does not go back where it came from (C97_screen_violated).
50. A mirror or lens with a `Tilted` surface does not keep rays perpendicular to wavefronts, since its reported normal is not the normal of the plane (C98_tilted_violated); for the same reason it does not keep étendue (C105_tilted_violated), and the light it reflects does not take a path of stationary time (C106_tilted_violated).
51. `refractScreen` bends light consistently with the delay it adds only for light that goes against the normal in vacuum: the delay is added to the time without regard to the speed of the light, and the bend changes sign with the direction of the light (C98_screen).
52. `lst` of `app.py` counts Julian centuries from Julian day 0 instead of from J2000.0, which shifts the sidereal time by more than 1.7 degrees (C102_sidereal_violated); the azimuth of a star at the zenith is NaN (C102_zenith_violated).
53. `zernikePyramid` raises ZeroDivisionError for `jmin = 1` with the default `vdim` (C103_piston_violated) and KeyError for `jmin > 4` (C103_start_violated) or if Z5 is not among the coefficients.
54. `update_telescope` of `app.py` does not call `update_CCS`: when the telescope moves, a visible camera frame stays behind (C108_camera_frame_violated).
55. Pointing the viewer at the exact zenith gives an azimuth NaN, which is never equal to the content of its control: the handlers call each other until the recursion limit (C108_zenith_violated).
56. Arrays are handed over as bare addresses. `Asphere(..., imin=1)` and `TableMedium` with integers read the bits of the integers as doubles, so that a coefficient or index 1 becomes 4.9e-324 (C117_asphere_violated, C117_medium_violated); fewer `ns` than wavelengths or fewer `ys` than `xs` read beyond the end (C117_medium_lengths, C117_polygon_violated).
57. `fromStop` and `containsGrid` read strided arrays such as `pts[:, 0]` as if they had no gaps (C117_stop_violated, C117_grid_violated); `Bicubic` takes heights of any shape (C117_table_violated); rays in arrays with two axes are accepted, but only as many as there are rows are traced (C117_rays_violated).
58. Lengths must be metres, although nothing in the tracing code but two places needs it: `Surface::timeToIntersect` compares a length with 1e-12, so that in millimetres rays that meet an asphere, polynomial or table in metres are marked as failed (C119_newton_violated), and the Sellmeier, Sumita and air formulas multiply by 1e12 (C119_glass_violated). Wavelengths in metres with positions in millimetres trace correctly through glass, but then `phase` divides millimetres by metres.
59. `Surface::timeToIntersect` (src/surface.cpp L22-49) stops after `niter` = 5 steps; a ray that crosses the trough `z = x^2` but starts 100 m away is reported as failed (`C120_far_violated`).
60. The C++ objects keep bare pointers and the bindings have no `keep_alive`: what they point to is kept by public, assignable attributes only. `u.items.clear()`, `n.original = None` or `m.wavelengths = other` followed by a deletion leave the C++ object with a pointer to released memory (C123_items_violated, C123_attribute_violated, C123_array_violated).
61. The arrays of pointers that the bindings of Sum, ObscUnion and ObscIntersection take with `new` are never released (C123_leak_violated).
62. `repr` of an optic leaves out the coatings, `skip` and `stopSurface`, so `eval(repr(x))` silently has the coatings of the factory; it still compares equal to x (C124_attributes_violated).
63. `CompoundOptic([])`, `ObscUnion([])` and `ObscIntersection([])` are accepted, but their `repr` raises `IndexError` (C124_empty_violated). A `TableMedium`, `Bicubic` or `RayVector` with more than 1000 elements prints `...`, which `eval` cannot turn into floats (C124_long_violated).
64. `Sphere.sag` (src/sphere.cpp L15-19) computes `R * (1 - sqrt(1 - r^2/R^2))`, which loses all digits near the vertex: in double precision `Sphere(1).sag(2^-30, 0)` is 0 although the sphere is 2^-61 high there, while `Quadric(1, 0).sag` is right to fifteen digits (`C125_sphere_violated`). Rays are not affected (`timeToIntersect` does not use `sag`), sums of surfaces are.
65. `CompoundOptic.trace(rv, path=...)` (batoid/optic.py L1055-1078) looks names up one at a time while it traces: a path with a misspelt name raises `ValueError` after the rays have been changed by all surfaces before it, and calling again with the corrected path traces them twice. Proved: `C127_path_violated`. Looking up all names first would avoid it (`C127_path_known`).
66. All in-place functions of batoid/trace.py set `rv.coordSys` in a statement after the C++ call. Python raises a pending `KeyboardInterrupt` between the two (a long trace is exactly when users press Ctrl-C), which leaves the numbers of the new system with the label of the old one, and `coordSys` is used by all later transforms. Proved at every interface: `C127_interrupt_violated`; for `toCoordSys`: `C127_relabel_violated`.
67. The four kernels give the coating different angles: `intersect` and `reflect` (src/batoid.cpp L254-260, L355-365) the cosine with the sign of the side the ray comes from, `refract` and `rSplit` (L465-478, L612-625) always minus its absolute value. `SimpleCoating` ignores it; any coating that uses it gets negative cosines or inconsistent ones. Proved: `C128_angle_split`, `C128_angle_single`, `C128_angle_violated`.
68. `lambertToDirCos` (`batoid/utils.py`) computes the sine of the polar angle as `sqrt(1 - gamma**2)` with `gamma = (2 - rho**2)/2`: in double precision every field angle below about 1e-8 rad (2 mas) becomes the axis, and at 1e-6 rad only four digits are left (`C136_lambert_violated`).
69. `dirCosToPostel` (`batoid/utils.py`) takes the angle as `arccos(-gamma)`: in double precision directions within about 1e-8 rad of the axis are reported as the centre of the field, although alpha and beta still hold the angle to sixteen digits (`C136_postel_violated`). Returning (alpha, beta) instead of (0, 0) in the branch `gamma == -1` would do: all other directions up to 43 degrees come back right to 40 roundings (`C136_postel_back`). `dirCosToStereographic` does the same (`C136_stereographic_violated`).
