{"id": "C01", "title": "Local/global conversion is a round trip", "statement": "For a CoordSys reached from the default CoordSys by any sequence of shiftGlobal, shiftLocal, rotateGlobal and rotateLocal calls with proper rotation matrices, toLocal(toGlobal(v)) == v and toGlobal(toLocal(v)) == v for every vector v.", "quantifier": "all vectors, all finite histories of shift/rotate calls with arbitrary shifts, centres, reference systems and orthogonal matrices", "why_tests_cant": "Unit tests sample a handful of numeric values; the claim ranges over a continuum and every history of operations.", "anchors": ["batoid/coordSys.py: CoordSys.toGlobal, toLocal, shiftGlobal, shiftLocal, rotateGlobal, rotateLocal"]}
{"id": "C02", "title": "Frames stay rotations", "statement": "Every CoordSys produced from the default one by shifts and rotations by rotation matrices (in particular RotX, RotY, RotZ of any angle) has an orthonormal rot matrix of determinant one, so its xhat, yhat, zhat form a right-handed orthonormal basis.", "quantifier": "all angles, all rotation matrices, all histories of operations", "why_tests_cant": "An invariant over unboundedly many operation histories.", "anchors": ["batoid/coordSys.py: RotX, RotY, RotZ, CoordSys.xhat, yhat, zhat, rotateGlobal, rotateLocal"]}
{"id": "C03", "title": "Shifts compose and mean what they say", "statement": "shiftGlobal(a) then shiftGlobal(b) equals shiftGlobal(a+b) and moves every attached point by exactly the shift; shiftLocal(d) moves the origin to the point that previously had local coordinates d and leaves the axes alone; opposite shifts cancel.", "quantifier": "all frames, all shift vectors", "why_tests_cant": "Unit tests sample a handful of numeric values; the claim ranges over a continuum.", "anchors": ["batoid/coordSys.py: CoordSys.shiftGlobal, shiftLocal"]}
{"id": "C04", "title": "Rotations keep the centre fixed and move everything rigidly", "statement": "rotateGlobal(R, c, cs) moves every point attached to the frame by p -> R(p-g)+g with g the global position of c in cs; rotateLocal(R, c, cs) does the same with R expressed in the frame's own axes; the centre keeps its local coordinates, distances are preserved, rotating by R then by R^T restores the frame, and for the default centre rotateLocal leaves the origin in place.", "quantifier": "all frames, rotation matrices, centres and centre reference systems", "why_tests_cant": "Unit tests sample a handful of numeric values; the claim ranges over a continuum of frames, centres and matrices.", "anchors": ["batoid/coordSys.py: CoordSys.rotateGlobal, rotateLocal"]}
{"id": "C05", "title": "Coordinate transforms are inverse to each other and path independent", "statement": "For orthogonal frames A, B, C: CoordTransform(A,B).applyForwardArray equals B.toLocal after A.toGlobal; applyReverseArray is its inverse on both sides; and A->B->C gives the same coordinates as A->C directly.", "quantifier": "all orthogonal frames A, B, C and all points", "why_tests_cant": "Unit tests sample a handful of numeric values; the claim ranges over a continuum.", "anchors": ["batoid/coordTransform.py: CoordTransform.__init__, applyForwardArray, applyReverseArray", "src/batoid.cpp: applyForwardTransform, applyReverseTransform, applyForwardTransformArrays, applyReverseTransformArrays"]}
{"id": "C06", "title": "Coordinate transforms are isometries that touch nothing else", "statement": "Transforming rays between orthogonal frames preserves distances between ray positions, speeds and angles between velocities, and leaves time, wavelength, flux and both flags unchanged; arrays and ray transforms agree on positions.", "quantifier": "all orthogonal frames and all pairs of rays", "why_tests_cant": "Unit tests sample a handful of numeric values; the claim ranges over a continuum.", "anchors": ["src/batoid.cpp: applyForwardTransform, applyReverseTransform", "batoid/trace.py: applyForwardTransform"]}
{"id": "C07", "title": "toCoordSys does not move the physical rays", "statement": "After rv.toCoordSys(cs), applied any number of times with any intermediate frames, every ray's global position and global velocity are what they were, and rv.coordSys is the last frame requested.", "quantifier": "all ray vectors, all finite sequences of orthogonal frames", "why_tests_cant": "Quantifies over unbounded sequences of frame changes.", "anchors": ["batoid/rayVector.py: RayVector.toCoordSys", "batoid/trace.py: applyForwardTransform"]}
{"id": "C08", "title": "Law of reflection", "statement": "Reflecting a live ray that meets the surface leaves its speed unchanged, keeps the component tangent to the surface, negates the normal component, and reflecting the outgoing direction again on the same normal restores the incoming one.", "quantifier": "all rays, all unit normals, all surfaces and frames", "why_tests_cant": "Unit tests sample a handful of numeric values; the claim ranges over a continuum of directions and normals.", "anchors": ["src/batoid.cpp: reflect"]}
{"id": "C09", "title": "Snell's law and total internal reflection", "statement": "Refracting a live ray from index n1 (the reciprocal of its speed) to n2 either produces a direction satisfying n2*(refracted direction x normal) = n1*(incident direction x normal), crossing the surface to the same side as the incident ray, or, exactly when (n1/n2)^2 sin^2 > 1, marks the ray failed and vignetted.", "quantifier": "all incidence directions, normals of either sign, indices n1,n2 > 0", "why_tests_cant": "Unit tests sample a handful of numeric values; the claim ranges over a continuum; the critical angle boundary cannot be sampled.", "anchors": ["src/batoid.cpp: refract"]}
{"id": "C10", "title": "Refracted speed is 1/n2 and refraction is reversible", "statement": "A successfully refracted ray has speed exactly 1/n2 for its wavelength, and sending the time-reversed ray back through the same interface from n2 to n1 restores the time-reversed incident velocity; with equal indices refraction changes nothing.", "quantifier": "all directions, normals, indices and wavelengths", "why_tests_cant": "Unit tests sample a handful of numeric values; the claim ranges over a continuum.", "anchors": ["src/batoid.cpp: refract", "batoid/optic.py: RefractiveInterface.interact"]}
{"id": "C11", "title": "Intersection moves a ray along its own line with consistent time", "statement": "After intersect/reflect/refract/rSplit/refractScreen a successful ray's new position is old position + velocity * (new time - old time) in the destination frame (up to the screen delay for refractScreen), and wavelength is unchanged.", "quantifier": "all rays, surfaces, frames", "why_tests_cant": "Unit tests sample a handful of numeric values; the claim ranges over a continuum.", "anchors": ["src/batoid.cpp: intersect, reflect, refract, rSplit, refractScreen"]}
{"id": "C12", "title": "Failed rays are never touched and flags only go up", "statement": "Once a ray is failed no surface operation (intersect, reflect, refract, rSplit, refractScreen), under any frame, surface, medium or coating, changes its stored position, velocity, time, flux, wavelength or flags; and no operation at all ever clears a failed or vignetted flag.", "quantifier": "all rays, all finite sequences of operations with arbitrary arguments, any floating point arithmetic", "why_tests_cant": "A safety invariant over unbounded operation histories.", "anchors": ["src/batoid.cpp: intersect, reflect, refract, rSplit, refractScreen, obscure"]}
{"id": "C13", "title": "A ray that fails is also vignetted", "statement": "If every failed ray of a RayVector is vignetted before an operation then the same holds afterwards, so downstream code that filters on vignetted alone also drops failures.", "quantifier": "all finite sequences of ray operations from any ray vector satisfying it", "why_tests_cant": "Invariant over histories.", "anchors": ["src/batoid.cpp: intersect, reflect, refract, rSplit, refractScreen, obscure"]}
{"id": "C14", "title": "Ray data always refer to rv.coordSys", "statement": "After an operation with a destination frame, the stored coordinates of every ray, including failed ones, describe the same physical place in rv.coordSys as before the move.", "quantifier": "all rays (failed or not), all frames", "why_tests_cant": "Requires comparing physical positions for every frame pair and both flag states.", "anchors": ["batoid/trace.py: intersect, reflect, refract", "src/batoid.cpp: intersect, reflect, refract"]}
{"id": "C15", "title": "rSplit is reflect plus refract with the coating's flux split", "statement": "For a live ray that meets the surface, one output of rSplit has position, time and velocity of reflect and flux scaled by the reflect coefficient, the other those of refract with flux scaled by the transmit coefficient; a ray missing the surface fails in both; with R+T=1 the fluxes add up to the incoming flux.", "quantifier": "all rays, surfaces, frames, media and coatings", "why_tests_cant": "Unit tests sample a handful of numeric values; the claim ranges over a continuum and joint behaviour of three kernels.", "anchors": ["src/batoid.cpp: rSplit, reflect, refract", "batoid/trace.py: rSplit"]}
{"id": "C16", "title": "Batches equal single rays under every thread schedule", "statement": "Tracing n rays at once gives for each ray exactly what tracing it alone gives, independent of order, thread count and interleaving.", "quantifier": "all batch sizes, all interleavings of the per-ray work at any step granularity, any floating point arithmetic", "why_tests_cant": "Tests see one schedule per run.", "anchors": ["src/batoid.cpp: omp parallel for loops in every kernel", "batoid/global_vars.py: _batoid_max_threads"]}
{"id": "C17", "title": "Obscuring only sets vignetting by position", "statement": "obscure(rv) sets vignetted exactly on rays that already were or whose local (x,y) lies in the obscuration and changes nothing else; obscuring twice equals once and the order of two obscurations does not matter.", "quantifier": "all obscuration shapes, all rays", "why_tests_cant": "Unit tests sample a handful of numeric values; the claim ranges over a continuum.", "anchors": ["src/batoid.cpp: obscure", "batoid/obscuration.py: Obscuration.obscure"]}
{"id": "C18", "title": "Tracing one interface is interact then obscure in the interface frame", "statement": "Interface.trace leaves rv in the interface's coordinate system, applies the kind's physics (mirror reflects, refractive interface refracts into outMedium forward and inMedium reversed, detector and baffle pass rays through unchanged in direction), and then vignettes by the obscuration evaluated at the intersection point.", "quantifier": "all interface kinds, rays, directions", "why_tests_cant": "Combines several kernels for every configuration.", "anchors": ["batoid/optic.py: Interface.trace, RefractiveInterface.interact, Mirror.interact, Detector.interact, Baffle.interact"]}
{"id": "C19", "title": "An OPD screen adds its sag to the path and bends by its gradient", "statement": "refractScreen keeps the ray's speed, adds exactly screen.sag(x,y) to its time, changes the tangential direction cosines by the screen gradient with a sign fixed by the side of incidence, keeps the side of propagation, and does nothing but move the ray to the surface when the screen is identically zero.", "quantifier": "all rays, surfaces with unit normal, screens for which the bent direction exists", "why_tests_cant": "Unit tests sample a handful of numeric values; the claim ranges over a continuum.", "anchors": ["src/batoid.cpp: refractScreen", "batoid/optic.py: OPDScreen.interact"]}
{"id": "C20", "title": "A reported intersection lies on the surface", "statement": "Whenever a Plane, Tilted, Paraboloid, Sphere or Quadric intersection succeeds with a finite time, the ray point at that time satisfies the surface equation.", "quantifier": "all rays and all nondegenerate surface parameters", "why_tests_cant": "Unit tests sample a handful of numeric values; the claim ranges over a continuum of rays including tangent and degenerate ones.", "anchors": ["src/plane.cpp, src/tilted.cpp, src/paraboloid.cpp, src/sphere.cpp, src/quadric.cpp: timeToIntersect"]}
{"id": "C21", "title": "A miss is reported only when there is no intersection", "statement": "If the line of a ray meets a Plane, Tilted, Paraboloid or Sphere then intersection succeeds; if the solver reports failure there is no real intersection time at all.", "quantifier": "all rays and all nondegenerate surface parameters", "why_tests_cant": "A universal statement about absence of solutions.", "anchors": ["src/plane.cpp, src/tilted.cpp, src/paraboloid.cpp, src/sphere.cpp: timeToIntersect"]}
{"id": "C22", "title": "Normals are unit, upward and perpendicular to the surface", "statement": "Surface.normal(x,y) has length one, positive z component, and is perpendicular to the surface: it is parallel to (-dz/dx, -dz/dy, 1) where the derivatives are those of sag.", "quantifier": "all surface types, all points of the domain", "why_tests_cant": "Relates two functions through a derivative at every point.", "anchors": ["src/plane.cpp, src/tilted.cpp, src/paraboloid.cpp, src/sphere.cpp, src/quadric.cpp, src/asphere.cpp, src/polynomialSurface.cpp, src/bicubic.cpp, src/sum.cpp: sag, normal"]}
{"id": "C23", "title": "The generic solver reports success only with a small residual", "statement": "If the Newton solver succeeds then |surface.sag(x,y) - z| < 1e-12 at the returned ray point; it is exact in one step for any planar sag, and it never claims success with NaN.", "quantifier": "all surfaces, rays, starting guesses and iteration counts, any floating point arithmetic for the residual part", "why_tests_cant": "Quantifies over arbitrary surfaces and iteration counts.", "anchors": ["src/surface.cpp: Surface::timeToIntersect"]}
{"id": "C24", "title": "Asphere sag and slope", "statement": "Asphere(R,k,coefs,imin) has sag equal to the conic sag plus sum over i of coefs[i] * r^(2*(i+imin)) exactly as documented (imin=2: coefs[0] multiplies r^4), its slope is the derivative of that sum, and with all coefficients zero it behaves as the Quadric.", "quantifier": "all coefficient lists of any length, all radii", "why_tests_cant": "Unbounded coefficient lists.", "anchors": ["src/asphere.cpp: sag, normal, dzdr", "batoid/surface.py: Asphere.__init__"]}
{"id": "C25", "title": "Polynomial surfaces evaluate their polynomial and its true gradient", "statement": "A PolynomialSurface/Zernike with coefficient array a[i][j] has sag sum a_ij (x-x0)^i (y-y0)^j, its normal is built from the partial derivatives of that polynomial, and the derivative arrays of sizes one smaller lose no term.", "quantifier": "all coefficient arrays of any size, all points", "why_tests_cant": "Unbounded polynomial degree.", "anchors": ["src/polynomialSurface.cpp: horner2d, sag, normal", "batoid/surface.py: Zernike.__init__"]}
{"id": "C26", "title": "Bicubic tables interpolate their data and are smooth", "statement": "A Bicubic surface reproduces the tabulated values, slopes and cross derivative at every grid node, is continuous with continuous first derivative across cell boundaries, and its reported gradient is the derivative of its sag; outside the grid it yields NaN or zero according to nanpolicy.", "quantifier": "all grid sizes, all table contents, all points inside and outside", "why_tests_cant": "Continuity across every cell edge and every table.", "anchors": ["src/table.cpp: Table::eval, Table::grad, oneDSpline, oneDGrad", "src/bicubic.cpp: sag, normal"]}
{"id": "C27", "title": "Default Bicubic derivatives reproduce planes", "statement": "When derivatives are not supplied, central/one-sided differences are used such that data sampled from any affine function give exactly that affine function inside the grid.", "quantifier": "all affine functions, grid sizes >= 2 and spacings", "why_tests_cant": "Unit tests sample a handful of numeric values; the claim ranges over a continuum.", "anchors": ["batoid/surface.py: Bicubic.__init__", "src/table.cpp"]}
{"id": "C28", "title": "Sum of surfaces adds sags and slopes", "statement": "Sum([s1..sn]).sag is the sum of the sags, its normal is the normal of the summed slopes, grouping and order do not matter, and the sum of one surface is that surface for intersection soundness.", "quantifier": "all finite lists of surfaces", "why_tests_cant": "Unbounded lists.", "anchors": ["src/sum.cpp: sag, normal, timeToIntersect"]}
{"id": "C29", "title": "Quadric specialises to sphere and plane", "statement": "A Quadric with conic 0 has the sag and normal of the Sphere with the same R; with conic -1 the sag and normal of the Paraboloid; sag satisfies r^2 = 2Rz - (1+k)z^2 everywhere it is real.", "quantifier": "all R != 0, conic constants and points in the domain", "why_tests_cant": "Unit tests sample a handful of numeric values; the claim ranges over a continuum.", "anchors": ["src/quadric.cpp: sag, normal", "src/sphere.cpp", "src/paraboloid.cpp"]}
{"id": "C30", "title": "No surface reports success with a NaN time", "statement": "timeToIntersect never returns success with a non-finite time for finite rays, so a live ray never silently acquires NaN coordinates.", "quantifier": "all surfaces and finite rays", "why_tests_cant": "Boundary inputs (rays starting on the surface, conic = -1) are measure zero.", "anchors": ["src/quadric.cpp: timeToIntersect", "src/sphere.cpp", "src/paraboloid.cpp", "src/tilted.cpp: normal"]}
{"id": "C31", "title": "Tabulated index interpolates within its table", "statement": "TableMedium.getN returns the tabulated index at every tabulated wavelength, interpolates linearly between neighbours, stays within the neighbouring values, and never reads outside the table.", "quantifier": "all strictly increasing tables of length >= 2, all wavelengths in range", "why_tests_cant": "Unbounded tables and boundary wavelength.", "anchors": ["src/medium.cpp: TableMedium::getN"]}
{"id": "C32", "title": "Dispersion formulas are the published ones", "statement": "SellmeierMedium, SumitaMedium and Air return exactly the documented formulas with wavelength converted from metres to microns; Air in vacuum (zero pressure and zero water vapour) has index 1.", "quantifier": "all coefficients and positive wavelengths", "why_tests_cant": "Unit tests sample a handful of numeric values; the claim ranges over a continuum.", "anchors": ["src/medium.cpp: SellmeierMedium::getN, SumitaMedium::getN, Air::Air, Air::getN"]}
{"id": "C33", "title": "Obscurations form a Boolean algebra", "statement": "Union, intersection and negation of obscurations are pointwise or, and, not; hence De Morgan laws, double negation, and independence of the order of items, however deeply nested.", "quantifier": "all nested obscuration expressions, all points", "why_tests_cant": "Unbounded nesting.", "anchors": ["src/obscuration.cpp: ObscNegation::contains, ObscUnion::contains, ObscIntersection::contains", "batoid/obscuration.py: ObscUnion, ObscIntersection, ObscNegation"]}
{"id": "C34", "title": "Circles and annuli tile the plane", "statement": "An annulus contains exactly the points of the outer circle not in the inner circle; circle, annulus and exterior partition the plane; containment is invariant under rotation about the centre and under common translation.", "quantifier": "all radii, centres and points", "why_tests_cant": "Exact boundary behaviour for all reals.", "anchors": ["src/obscuration.cpp: ObscCircle::contains, ObscAnnulus::contains"]}
{"id": "C35", "title": "Polygon containment depends only on the polygon", "statement": "ObscPolygon containment does not depend on the starting vertex, on orientation, or on translating polygon and point together, and for a convex polygon agrees with the half-plane test away from its boundary.", "quantifier": "all vertex lists of any length, all points", "why_tests_cant": "Unbounded polygons.", "anchors": ["src/obscuration.cpp: ObscPolygon::contains"]}
{"id": "C36", "title": "Grid containment equals pointwise containment", "statement": "ObscPolygon.containsGrid(xs, ys)[j,i] equals contains(xs[i], ys[j]) for every grid.", "quantifier": "all polygons and grids", "why_tests_cant": "Unbounded grids.", "anchors": ["src/obscuration.cpp: ObscPolygon::containsGrid, contains"]}
{"id": "C37", "title": "Rectangles and rays are rotated strips", "statement": "ObscRectangle and ObscRay contain exactly the points whose coordinates in the frame rotated by theta about the centre satisfy |x'|<width/2,|y'|<height/2, respectively x'>0,|y'|<width/2; rotating shape and point together changes nothing.", "quantifier": "all sizes, angles, centres and points", "why_tests_cant": "Unit tests sample a handful of numeric values; the claim ranges over a continuum.", "anchors": ["src/obscuration.cpp: ObscRectangle::contains, ObscRay::contains"]}
{"id": "C38", "title": "Propagation in free space", "statement": "positionAtTime and propagate move each ray along its line at its velocity; propagate(t) twice to different times equals propagating to the last, propagation is invertible, keeps velocity and flags, and sets time to the target.", "quantifier": "all rays, all sequences of target times", "why_tests_cant": "Histories and reals.", "anchors": ["src/rayVector.cpp: RayVector::positionAtTime, propagateInPlace", "batoid/rayVector.py: propagate, positionAtTime"]}
{"id": "C39", "title": "sumAmplitude counts live rays once and linearly", "statement": "sumAmplitude(r,t) equals the flux weighted sum of per ray amplitudes over non-failed (and, by default, non-vignetted) rays, is independent of ray order, additive over concatenation, and unaffected by failed rays even if their data are NaN.", "quantifier": "all ray vectors of any length, any order", "why_tests_cant": "Unbounded sums and NaN payloads.", "anchors": ["src/rayVector.cpp: RayVector::sumAmplitude, amplitude", "batoid/rayVector.py: sumAmplitude"]}
{"id": "C40", "title": "Phase is constant on wavefronts and advances with time", "statement": "phase(r,t) vanishes on the ray's own wavefront (at its position and time), is constant on planes perpendicular to the velocity, moving along the ray by propagation leaves the phase at any fixed (r,t) unchanged, and one period in time changes it by 2 pi.", "quantifier": "all rays, positions, times", "why_tests_cant": "Unit tests sample a handful of numeric values; the claim ranges over a continuum.", "anchors": ["src/rayVector.cpp: RayVector::phase"]}
{"id": "C41", "title": "Indexing selects and concatenation joins", "statement": "rv[i], rv[a:b], rv[mask] select exactly the corresponding rays in order with the same coordinate system, negative indices count from the end, and concatenateRayVectors followed by slicing recovers the parts with their physical positions.", "quantifier": "all lengths, indices, slices, masks and lists of ray vectors", "why_tests_cant": "All sizes and all integer indices.", "anchors": ["batoid/rayVector.py: RayVector.__getitem__, concatenateRayVectors"]}
{"id": "C42", "title": "asGrid lays out the documented grid", "statement": "asGrid produces nx*ny rays whose intersections with the stop are the documented grid: spacing dx, extent lx, the chief ray through the origin at index (ny//2, nx//2), for every legal pair of (nx,dx,lx); exactly two of the three are required.", "quantifier": "all nx, ny, dx, lx and parity combinations", "why_tests_cant": "All integer sizes.", "anchors": ["batoid/rayVector.py: RayVector.asGrid"]}
{"id": "C43", "title": "Constructors make a plane wave through the requested stop points", "statement": "Rays from asGrid/asPolar/asSpokes/fromStop share one direction and speed 1/n, start on one plane perpendicular to it at distance backDist, at equal time, and propagating them meets the stop surface at the requested (x,y).", "quantifier": "all directions not parallel to the degenerate axis, all stop points, indices, back distances", "why_tests_cant": "Unit tests sample a handful of numeric values; the claim ranges over a continuum.", "anchors": ["batoid/rayVector.py: _finish, fromStop, fromFieldAngles", "src/batoid.cpp: finishParallel"]}
{"id": "C44", "title": "Vector spacings mean lattice vectors", "statement": "When dx (dy) or lx (ly) is given as a vector, grid point (i,j) sits at i*dx + j*dy, with dy defaulting to dx rotated by 90 degrees, as documented.", "quantifier": "all lattice vectors and indices", "why_tests_cant": "A continuum of vectors.", "anchors": ["batoid/rayVector.py: RayVector.asGrid"]}
{"id": "C45", "title": "Integer spokes mean that many spokes", "statement": "asSpokes(spokes=n) with integer n yields n equally spaced azimuths whatever form the rings argument takes.", "quantifier": "all n and all ring specifications", "why_tests_cant": "All argument combinations.", "anchors": ["batoid/rayVector.py: RayVector.asSpokes"]}
{"id": "C46", "title": "Constructors do not modify or alias their arguments", "statement": "Arrays passed to RayVector constructors keep their values, and later in-place ray operations do not show through them.", "quantifier": "all argument shapes and subsequent operations", "why_tests_cant": "Aliasing across histories.", "anchors": ["batoid/rayVector.py: RayVector.__init__, fromStop, _directInit"]}
{"id": "C47", "title": "Equal ray vectors are physically equal", "statement": "If rv1 == rv2 then the two describe the same rays in space, and == is an equivalence relation on ray vectors without NaN.", "quantifier": "all pairs of ray vectors", "why_tests_cant": "All pairs of frames.", "anchors": ["batoid/rayVector.py: RayVector.__eq__", "src/rayVector.cpp: RayVector::operator=="]}
{"id": "C48", "title": "Name lookup finds the named optic", "statement": "optic['a.b.c'] and unambiguous suffixes/shortcuts return the item whose path of names it is, at any nesting depth; ambiguous short names raise instead of returning one of several.", "quantifier": "all optic trees and names", "why_tests_cant": "Unbounded trees.", "anchors": ["batoid/optic.py: CompoundOptic.itemDict, _names, __getitem__"]}
{"id": "C49", "title": "with*Optic changes exactly the named subtree, rigidly", "statement": "withGloballyShiftedOptic/withLocallyShiftedOptic/withLocallyRotatedOptic return a tree of the same shape in which precisely the named item and its descendants have moved by one common rigid motion and everything else (surfaces, media, obscurations, other frames) is unchanged.", "quantifier": "all trees, names, shifts and rotations", "why_tests_cant": "Unbounded trees.", "anchors": ["batoid/optic.py: CompoundOptic.withGloballyShiftedOptic, withLocallyShiftedOptic, withLocallyRotatedOptic, withGlobalShift, withGlobalRotation, withLocalRotation"]}
{"id": "C50", "title": "Perturbing by name never picks the wrong sibling", "statement": "The optic perturbed by with*Optic(name) is the one returned by optic[name], also when one item's name is a prefix of another's.", "quantifier": "all trees and names including prefix related ones", "why_tests_cant": "All sets of names.", "anchors": ["batoid/optic.py: CompoundOptic.withGloballyShiftedOptic, withLocallyRotatedOptic, withSurface, withPerturbedSurface"]}
{"id": "C51", "title": "traceFull agrees with trace", "statement": "The last output recorded by traceFull equals the result of trace, each recorded input is the previous output, the input is not modified, and keys follow the order of the items traversed.", "quantifier": "all optic trees and ray vectors", "why_tests_cant": "Unbounded trees.", "anchors": ["batoid/optic.py: CompoundOptic.trace, traceFull, Interface.traceFull"]}
{"id": "C52", "title": "Reverse tracing visits interfaces in reverse order", "statement": "Tracing in reverse applies exactly the interfaces of the forward trace in the opposite order, each with media swapped, at any nesting depth.", "quantifier": "all trees", "why_tests_cant": "Unbounded trees.", "anchors": ["batoid/optic.py: CompoundOptic.trace, Interface.trace"]}
{"id": "C53", "title": "Tracing commutes with rigid motion of everything", "statement": "Moving a telescope and the incoming rays by the same rigid motion moves the outgoing rays by that motion and changes nothing else.", "quantifier": "all trees, rays, rigid motions", "why_tests_cant": "All trees and a continuum of motions.", "anchors": ["batoid/optic.py: withGlobalShift, withGlobalRotation, trace", "batoid/coordTransform.py"]}
{"id": "C54", "title": "traceSplit creates no flux and drops only what it says", "statement": "For coatings with 0<=R, 0<=T, R+T<=1 the total flux of all rays returned by traceSplit never exceeds the input flux, every returned ray has flux at least minFlux and is not vignetted, and the work list loop terminates for every positive minFlux when coatings absorb.", "quantifier": "all compound optics, coatings, rays, minFlux", "why_tests_cant": "Termination and a conservation law over unbounded bounce histories.", "anchors": ["batoid/optic.py: CompoundOptic.traceSplit, Interface.traceSplit"]}
{"id": "C55", "title": "skip means skip", "statement": "An optic with skip set is transparent to trace, traceFull and traceSplit, whether given at construction or by attribute, and survives with* copies.", "quantifier": "all trees and skip assignments", "why_tests_cant": "Unbounded trees.", "anchors": ["batoid/optic.py: Optic.__init__, Interface.trace, CompoundOptic.trace, traceFull, traceSplit"]}
{"id": "C56", "title": "Perturbed copies keep coatings and use the right one", "statement": "with* copies keep forward/reverse coatings, and splitting a ray travelling forward uses the forward coating.", "quantifier": "all interfaces, coatings, operations", "why_tests_cant": "All histories of copies.", "anchors": ["batoid/optic.py: RefractiveInterface.__init__, rSplit, Mirror.__init__, Optic with* methods"]}
{"id": "C57", "title": "Explicit paths follow the named sequence", "statement": "trace(rv, path=[...]) interacts with the listed surfaces in order; the nominal path equals the plain trace, and each turn-around reflects while each pass-through refracts.", "quantifier": "all lists of item names", "why_tests_cant": "Unbounded paths.", "anchors": ["batoid/optic.py: CompoundOptic.trace, traceFull"]}
{"id": "C58", "title": "withSurface, withInsertedOptic, withRemovedOptic edit exactly one place", "statement": "withSurface replaces only the named surface; inserting then removing an optic restores the tree; the other items keep order and content; nested targets are edited too.", "quantifier": "all trees and names", "why_tests_cant": "Unbounded trees.", "anchors": ["batoid/optic.py: CompoundOptic.withSurface, withInsertedOptic, withRemovedOptic"]}
{"id": "C59", "title": "Field projections produce unit vectors and invert", "statement": "For each of the six projections, fieldToDirCos returns a unit vector pointing down (0,0,-1) at the origin, dirCosToField inverts it on the stated domain and vice versa; unknown names raise.", "quantifier": "all field angles in the natural domain, all six projections", "why_tests_cant": "Unit tests sample a handful of numeric values; the claim ranges over a continuum.", "anchors": ["batoid/utils.py: fieldToDirCos, dirCosToField and the six projection pairs"]}
{"id": "C60", "title": "Hexapolar grids have the promised symmetry", "statement": "hexapolar returns radii between inner and outer, each ring with a multiple of kfold equally spaced azimuths (one point for a zero inner radius), ring counts non-increasing inwards, total count equal to array sizes.", "quantifier": "all nrad, naz, kfold, radii", "why_tests_cant": "All integer parameters.", "anchors": ["batoid/utils.py: hexapolar"]}
{"id": "C61", "title": "Lattice coordinates follow the index formula", "statement": "lattice.coords[i1..id] = sum_k (i_k - N_k//2) * primitiveVectors[k] in any dimension; exactly N_k points per axis; the origin is present; mismatched dimensions are rejected.", "quantifier": "all dimensions, sizes and vectors", "why_tests_cant": "Unbounded dimension and size.", "anchors": ["batoid/lattice.py: primitiveToLattice, Lattice.__init__, coords"]}
{"id": "C62", "title": "Parsed coordinate systems are nested local motions", "statement": "parse_coordSys applies its entries in order as local shifts/rotations relative to the parent, unknown keys are ignored, and an optic's frame in a parsed tree equals the composition of its ancestors' local motions.", "quantifier": "all config trees", "why_tests_cant": "Unbounded configs.", "anchors": ["batoid/parse.py: parse_coordSys, parse_optic"]}
{"id": "C63", "title": "Parsed media are inherited consistently", "statement": "In a parsed optic, inMedium defaults to the parent's (vacuum at the top), outMedium defaults to the parent's (the optic's own inMedium at the top or when given as null), a Lens's first item ends in and second starts in its medium unless they say otherwise, and the two items of a parsed lens always agree on the medium between them.", "quantifier": "all configs", "why_tests_cant": "Unbounded configs.", "anchors": ["batoid/parse.py: parse_optic, parse_medium"]}
{"id": "C64", "title": "Host and device copies never diverge silently", "statement": "In any interleaving of host accesses, device kernels and copies, every read through the synchronising accessors sees the last write.", "quantifier": "all finite sequences of sync and write operations", "why_tests_cant": "All histories.", "anchors": ["src/dualView.cpp: syncToHost, syncToDevice", "src/rayVector.cpp", "src/batoid.cpp: rSplit"]}
{"id": "C65", "title": "Closest approach and the exit pupil position", "statement": "The closest approach helper returns the point of the first line that is nearest to the second line, and raises for parallel lines. exitPupilPos is the mean over the four off-axis chief rays of those points for the optic axis; when the chief rays all cross the axis at one point it returns that point.", "quantifier": "all pairs of lines; all systems whose four chief rays are not parallel to the axis", "why_tests_cant": "A minimum over a continuum of points, for every system.", "anchors": ["batoid/analysis.py: _closestApproach, exitPupilPos"]}
{"id": "C66", "title": "Reciprocal lattice vectors are dual", "statement": "The lattice vectors used for FFT PSFs satisfy b_i . a_j = 2 pi/N delta_ij.", "quantifier": "all nondegenerate pairs of vectors", "why_tests_cant": "Unit tests sample a handful of numeric values; the claim ranges over a continuum.", "anchors": ["batoid/analysis.py: _reciprocalLatticeVectors"]}
{"id": "C67", "title": "FFT padding window selects exactly nx samples", "statement": "fftPSF embeds the nx by nx pupil amplitude centrally in the padded array for every nx and pad factor.", "quantifier": "all nx and pad factors", "why_tests_cant": "All integers.", "anchors": ["batoid/analysis.py: fftPSF"]}
{"id": "C68", "title": "Equal objects hash equally", "statement": "For coordinate systems, media, coatings, obscurations, surfaces and interfaces, a == b implies hash(a) == hash(b).", "quantifier": "all pairs of objects", "why_tests_cant": "All pairs.", "anchors": ["batoid/*.py: __eq__, __hash__"]}
{"id": "C69", "title": "Flux never grows and never mixes", "statement": "Through any sequence of trace operations with coatings 0<=R,T<=1 a ray's flux stays between 0 and its initial value, and operations without coatings leave flux exactly unchanged.", "quantifier": "all finite sequences of operations, trees and rays", "why_tests_cant": "Histories.", "anchors": ["src/batoid.cpp: intersect, reflect, refract, rSplit", "batoid/optic.py: trace"]}
{"id": "C70", "title": "Cached lookups never go stale", "statement": "After any sequence of lookups and with* calls, lookups on the resulting optic see its current items, and cached radii agree with the current obscuration.", "quantifier": "all histories of lookups and modifications", "why_tests_cant": "Histories of cached state.", "anchors": ["batoid/optic.py: Optic.__init__, CompoundOptic.itemDict, _names, Interface.R_outer, R_inner, clearObscuration"]}
{"id": "C71", "title": "Perturbed copies are independent objects", "statement": "Mutating (clearObscuration) an optic obtained by a with* method never changes the optic it was obtained from, and vice versa.", "quantifier": "all trees and histories of with* and clearObscuration", "why_tests_cant": "Aliasing across histories.", "anchors": ["batoid/optic.py: CompoundOptic.with*, clearObscuration"]}
{"id": "C72", "title": "Optical path length is additive and reference independent", "statement": "Through any number of interfaces, a traced ray's time equals its initial time plus the sum of geometric segment lengths times refractive index, and the OPD between two rays does not depend on the choice of time origin.", "quantifier": "all sequences of interfaces", "why_tests_cant": "Unbounded sequences.", "anchors": ["src/batoid.cpp: intersect, refract, reflect", "batoid/analysis.py: wavefront"]}
{"id": "C73", "title": "clearObscuration affects vignetting only", "statement": "optic.clearObscuration(unless) removes the obscuration of every interface not named in unless, at any depth, and changes nothing else; tracing the cleared optic gives each ray the same position, velocity, time, flux and failure as before, and with everything cleared a ray becomes vignetted only by failing.", "quantifier": "all trees, names, directions and rays", "why_tests_cant": "All trees and all rays.", "anchors": ["batoid/optic.py: Interface.clearObscuration, CompoundOptic.clearObscuration"]}
{"id": "C74", "title": "The chief ray of the analysis functions is the ray through the middle of the stop", "statement": "For every nx, even or odd, the ray that the analysis functions pick as chief ray was launched towards the vertex of the stop surface, and the reference point is where tracing that ray alone puts it.", "quantifier": "all nx >= 1, stops, frames, field angles and systems", "why_tests_cant": "Two index formulas for all grid sizes, any system.", "anchors": ["batoid/analysis.py: wavefront, spot, huygensPSF (cridx)", "batoid/rayVector.py: asGrid"]}
{"id": "C75", "title": "wavefront reports the reference sphere path difference", "statement": "wavefront() gives for every unvignetted ray the difference, in waves, between the reference time and the time the ray is on the sphere of the given radius around the reference point; vignetted rays are masked; the value is attached to the pupil point of its ray; when all rays come to the reference point at the same time the wavefront is zero.", "quantifier": "all systems, nx > 2, field angles, sphere radii, both references", "why_tests_cant": "Tests compare against other programs on a handful of telescopes.", "anchors": ["batoid/analysis.py: wavefront"]}
{"id": "C76", "title": "Spot diagrams are landing points relative to the reference", "statement": "spot returns one (x,y) per unvignetted ray, in order: the ray's place in the frame of the last surface minus the chief ray's place, the mean place or nothing, depending on `reference`; around the mean the points sum to zero and an unvignetted chief ray is at the origin; a paraboloid on its axis gives a single point.", "quantifier": "all systems, field angles, projections, numbers of rays, references and last frames", "why_tests_cant": "tests look at a few telescopes with one grid and compare rounded statistics", "anchors": ["batoid/analysis.py:389-411"]}
{"id": "C77", "title": "The Huygens PSF is the coherent sum of the rays", "statement": "Each value of huygensPSF is the absolute square of the flux weighted sum of the plane waves of all rays that are neither failed nor vignetted, at the lattice point around the reference point; it does not depend on the time at which the waves are added; it is at most the square of the total flux, and equals it where all rays arrive at the same time, as in the focus of a paraboloid.", "quantifier": "all systems, ray grids, lattices given by numbers or vectors, output sizes and references", "why_tests_cant": "tests compare two implementations within a tolerance on few systems", "anchors": ["batoid/analysis.py:178-303", "batoid/rayVector.py", "src/batoid.cpp"]}
{"id": "C78", "title": "Conic mirrors image their foci", "statement": "A mirror with conic constant -e^2 sends every ray from one focus through the other and all arrive at one time; a sphere returns rays to its centre, a paraboloid turns rays from its focus into rays along its axis and back, and a paraboloid with a conic sharing a focus (Cassegrain, Gregorian) sends axis-parallel rays through the second focus at one time.", "quantifier": "all radii, eccentricities, frames, rays, media speeds and times, as long as the ray meets the used sheet of the conic", "why_tests_cant": "a test checks few rays of few mirrors to rounding error", "anchors": ["src/quadric.cpp", "src/paraboloid.cpp", "src/sphere.cpp", "src/batoid.cpp:321-377", "batoid/optic.py"]}
{"id": "C79", "title": "Tracing keeps wavelength and flux", "statement": "optic.trace returns as many rays as it got, in order, each with the wavelength and flux it had; coatings act only in rSplit.", "quantifier": "all trees of optics, directions, surfaces, ray vectors and any arithmetic", "why_tests_cant": "tests cannot try every tree", "anchors": ["batoid/optic.py", "batoid/trace.py:47-153", "src/batoid.cpp:223-505"]}
{"id": "C80", "title": "Equal objects behave equally", "statement": "If a == b for two media, coatings, transforms, surfaces or obscurations then they give the same index, coefficients, positions, sag/normal/intersection and clipped points; if a == b for two optics they trace every ray vector to the same result.", "quantifier": "all pairs of objects, all rays, wavelengths and points", "why_tests_cant": "tests compare a few pairs of objects and never their behaviour on every input", "anchors": ["batoid/medium.py", "batoid/coating.py", "batoid/surface.py", "batoid/obscuration.py", "batoid/optic.py:548-558", "batoid/optic.py:1333-1340"]}
{"id": "C81", "title": "Equality of objects is an equivalence relation", "statement": "For objects without NaN a == a; a == b and b == a give the same answer (or raise the same exception); a == b and b == c imply a == c.", "quantifier": "all media, surfaces, obscurations and optics", "why_tests_cant": "all triples of nested objects", "anchors": ["batoid/*.py: __eq__"]}
{"id": "C82", "title": "The order of the arguments of ObscUnion and ObscIntersection does not matter", "statement": "ObscUnion(a, b, ...) and ObscIntersection(a, b, ...) compare and hash equal and clip the same points for every order of the arguments, and pickling keeps the order of their items.", "quantifier": "all lists of obscurations and their permutations", "why_tests_cant": "all permutations", "anchors": ["batoid/obscuration.py:371-404", "batoid/obscuration.py:453-486"]}
{"id": "C83", "title": "A parsed tree mirrors its configuration", "statement": "The tree built by parse_optic has one optic per dictionary, in the same order, each with the name, class, surface and obscuration that its own dictionary asks for.", "quantifier": "all config trees, all behaviours of the object constructors", "why_tests_cant": "Unbounded nesting; keys silently dropped by one branch are invisible unless that branch is exercised.", "anchors": ["batoid/parse.py: parse_optic L89-215"]}
{"id": "C84", "title": "Clear apertures are complements of obscurations", "statement": "A configuration of type ClearX yields the complement of what the same configuration with type ObscX yields, fails exactly when that one fails, and unknown types are refused.", "quantifier": "all obscuration configs, all points", "why_tests_cant": "Unbounded nesting of obscurations and every point of the plane.", "anchors": ["batoid/parse.py: parse_obscuration L6-25"]}
{"id": "C85", "title": "Gaussian quadrature spokes integrate exactly", "statement": "The rays of asSpokes with spacing='GQ', k rings and m spokes, pierce the stop surface at points p_i with fluxes f_i such that for every polynomial P in two variables of total degree < 4k and < m, sum f_i P(p_i/outer) is the integral of P over the annulus {inner/outer <= |q| <= 1}.", "quantifier": "all k, m, radii 0 <= inner <= outer, media, frames, directions, polynomials", "why_tests_cant": "Unboundedly many polynomials and ring counts; a test compares a few Zernike terms to a tolerance.", "anchors": ["batoid/rayVector.py: asSpokes L784-806"]}
{"id": "C86", "title": "zernikeGQ gives the Zernike coefficients of the wavefront", "statement": "zernikeGQ(optic, ...)[j], 1 <= j <= jmax, is the mean over the (annular) pupil of Z_j times the wavefront, in waves, relative to the chief ray (or the mean ray): if the wavefront is sum_j a_j Z_j, the result is a. Vignetting does not matter. Entry 0 is 0.", "quantifier": "all systems, field angles, projections, references, annuli, numbers of rings and spokes large enough for the degrees, all coefficients", "why_tests_cant": "A test compares with zernike() on a few telescopes to a tolerance; exactness of the quadrature for every wavefront polynomial is a statement over an infinite family.", "anchors": ["batoid/analysis.py: zernikeGQ L568-704"]}
{"id": "C87", "title": "Zernike fits are least squares fits over the unvignetted rays", "statement": "zernike(...)[1:], and the two lists of zernikeXYAberrations, are the coefficients of the combination of the Zernike polynomials on the pupil that leaves the least sum of squares of the wavefront (of the transverse aberration) at the unvignetted points of the pupil (at all of them with include_vignetted); -f*lambda times zernikeTA(...) is the same for the gradients and both components of the transverse aberration. Entry 0 (and 1 for zernikeTA) is 0. A wavefront that is a combination of the polynomials gives back its coefficients. If the points do not tell the polynomials apart, RuntimeError.", "quantifier": "all systems, field angles, projections, references, jmax, vignetting patterns, families of polynomials", "why_tests_cant": "A test compares with a few telescopes to a tolerance; which rays enter the fit and the exact normalisation matter for every pattern of vignetting.", "anchors": ["batoid/analysis.py: zernike L477-565", "batoid/analysis.py: zernikeTA L720-814", "batoid/analysis.py: zernikeXYAberrations L817-906"]}
{"id": "C88", "title": "doubleZernike gives the double Zernike coefficients of the wavefront", "statement": "doubleZernike(optic, field, ...)[k, j], 1 <= k <= kmax, is the mean over the disk of field angles of radius field of Z_k(theta/field) times the pupil coefficient zernikeGQ(...)[j] at theta. If the wavefront at every field angle is sum_jk a_jk Z_j(u) Z_k(theta), the result is a. Row 0 is 0.", "quantifier": "all systems, field radii, numbers of rings and spokes large enough for the degrees, kmax, jmax, coefficients", "why_tests_cant": "Tests compare with a few telescopes to a tolerance; that the two nested quadratures and normalisations give back every coefficient is a statement over an infinite family of wavefronts.", "anchors": ["batoid/analysis.py: doubleZernike L909-974", "batoid/analysis.py: zernikeGQ L568-704"]}
{"id": "C89", "title": "drdth, dthdr and focalLength are the field derivative of the focal plane position", "statement": "drdth(optic, thx, thy, wl) is the forward difference quotient, with step 1e-5 in each field angle, of the centroid of the unvignetted rays on the last surface; rows are focal plane axes, columns field angles, so a lens-free camera of focal length f with gnomonic angles gives diag(f, +-f); dthdr is its inverse; focalLength is f.", "quantifier": "all systems, field angles, projections, pupils, patterns of vignetting and focal lengths", "why_tests_cant": "Tests compare a few telescopes with a tolerance; which index is the row, and what happens for reversed detectors, is a statement over all systems.", "anchors": ["batoid/analysis.py: drdth L57-134, dthdr L137-176, focalLength L1049-1052"]}
{"id": "C90", "title": "dkdu is the least squares slope of the wave vectors over the launch positions", "statement": "dkdu(optic, ...) are the slopes of the planes fitted by least squares through the x and y components of the wave vectors of the unvignetted rays on the last surface against the x, y at which the rays are launched; if the wave vectors depend affinely on the positions the result is the exact slope: for a paraboloid of radius R and a detector turned by psi it is the mean of -(2 pi n/lambda) 2R/(R^2+rho^2) over the rings of radius rho, weighted by rho^2 and the number of rays, times a rotation by psi.", "quantifier": "all systems, field angles, projections, patterns of vignetting, wavelengths, radii", "why_tests_cant": "A test checks one telescope; the least squares characterisation quantifies over all competing planes and all systems.", "anchors": ["batoid/analysis.py: dkdu L15-54", "batoid/utils.py: bilinear_fit"]}
{"id": "C91", "title": "fftPSF is the sum of the pupil's waves at the points of its lattice", "statement": "fftPSF(optic, thx, thy, wl, nx, pad_factor) returns an array whose element [i, j] is |sum over unvignetted pupil points u of exp(2 pi i W(u) - i k(u).x)|^2 with W the wavefront, k(u) = dkdu u and x the point [j, i] of the returned lattice. No pixel exceeds the square of the number of lit points, the pixels add up to (nx pad_factor)^2 times that number whatever the aberrations, and without aberrations the central pixel has the largest possible value. With pad_factor=2 the lattice is that of huygensPSF without dx.", "quantifier": "all systems, field angles, wavelengths, nx, pad factors, wavefronts, patterns of vignetting", "why_tests_cant": "Tests compare with huygensPSF for a few telescopes with aligned detectors and to a tolerance; the index conventions of shift, padding and reciprocal lattice matter for every pixel, system and orientation of the detector.", "anchors": ["batoid/analysis.py: fftPSF L414-474", "batoid/analysis.py: _reciprocalLatticeVectors L8-12", "batoid/analysis.py: huygensPSF L236-303"]}
{"id": "C92", "title": "getGlobalRays gives the path of the light", "statement": "getGlobalRays(optic.traceFull(rv), start, end, globalSys) returns for every ray its position before the surface start and after every surface up to end, all in globalSys. raylen tells exactly which vertices after the first are not vignetted, and they come first. Consecutive vertices that are drawn are joined along the velocity with which the ray leaves the first of them. start=None and end=None mean the first and last surface; unknown names and an end before the start raise ValueError.", "quantifier": "all systems, ray vectors, frames, directions of tracing, pairs of surfaces", "why_tests_cant": "There is no test of getGlobalRays: it is only exercised by drawing. That a count can stand for a mask needs monotonicity of vignetting along every trace, and that the polyline is the light path involves every frame and kind of surface.", "anchors": ["batoid/optic.py: getGlobalRays L1807-1867", "batoid/optic.py: drawTrace3d L1870-1900", "batoid/optic.py: drawTrace2d L1903-1926", "batoid/coordTransform.py: applyForwardArray L70-90"]}
{"id": "C93", "title": "Pickling loses nothing", "statement": "Restoring a pickled medium, coating, surface, obscuration, coordinate system, transform, ray vector or optic gives an object with the same attributes at every depth, over a C++ object with the same behaviour: aspheres keep their imin, unions their order, bicubic surfaces their derivative tables, interfaces their coatings and compounds their stop surface.", "quantifier": "all objects that the constructors can make, nested to any depth", "why_tests_cant": "Tests pickle one or two instances of every class and compare with ==, which does not look at coatings, skip flags, stop surfaces or the C++ side (C80).", "anchors": ["batoid/surface.py: __getstate__/__setstate__ of each class, Bicubic L617-642", "batoid/obscuration.py: ObscUnion L371-398", "batoid/medium.py L47-52, L109-113, L159-164, L209-214, L258-265", "batoid/rayVector.py L1305-1318", "batoid/coordTransform.py L22-26"]}
{"id": "C94", "title": "withPerturbedSurface adds the perturbation to one surface", "statement": "optic.withPerturbedSurface(name, q) returns a copy in which the interface optic[name] has the surface height of the original plus that of q and the corresponding slopes; rays land on that surface within 1e-12 or miss; all other attributes and all other parts are unchanged. The order of several perturbations does not matter, and a perturbation that is zero everywhere leaves every ray as it is. Names that denote no interface raise.", "quantifier": "all trees, names, surfaces, perturbations, rays", "why_tests_cant": "Tests perturb one mirror of one telescope; that nothing else changes and that heights and slopes add concerns every surface, tree and ray.", "anchors": ["batoid/optic.py: Interface.withPerturbedSurface L713-727", "batoid/optic.py: CompoundOptic.withPerturbedSurface L1664-1685", "batoid/surface.py: __add__ L160-161", "src/sum.cpp L23-56"]}
{"id": "C95", "title": "The shipped telescopes can be looked up, traced and perturbed by name", "statement": "In every telescope read from one of the files in batoid/data, every optic is found by optic[key] under its dotted path and under its own name alone, and can be shifted, rotated and given a new surface under these keys, with exactly that optic changing. traceFull returns one record per interface in order. The last interface is a detector, and consecutive interfaces agree about the medium between them.", "quantifier": "all 39 files, all values of the numbers in them, all optics, keys, shifts, surfaces and rays", "why_tests_cant": "Tests load some files and perturb a few optics; the lookup and editing code works on prefixes of names, so it must be checked for every optic of every file, and the result must not depend on the numbers in the files.", "anchors": ["batoid/data/*/*.yaml", "batoid/optic.py: CompoundOptic.__getitem__ L962-1000", "batoid/optic.py: withGloballyShiftedOptic L1406-1453", "batoid/optic.py: withSurface L1622-1662", "batoid/parse.py: parse_optic L89-215"]}
{"id": "C96", "title": "Of the two points where a line meets a conic, the one near the vertex is found", "statement": "For Plane, Tilted, Paraboloid, Sphere and Quadric, surface.intersect sends a ray to the point of the surface that is nearest to the vertex plane among all points where its line meets the surface. So the result depends on the line only: moving the starting point along the line, changing the speed or reversing the direction gives the same point.", "quantifier": "all radii and conic constants, all lines that meet the surface, all starting points and velocities on them", "why_tests_cant": "The solver picks between two roots by sign tests on products of velocity, radius and discriminant; whether the pick is right for every sign combination, distance and direction cannot be sampled.", "anchors": ["src/sphere.cpp: Sphere::timeToIntersect", "src/paraboloid.cpp: Paraboloid::timeToIntersect", "src/quadric.cpp: Quadric::timeToIntersect", "src/plane.cpp: Plane::timeToIntersect", "src/tilted.cpp: Tilted::timeToIntersect"]}
{"id": "C97", "title": "Light paths are reversible", "statement": "Take a ray through an optic with optic.trace, turn the outgoing ray round and take it back with optic.trace(reverse=True). It passes every interface at the same point, with the opposite direction, comes back along the incoming line with the opposite velocity, and takes the same time. It is vignetted exactly if the ray going forward is.", "quantifier": "all optics made of mirrors, refractive interfaces, baffles, detectors and lenses, all frames, media, rays and points where the ray is turned round", "why_tests_cant": "Tests reverse a few bundles through some telescopes; the claim is about any number of interfaces and any nesting.", "anchors": ["batoid/optic.py: Interface.trace L391-424", "batoid/optic.py: CompoundOptic.trace L1009-1079", "src/batoid.cpp: reflect, refract, refractScreen L720-844"]}
{"id": "C98", "title": "Rays stay perpendicular to wavefronts", "statement": "Light from a point source or a parallel beam is perpendicular to the surfaces it reaches at equal times. After optic.trace this is still so: the positions and velocities that trace returns, moved to a common time, form a surface that every ray crosses at right angles (theorem of Malus and Dupin). Hence rays that all go through one point arrive there at the same time.", "quantifier": "all optics of any number of mirrors, refractive interfaces, baffles and detectors, all frames, media, smooth surfaces and smooth families of rays that do not graze a surface", "why_tests_cant": "Tests compare a wavefront with a reference for a few telescopes; that directions and arrival times of neighbouring rays fit together at every surface of every system is a differential statement about all beams.", "anchors": ["batoid/optic.py: Interface.trace L391-424, CompoundOptic.trace L1009-1079", "src/batoid.cpp: reflect, refract, refractScreen L720-844", "src/tilted.cpp: normal", "batoid/analysis.py: wavefront, spot"]}
{"id": "C99", "title": "Symmetric systems treat turned rays alike", "statement": "If a rotation about the optical axis, or a mirror image in a plane through it, leaves every interface of an optic as it is, then optic.trace of a turned bundle is the turned result of the bundle: positions and velocities are turned, and times, fluxes, vignetting and failures are the same. Hence rays in the plane of symmetry of an optic stay in it, and a ray along the axis of a rotationally symmetric optic stays on the axis.", "quantifier": "all optics of any size made of symmetric surfaces, frames, obscurations and phase screens, all angles, both directions, all bundles including rays that fail or are undefined", "why_tests_cant": "Tests trace a few turned bundles through a few telescopes within a tolerance; exact equality for every angle, ray and tree, including failures and iterations that do not converge, is a statement about all of them.", "anchors": ["batoid/optic.py: Interface.trace L391-424, CompoundOptic.trace L1009-1079", "src/batoid.cpp: intersect, reflect, refract, refractScreen", "src/surface.cpp: timeToIntersect L24-60", "src/plane.cpp, src/paraboloid.cpp, src/sphere.cpp, src/quadric.cpp, src/asphere.cpp, src/sum.cpp, src/tilted.cpp", "src/obscuration.cpp: contains"]}
{"id": "C100", "title": "Systems of revolution keep the skewness of rays", "statement": "Through an optic whose surfaces are all surfaces of revolution about one axis, optic.trace keeps the skew invariant of every ray: (x*vy - y*vx) / (vx**2 + vy**2 + vz**2), the refractive index squared times the angular momentum about the axis, is the same after the trace as before, whatever the ray meets, mirrors, lenses, phase screens, stops and failures included. Hence a ray that is skew to the axis never reaches it: index times distance from the axis is never below the absolute skewness.", "quantifier": "all optics of any size made of planes, paraboloids, spheres, conics, aspheres and sums of them on one axis, turned about it by any angles, all obscurations, both directions, all bundles, any initial speed", "why_tests_cant": "Tests trace finite bundles through a few telescopes within a tolerance; conservation over every ray, tree and number of iterations, including rays whose iteration did not converge, is an invariant that needs an induction.", "anchors": ["batoid/optic.py: Interface.trace L391-424, CompoundOptic.trace L1009-1079", "src/batoid.cpp: intersect, reflect, refract, refractScreen", "src/surface.cpp: timeToIntersect L24-60, normal", "src/sum.cpp: normal", "src/coordtransform.cpp: applyForward"]}
{"id": "C101", "title": "Drawings show the optics", "statement": "draw2d, draw3d, get3dmesh and getXZSlice show the surfaces where they are: every point they draw is the global position of a point of the surface between the inner and the outer radius, the curves begin and end at these radii and are evenly sampled, the drawn part is the part that the obscuration leaves open (or, for an obscuring disc, closes), a tree draws all of its interfaces in order (those of the classes given as only), lenses are filled between their surfaces, and get3dmesh returns what draw3d draws.", "quantifier": "all surfaces, frames, radii, numbers of points, and trees of optics", "why_tests_cant": "The repository only checks that drawing does not raise for a few telescopes; that all drawn points lie on the surface within the aperture, for every frame, profile and tree, is a statement about all of them.", "anchors": ["batoid/optic.py: Interface.__init__ L121-140, draw3d L146-218, get3dmesh L221-305, getXZSlice L307-376, draw2d L378-388", "batoid/optic.py: CompoundOptic.draw3d L1278-1290, get3dmesh L1292-1301, draw2d L1303-1327", "batoid/optic.py: Lens.draw2d L1763-1804"]}
{"id": "C102", "title": "Sky coordinates are converted there and back", "statement": "batoid.app: eq_to_az gives the altitude and azimuth (from north through east) of the star with the given equatorial coordinates, that is, the unit vector towards it in the horizon frame is the unit vector of hour angle and declination turned by the latitude; az_to_eq is its inverse, and both ways round give back the coordinates (right ascension up to full turns); lst is the sidereal time, an angle from 0 below 360 that grows with the longitude.", "quantifier": "all coordinates, dates, longitudes and latitudes except the poles, away from the zenith and the nadir, respectively the celestial poles", "why_tests_cant": "The application has no tests; that the formulas hold in every quadrant and are inverse to each other for all angles is a statement about the real functions.", "anchors": ["batoid/app.py: lst L54-63, eq_to_az L66-81, az_to_eq L84-95"]}
{"id": "C103", "title": "Zernike plots have the shape of a pyramid", "statement": "plotUtils.zernikePyramid(xs, ys, zs, jmin) makes one panel for every row of zs, in order, and the panel Zj shows zs[j-jmin]; its row is the radial order of Zj, and along the row it is placed by the azimuthal order such that all rows are centred; no two panels share a cell and all cells are within the grid; with vdim the colour range is divided by the radial order.", "quantifier": "all numbers of coefficients, all jmin, all colour ranges", "why_tests_cant": "There are no tests of plots; that the parity rules of columns and shifts fit together for every radial order is a statement about all orders.", "anchors": ["batoid/plotUtils.py: zernikePyramid L21-137"]}
{"id": "C104", "title": "Fans lie on the axes of the stop", "statement": "RayVector.asFan(nx, ny, ...) is a plane wave through nx points evenly spaced along the x axis of the stop followed by ny points along its y axis, with the same extents and spacings as asGrid, a number of one or less leaving its part out; lengths default to the pupil of the optic; no ray is in the bundle twice.", "quantifier": "all numbers of rays, lengths, spacings, stops, frames, media and directions that asGrid accepts", "why_tests_cant": "There are no tests of asFan; the layout for all sizes and parities is a statement about all of them.", "anchors": ["batoid/rayVector.py: RayVector.asFan L446-457, asGrid L219-444, concatenateRayVectors L1351-1365"]}
{"id": "C105", "title": "Étendue is kept (the invariant of Lagrange)", "statement": "Take rays beside one ray. If they differ from it in place by dr and in velocity by dv, then for any two such neighbours the number (dv1·dr2 - dv2·dr1)/(v·v) is the same before optic.trace and after it, where v is the velocity returned in the last medium. Hence the phase-space volume (étendue) of any bundle is kept: no optic can make light brighter, and where a point is imaged to a point, image size times aperture equals object size times aperture.", "quantifier": "all optics of any number of mirrors, refractive interfaces, baffles and detectors, all frames, media, smooth surfaces, all numbers of smooth families of rays around a common ray that does not graze a surface", "why_tests_cant": "Tests trace some rays through some telescopes; the invariant is a relation between the derivatives of the trace in all directions at every ray, and it fails by a little if one surface normal is slightly wrong.", "anchors": ["batoid/optic.py: Interface.trace L391-424, CompoundOptic.trace L1009-1079", "src/batoid.cpp: reflect, refract L720-844", "src/tilted.cpp: normal", "batoid/psf.py: dkdu, drdth"]}
{"id": "C106", "title": "Light takes a path of stationary time (Fermat)", "statement": "The time optic.trace adds to a ray is the sum over its legs of length divided by speed, and to first order it does not change when the meeting points between the two ends are moved along their surfaces. When the surfaces themselves are moved, the time of the path changes by the sum of (v/(v·v) before - v/(v·v) after)·movement, at a mirror by twice the movement along the normal times the normal velocity over the squared speed. Users rely on this for wavefronts and for sensitivity matrices of perturbed telescopes.", "quantifier": "all optics of any number of mirrors, refractive interfaces, baffles and detectors, all frames, media and smooth surfaces, all rays and all smooth movements of their meeting points", "why_tests_cant": "Tests can compare a few optical path differences with finite differences; stationarity concerns all variations of all rays in all systems and needs the exact fit of times, speeds, normals and directions.", "anchors": ["batoid/optic.py: Interface.trace L391-424, CompoundOptic.trace L1009-1079", "src/batoid.cpp: reflect, refract L720-844", "src/tilted.cpp: normal"]}
{"id": "C107", "title": "The viewer draws stars where they are seen and points the telescope at them", "statement": "RubinCSApp draws a star of right ascension ra and declination dec in the direction in which it is seen from the site at the current sidereal time (x north, z up). The telescope it draws, self.actual_telescope, is the fiducial telescope raised by 3.53 m, with the camera turned by rtp about its own axis, carried as one rigid body to altitude and azimuth about the elevation axis 5.425 m above the ground. For alt and az computed by eq_to_az from a star, the axis of the telescope is the direction in which this star is drawn. The frames drawn beside it are related as documented: ZCS is M1 seen from behind, DVCS is EDCS with x and y exchanged, the detector on the sky is turned by half a turn; drawn axes have the given lengths along the axes of the frame; the line of each ray runs through its positions behind all surfaces with a gap where it is vignetted.", "quantifier": "all latitudes, sidereal times, stars, telescopes whose camera is a named part, all altitudes, azimuths and rotator angles, all numbers of rays and surfaces", "why_tests_cant": "The application has no tests; the directions pass through five rotations with offsets of 90 and 180 degrees and two conventions for azimuth, where an error of sign shows only for some directions.", "anchors": ["batoid/app.py: get_stars_xyzs L23-32, eq_to_az L66-81, _stars_xyzs L257-267, _telescope_xyz L288-304, _rays_xyz L399-424, _fp_xyz L441-497, _cs_xyz L514-523, _zcs_views, _edcs_views, _dvcs_views L574-604", "batoid/optic.py: withLocallyRotatedOptic, withLocalRotation, withGlobalShift"]}
{"id": "C108", "title": "The controls of the viewer agree with each other and with what is drawn", "statement": "After any sequence of user actions in RubinCSApp (coordinates, time, rotator, field, focus, perturbations, check boxes): the handlers, which set each other's controls, come to an end; (ra, dec) and (alt, az) are the same direction at the current time; every control shows the attribute it belongs to; the telescope, rays, focal plane, frames and bearings that are visible are drawn for the current attributes; stars and constellations for the current sidereal time; spots and wavefront for the current settings; check boxes are ticked exactly if the thing is shown. The direction is the one the user last asked for: a new ra or dec moves the telescope to that star, a new alt or az moves it in the horizontal frame, a new time leaves altitude and azimuth.", "quantifier": "all sessions: all finite sequences of actions with all finite values that lead to directions away from zenith, nadir and the celestial poles, all latitudes below 90 degrees", "why_tests_cant": "The application has no tests; four handlers call each other through the controls, so that termination and agreement concern all orders of events and all intermediate states.", "anchors": ["batoid/app.py: __init__ L98-230, update_altaz L669-674, update_eq L676-681, handle_* L683-787, update_* L789-1059, display L1061-1097"]}
{"id": "C109", "title": "Near the axis trace is Gaussian optics", "statement": "For an optic whose interfaces are centred on the axis, the first-order action of optic.trace on rays around the axis ray is given by the formulas of Gaussian optics: between two vertices the distance from the axis grows by the optical direction p times the distance over the index, at a vertex p falls by the distance from the axis times the vertex curvature (1/R, for an asphere plus twice its r^2 coefficient) times the change of the signed index (negative for light going down, n to -n at a mirror). Consequences users rely on: mirrors focus at R/2, lenses at the distance of the lensmaker's equation, plate scale and focal ratio are the same focal length, the transfer matrix has determinant 1.", "quantifier": "all optics of any number of centred mirrors, refractive interfaces, baffles and detectors with planes, paraboloids, spheres and conics (conic constant not -1), all positions, radii and media, light in both directions, all smooth beams around the axis; for other smooth surfaces all beams that meet the interfaces on their surfaces", "why_tests_cant": "Tests trace a few rays of a few telescopes with finite distances from the axis; the statement is about derivatives for every centred system, where one wrong sign of a radius, index or direction shows only in some combinations.", "anchors": ["batoid/optic.py: Interface.trace L391-424, CompoundOptic.trace L1009-1079", "src/batoid.cpp: intersect, reflect, refract", "src/quadric.cpp L18-77", "src/sphere.cpp", "src/paraboloid.cpp", "src/asphere.cpp L37-85"]}
{"id": "C110", "title": "traceSplit returns every route through the optic exactly once", "statement": "The beams returned by optic.traceSplit of a compound are the ends of all routes light can take: at each interface of the tree in order the light is transmitted or reflected, rays that are vignetted or fainter than minFlux are dropped, and the light goes on until it leaves in front or behind. Each route with surviving rays appears exactly once, in the list of the side where it leaves, with the names of the interfaces met as its path attribute; grouping the interfaces into sub-optics changes nothing but the order. With distinct names no two beams of a list have the same path. optic.trace(rv, path=beam.path) finds the beam again: it succeeds and among its rays are those of the beam, in order, at the same positions and times. For coatings that reflect at most a fixed part of the light the call returns two lists without exception.", "quantifier": "all compound optics of any nesting, all beams, both directions, all minimum fluxes, all calls that return lists; for the link with trace(path): all interfaces with orthonormal frames, unit normals and positive indices, detectors only at the end, paths of at least two interfaces", "why_tests_cant": "Tests compare a few ghosts of one telescope with explicit paths; the set of routes is infinite and shaped by the work queue, the recursion into sub-optics, the flux cut and the direction flips, so that a lost, duplicated or misnamed route appears only in some trees.", "anchors": ["batoid/optic.py: Interface.traceSplit L466-535, CompoundOptic.traceSplit L1180-1276, CompoundOptic.trace L1009-1079"]}
{"id": "C111", "title": "Changes of frame are accurate to a few dozen roundings", "statement": "CoordTransform.applyForward and applyReverse, toCoordSys and the frame change inside every kernel, computed with rounding errors, give points and velocities off from the exact ones by at most a fixed small number of roundings of the lengths involved (40 of the distances for points, 25 of its length for a velocity), besides what the deviation of the two frames from orthonormality costs; going to a frame and back returns every point to within 100 roundings of the distances.", "quantifier": "all roundings with relative error at most u <= 1/1000 (double: 2^-53), all pairs of frames orthonormal up to 1/100, all points and velocities", "why_tests_cant": "Tests compare a few random transforms at a tolerance chosen by experience; that no pair of frames and no point loses digits (cancellation of large origins, growth through the product of matrices) is a statement about all of them.", "anchors": ["batoid/coordTransform.py L16-20, L70-113", "src/batoid.cpp L14-37, L94-147"]}
{"id": "C112", "title": "Frames stay orthonormal under many rotations with rounding", "statement": "After any sequence of shiftGlobal, shiftLocal, rotateGlobal and rotateLocal computed with rounding errors, a coordinate system is orthonormal up to what it was at the start plus at most 40 roundings and twice the error of the given matrix for each edit: the error grows linearly, never faster; the rotation differs from the one exact arithmetic gives by at most 20 roundings for each edit.", "quantifier": "all histories of edits of any length n with n(2δ + 40u) below a tenth, all roundings with relative error u <= 1/1000, all rotation matrices orthonormal up to δ, all centres and reference frames", "why_tests_cant": "Tests rotate a frame a few times; whether errors accumulate linearly or are amplified with the length of the history cannot be read off short ones.", "anchors": ["batoid/coordSys.py L64-178"]}
{"id": "C113", "title": "Rounding cannot change which rays are vignetted, but at the very edge", "statement": "ObscCircle, ObscAnnulus, ObscRectangle, ObscRay, ObscPolygon and every ObscNegation, ObscUnion and ObscIntersection of them, computed with rounding errors, contain exactly the points they contain in exact arithmetic, except points within a few roundings (6 to 12, of the distances involved) of an edge; so obscure marks the same rays.", "quantifier": "all trees of obscurations, all points off the edges by the stated margins, all roundings with relative error u <= 1/1000", "why_tests_cant": "Tests compare random points with a formula evaluated in the same arithmetic, which agrees with itself; whether any point clear of an edge is decided wrongly concerns all points and all shapes.", "anchors": ["src/obscuration.cpp L32-34, L80-83, L117-121, L155-159, L201-225, L320-322, L364-370, L415-421", "src/batoid.cpp L169-171"]}
{"id": "C114", "title": "Computed surface normals have unit length", "statement": "Surface.normal computed with rounding errors, wherever it returns numbers at all, returns a vector of length 1 up to a fixed number of roundings (of its square: 4 for planes, 44 for spheres, quadrics and aspheres, 64 for paraboloids, 28 for polynomial and Zernike surfaces, Bicubic and Sum, 12 for tilted planes), however steep the surface and however far from the axis.", "quantifier": "all surfaces of these classes with any coefficients, all points, all roundings with relative error u <= 1/1000", "why_tests_cant": "Tests check a few points with rtol=0, atol=1e-13 or the like on gentle surfaces; that slopes near the edge, large coefficients or cancellation cannot spoil the length is a statement about all of them.", "anchors": ["src/plane.cpp", "src/sphere.cpp", "src/paraboloid.cpp", "src/quadric.cpp L27-39", "src/asphere.cpp", "src/polynomialSurface.cpp", "src/bicubic.cpp L23-40", "src/sum.cpp L30-45", "src/tilted.cpp"]}
{"id": "C115", "title": "Mirrors and free flight are accurate, and rounding does not change the speed of light along a trace", "statement": "Ray.propagate and positionAtTime are right to a few roundings of the distances; a ray meeting a plane lands on it up to 5 roundings of its height; a reflected velocity is within 30 roundings, and three times the error of the normal's length, of the exact mirror image; and through any sequence of intersections, reflections, obscurations, changes of frame and propagations the speed of each ray stays what it was up to an error proportional to the number of operations.", "quantifier": "all rays and histories of any length n with n times the error of one step at most 1, all surfaces with nearly unit normals (C114), all frames orthonormal up to 1/100, all roundings with relative error u <= 1/1000", "why_tests_cant": "Tests trace a few rays through a few mirrors; growth of errors with the length of a trace, for any surfaces and frames, cannot be sampled.", "anchors": ["src/batoid.cpp L223-269, L321-377", "batoid/ray.py", "batoid/rayVector.py", "batoid/trace.py"]}
{"id": "C116", "title": "Refraction obeys Snell's law up to rounding, even near total reflection", "statement": "A velocity refracted by refract, computed with rounding errors, has the speed of light in the new medium up to 525 roundings and 12 times the error of the normal's length; its part along the surface is that of Snell's law up to 100 roundings; and unless the ray grazes the surface it goes on through it. No angle of incidence is excepted, although the cosine of the refracted ray loses half its digits near the critical angle. Along a trace each refraction sets the speed anew, so that errors of speed do not add up from one lens to the next.", "quantifier": "all surfaces with nearly unit normals, all rays and directions that are not totally reflected, all media with ratio of indices at most 2, all roundings with relative error u <= 1/1000; any sequence of operations of C115 after the refraction, anything before it", "why_tests_cant": "Tests check Snell's law at a tolerance for random rays, hardly ever near the critical angle where the square root is ill conditioned; the bound there and along whole traces is about all rays.", "anchors": ["src/batoid.cpp L431-505"]}
{"id": "C117", "title": "Numbers reach the C++ code as given", "statement": "Whatever element type (integers or doubles), stride and memory order the arrays have that are given to Asphere, TableMedium, ObscPolygon, containsGrid, Bicubic, Zernike, Surface.normal, RayVector and fromStop, the C++ code works with the numbers that numpy shows for them, also after copies and slices; lengths that do not fit raise an error.", "quantifier": "all arrays (any memory block, offset, stride, length, element type), all histories of copies and slices", "why_tests_cant": "The result depends on memory layout and element type, which tests choose conveniently; a read beyond the end of a block may give plausible numbers.", "anchors": ["batoid/surface.py:378-399", "batoid/surface.py:472-483", "batoid/surface.py:538-587", "batoid/surface.py:42-49", "batoid/medium.py:71-78", "batoid/obscuration.py:258-299", "batoid/rayVector.py:14-20", "batoid/rayVector.py:970-975", "batoid/rayVector.py:1214-1223", "pysrc/surface.cpp:11-24", "src/batoid.cpp:8-22", "src/polynomialSurface.cpp:59-66"]}
{"id": "C118", "title": "Rays land on the surface up to rounding, even at grazing incidence", "statement": "With rounding errors, a ray that Surface.intersect does not mark as failed ends on the surface: on a sphere the square of its distance from the centre is the square of the radius up to 150 u S^2 (S the sum of the lengths of the ray's start, the radius and the way), on a paraboloid or tilted plane its height is that of the surface up to 80 u resp. 75 u times such lengths, on a quadric its equation holds up to 210 u times such lengths and R^2/|1+conic|. No factor depends on the angle of incidence: the bounds hold for lines that are nearly tangent, where the computed time itself has no correct digits. On surfaces met by iteration (aspheres, polynomials, tables, sums) its height is what sag returns there up to the tolerance 1e-12. A line reported as missing a sphere does not enter it by more than roundings, and one that keeps clear by more than roundings is reported as missing.", "quantifier": "all radii, conic constants other than -1, all tilts, all rays and frames whose coordinates are finite, all roundings with relative error u <= 1/1000", "why_tests_cant": "Tests intersect random rays near the axis and compare with allclose; near tangency the two roots of the quadratic merge and the discriminant loses all digits, so the agreement of time with the exact one fails, and that the landing point is still good is a statement about backward errors of the formulas on every input.", "anchors": ["src/sphere.cpp:36-67", "src/paraboloid.cpp:38-71", "src/quadric.cpp:41-71", "src/tilted.cpp:27-37", "src/surface.cpp:22-49", "src/batoid.cpp:223-269"]}
{"id": "C119", "title": "The unit of length does not matter", "statement": "Optic.trace gives the same result whatever the unit in which lengths are given. If frames' origins, radii, coefficients, tables, obscurations, ray positions and times are converted to another unit, the traced positions and times are the converted ones, and velocities, fluxes, vignetting and failures are the same, in both directions of the trace. In exact arithmetic this holds for every ratio of units; in double precision it holds bit for bit when the ratio is a power of two. Phases and amplitudes are the same if wavelengths are converted too. Surfaces met by iteration run through the same points in every unit.", "quantifier": "all systems, bundles, numbers of iterations and units; double precision: all units whose ratio is a power of two", "why_tests_cant": "Tests use one unit. That no formula adds a length to a slope or compares a length with a bare number is a statement about all expressions of the tracing code; an absolute tolerance shows only for rays whose last residual lies between the two tolerances.", "anchors": ["src/batoid.cpp:223-844", "src/sphere.cpp:15-72", "src/quadric.cpp:9-77", "src/paraboloid.cpp:15-71", "src/asphere.cpp:10-85", "src/polynomialSurface.cpp:10-66", "src/table.cpp:42-158", "src/surface.cpp:22-49", "src/obscuration.cpp:32-421", "src/medium.cpp:89-191", "src/rayVector.cpp:110-222"]}
{"id": "C120", "title": "Rays that cross a gently curved surface are found, not lost", "statement": "Polynomials, bicubic tables, aspheres and sums are met by a fixed number of Newton steps followed by a comparison of the remaining height with 1e-12. Let the ray approach the surface at least at speed m near the crossing, let that speed change at rate at most M, and let the iteration start at most rho from the crossing with theta = 2 M rho / m at most 1. Then after n steps the time is wrong by at most rho * theta^(2^n - 1), and the ray is reported as found as soon as that times the largest closing speed is below 1e-12. If the iteration starts eps above or below the surface (an asphere at its conic, a sum at its first surface), a crossing exists within time eps/m, it is the only one near, and it is the one found. Every ray that crosses a smooth surface is found by enough steps from every start near enough. Rays parallel to the axis are found exactly after one step from any start. Five steps are not enough for every ray: one that starts 100 m from a trough of curvature 2 is lost.", "quantifier": "all surfaces met by iteration with their sag smooth along the stretch of the line, all rays not parallel to the surface there, all starting times, all numbers of steps", "why_tests_cant": "Convergence from every start of every ray on every smooth surface is a statement about all real functions with a bounded second derivative; a test runs one ray and cannot tell luck from convergence.", "anchors": ["src/surface.cpp:22-49", "src/asphere.cpp:76-85", "src/sum.cpp:47-56", "src/polynomialSurface.cpp", "src/bicubic.cpp", "batoid/surface.py"]}
{"id": "C121", "title": "Light goes straight where nothing turns it", "statement": "Whatever comes out alive of an optic whose interfaces are baffles, detectors, plain surfaces or faces between media of equal index, of any shape, lies on the straight line on which it came in, at the place where light left alone would be at that time, with its velocity unchanged. Behind any number of parallel plane faces its direction is what Snell's law gives between the first and the last medium alone, whatever is in between, and it keeps going to the same side; so a plate, of any number of layers, between equal media does not turn light. Flat mirrors turn it by their directions alone, wherever they stand: three perpendicular mirrors send it back exactly opposite to the way it came, two parallel ones leave its direction as it was. All this in both directions of the trace.", "quantifier": "all optics made of such interfaces in any order and nesting and in any orthonormal frames, all numbers of iterations, both directions, all rays, all indices", "why_tests_cant": "A claim about stacks of any number of faces and optics of any nesting; it also needs no condition on how rays meet the surfaces, only that they come out.", "anchors": ["batoid/optic.py:432-516", "batoid/optic.py:1149-1210", "src/batoid.cpp:243-330", "src/plane.cpp:13-30"]}
{"id": "C122", "title": "Cartesian lens faces and aplanatic spheres image sharply at any aperture", "statement": "A RefractiveInterface whose surface is a Quadric of conic constant -(n1/n2)^2 brings every ray parallel to its axis exactly through the point R/(1-n1/n2) behind the vertex, all at the same time for a plane wave; one of conic constant -(n2/n1)^2 makes light from that point exactly parallel and in phase; a Sphere between n1 and n2 sends light aimed at the point R n2/n1 beyond its centre to the point R n1/n2 beyond it. This holds for rays at any height, not only near the axis, in either direction of tracing; rays within the rim that start off the surface do meet the part of the conic at the vertex, and flat faces across the axis before it change nothing.", "quantifier": "for all radii, indices, frames, ray heights, start points, directions along the axis, iteration counts and directions of tracing", "why_tests_cant": "tests trace a few grids through particular lenses and compare spot sizes with a tolerance; they cannot show that the spot is a point for all shapes and heights", "anchors": ["src/quadric.cpp:15-60", "src/sphere.cpp:15-60", "src/batoid.cpp:243-330", "batoid/optic.py:432-516"]}
{"id": "C123", "title": "No C++ pointer outlives what it points to", "statement": "Whatever surfaces, media, obscurations, coatings, rays and optics a program makes, keeps, fetches from one another and forgets, in any order and with garbage collection at any moment, a call on an object that the program still has never reads memory that has been released: the parts of a Sum, ObscUnion, ObscIntersection or ObscNegation, the arrays of Asphere, Zernike, Bicubic, TableMedium, ObscPolygon and RayVector stay as long as the C++ object that points to them can be used. Memory taken with new[] is released once, with the object that took it.", "quantifier": "for all histories of construction, access, assignment, deletion and garbage collection", "why_tests_cant": "reading released memory usually gives the old numbers, so a test that does it passes; and which objects are released when depends on the whole history of the program", "anchors": ["batoid/surface.py:378-399", "batoid/surface.py:539-584", "batoid/surface.py:687-694", "batoid/obscuration.py:313-315", "batoid/obscuration.py:371-387", "batoid/medium.py:71-78", "batoid/rayVector.py:1214-1223", "pysrc/sum.cpp:13-17", "pysrc/obscuration.cpp:66-81", "src/sum.cpp:14-21", "src/asphere.cpp:10-37"]}
{"id": "C124", "title": "What an object prints makes the object again", "statement": "For every medium, coating, surface, obscuration, coordinate system, transformation, lattice, ray vector and optic x that the constructors can make, repr(x) succeeds, eval(repr(x)) succeeds, and the result prints the same text. If the arrays in x are printed with all digits, eval(repr(x)) has the attributes of x, and an optic read back compares equal to x and traces all rays as x does.", "quantifier": "every object of every class, nested to any depth; every way of printing arrays whose texts can be read", "why_tests_cant": "tests/test_helpers.py checks repr(eval(repr(obj))) == repr(obj) for the objects that the tests happen to make; omission of defaults, keyword order, sorted unions and nested optics combine in unboundedly many ways, and attributes that repr leaves out are not noticed because == ignores them too.", "anchors": ["batoid/surface.py:L186-187", "batoid/surface.py:L424-430", "batoid/surface.py:L507-518", "batoid/surface.py:L656-663", "batoid/obscuration.py:L83-88", "batoid/obscuration.py:L406-411", "batoid/optic.py:L48-57", "batoid/optic.py:L563-569", "batoid/optic.py:L894-900", "batoid/optic.py:L1345-1352", "batoid/rayVector.py:L1298-1303", "tests/test_helpers.py:L50-100"]}
{"id": "C125", "title": "Sags and normals are accurate away from the rim", "statement": "In double precision the height that `sag` returns and the vector that `normal` returns are close to those of the surface itself. At a point whose squared radius is at most the part c/(c+1) of that of the rim, `Quadric(R, conic).sag` is a number with a relative error of at most (24c+14) roundings and `Quadric.normal` is within (132c+62) roundings of the unit normal of the conic; `Paraboloid` does so everywhere. `Asphere` and `Sum` have errors that are small parts of the sums of the sizes of their terms. A mirror therefore sends a ray in the direction of the mirror image in the true normal, up to a number of roundings. (`Sphere.sag` only keeps an error that is a small part of R: near the vertex it returns 0 for a height that is not 0, where the same surface given as `Quadric(R, 0)` is right.)", "quantifier": "for all radii of curvature, conic constants, coefficients, points away from the rim, and all rounding functions with a relative error of at most u that keep the number one", "why_tests_cant": "Tests compare `sag` and `normal` with numpy's evaluation of the same formula, with the same roundings, at a few hundred random points and with a tolerance; they do not measure the error against the exact surface, nor how it grows towards the rim and the vertex.", "anchors": ["src/quadric.cpp", "src/sphere.cpp", "src/paraboloid.cpp", "src/asphere.cpp", "src/tilted.cpp", "src/sum.cpp"]}
{"id": "C126", "title": "Point images stay points in double precision", "statement": "In double precision, and in any arithmetic with a relative error of at most u per operation, stigmatic mirrors still image points to points. A ray that comes in along the axis of a `Paraboloid` mirror, at any distance from it, passes the focus within a few hundred roundings of the lengths involved, at the time that the focal distance takes; a `Plane` detector through the focus records it there. A ray that passes one focus of a `Quadric` mirror within d passes the other within d times the magnification, plus roundings; a ray through the centre of a `Sphere` comes back to it. Mirrors can be put one after the other: a parabolic primary and a conic secondary that shares its focus (Cassegrain, Gregorian) send every on-axis ray to the second focus of the secondary, whatever errors the change of frame between them makes.", "quantifier": "for all radii of curvature, eccentricities other than 1 (conics) and parabolas, all rays that are not lost, all changes of frame with errors a and b, and all rounding functions with a relative error of at most u that keep the number one", "why_tests_cant": "The tests of mirrors trace random rays and compare with a tolerance; they cannot say that no ray on a larger or faster mirror strays, nor how the errors of one mirror are magnified by the next.", "anchors": ["src/batoid.cpp:321-377", "src/paraboloid.cpp:15-71", "src/quadric.cpp:18-75", "src/sphere.cpp:15-60", "src/plane.cpp", "batoid/trace.py:60-98"]}
{"id": "C127", "title": "A call that raises tells what it has done to the rays", "statement": "`batoid.intersect`, `reflect`, `refract`, `rSplit`, `refractScreen`, `obscure` and `RayVector.toCoordSys` change their rays in place. When such a call raises because an argument is of the wrong kind, the rays are what they were before the call, so that the caller can correct the argument and call again; when it returns, everything has been done. The same holds of `CompoundOptic.trace(rv)` and `trace(rv, path=...)`. A program stopped by the user (KeyboardInterrupt) in the middle of a call leaves rays that are still correctly described: positions and velocities belong to the coordinate system the rays are labelled with, and the rays are at some place of their way through the optics.", "quantifier": "all arguments (None, of the right class, of any other kind), surfaces, media, coatings, coordinate systems, trees of optics, directions, paths and rays; all moments of an interrupt", "why_tests_cant": "a test catches one exception of one call, usually without looking at the rays afterwards; an interrupt can come between any two statements of a trace of any length, and a test cannot choose the moment", "anchors": ["batoid/trace.py:5-153", "batoid/rayVector.py:1272-1287", "batoid/optic.py:405-424", "batoid/optic.py:1039-1079"]}
{"id": "C128", "title": "A lossless surface loses no light, and coatings are asked about the right angle", "statement": "When `batoid.rSplit` divides rays at a surface whose coating absorbs nothing (reflectivity and transmissivity add up to one), the flux of the rays that are not vignetted in its two outputs together is that of the rays that are not vignetted in its input, whatever the angles of incidence; light that cannot pass is reflected. The coating is asked for its coefficients at the cosine of the angle between ray and normal (`Coating.getCoefs(wavelength, cosIncidenceAngle)`), the same for `intersect`, `reflect`, `refract` and `rSplit` of the same ray.", "quantifier": "all surfaces, coatings, media, coordinate systems and rays that reach the surface", "why_tests_cant": "a test adds up the flux of one bundle at one surface, below the critical angle; the coatings of the library ignore the angle they are given, so that no test notices a wrong one", "anchors": ["src/batoid.cpp:223-269", "src/batoid.cpp:321-377", "src/batoid.cpp:431-505", "src/batoid.cpp:581-673", "batoid/coating.py:4-64"]}
{"id": "C129", "title": "Clocks in double precision tell the optical path", "statement": "In arithmetic with rounding, where intersect, reflect or refract puts a surviving ray and what they make its clock show agree: the ray is at r + v (t1 - t0), and |t1 - t0| |v| is the distance gone, up to a few roundings of the lengths and times involved, whatever the surface. Hence optical paths keep their textbook values up to roundings: an on-axis ray reaches a parabolic mirror after going from its height to the mirror's; all on-axis rays that start together are recorded at the prime focus with the same clock, the time to the directrix; from one focus of an ellipsoidal or hyperbolic mirror to the other every ray's optical path is 2|R|/|1-e^2|.", "quantifier": "every rounding with relative error u up to 1/1000 (double precision in particular), every surface, transform, medium, coating, ray and clock; for the mirrors every radius, eccentricity and landing point away from the rim", "why_tests_cant": "Wavefront tests compare a few rays with tolerances chosen to pass; they cannot show that the clocks of all rays over an aperture of any size agree up to a stated multiple of the rounding error.", "anchors": ["src/batoid.cpp", "src/paraboloid.cpp", "src/quadric.cpp", "src/plane.cpp", "batoid/trace.py"]}
{"id": "C130", "title": "Zernike surfaces and sums are accurate, and rays land on them", "statement": "In double precision `Zernike.sag` (a polynomial, evaluated by Horner's rule) is a number within 6(nx+ny) roundings of the sum of the sizes of the polynomial's terms, at every point of the plane; `Zernike.normal` is within 12 roundings, plus 6(nx+ny) roundings of the sizes of the terms of the slopes, of the unit normal of the polynomial. `Sum.normal` is as close to the normal of the surface whose slopes are the sums of those of the parts as the steepness of the parts permits. A ray that `intersect` does not fail on an `Asphere`, `Zernike` or `Sum` is within 10^-12 and the error of `sag` of the true surface, and a mirror of polynomial shape sends it along the mirror image in the true tangent plane.", "quantifier": "for all coefficient arrays of any size, origins, points, lists of parts, rays, numbers of iterations, and all rounding functions with a relative error of at most u that keep the number one", "why_tests_cant": "Tests compare Zernike surfaces with galsim's evaluation of the same coefficients, at a few hundred points and with a tolerance; how errors grow with the order of the polynomial, the distance from the origin, or the number of parts of a sum needs a bound for all of them.", "anchors": ["src/polynomialSurface.cpp: horner2d, sag, normal", "src/sum.cpp: sag, normal", "src/surface.cpp: timeToIntersect"]}
{"id": "C131", "title": "Lenses refract accurately and Cartesian faces focus, in double precision", "statement": "In double precision `refract` sends a ray along a direction that satisfies Snell's law at the true unit normal, with an error of the order of the rounding unit divided by the cosine of the refracted ray (so it degrades only near grazing exit). A ray that meets the surface and enters a medium of index n2 with speed v, with 1/(n2 |v|) at least 80 roundings below one, never fails by total reflection. A `Quadric` face of conic constant -e^2 with e = n1/n2 sends every ray parallel to the axis through the focus at R/(1-e), up to an explicit multiple of rounding, and the spots recorded by `intersect` on a detector through the focus are within that distance of its centre.", "quantifier": "for all surfaces with accurate unit normals, media, rays, frames, radii of curvature, ratios of indices, distances from the rim, and all rounding functions with a relative error of at most u that keep the number one", "why_tests_cant": "Tests compare refracted directions with the closed form at random rays under a tolerance; cancellation in the square root near grazing, and a spurious `1 - k1 < 0` from rounding just inside the denser medium, are found only at special inputs.", "anchors": ["src/batoid.cpp: refract", "src/quadric.cpp: sag, normal, timeToIntersect"]}
{"id": "C132", "title": "Phases, amplitudes and PSF values are accurate in double precision, for any number of threads", "statement": "In double precision `phase` differs from the phase of the plane wave by at most 30 roundings of the number of radians in the way from the ray to the point and in the delay; `amplitude` by that plus one rounding. `sumAmplitude` is within an explicit multiple of rounding of the sum of the plane waves of the rays that are neither failed nor (if ignored) vignetted, however OpenMP gives the rays to threads and in whatever order and grouping the sums of the threads are added; so two runs with different numbers of threads agree up to twice that. A value of `huygensPSF`'s array (before normalisation) is the squared modulus of the sum of waves up to eleven times that slack times the light of the rays. Each component of `RayVector.k` is accurate to 20 roundings.", "quantifier": "for all rays that move and have a wavelength, points, times, numbers of rays and threads, schedules and orders of the reduction, and all rounding functions with a relative error of at most u <= 1/1000", "why_tests_cant": "Tests compare `sumAmplitude` with numpy on a few bundles with the default number of threads and a tolerance; the order in which OpenMP combines the partial sums is not specified and differs between runs, and the loss of accuracy for far points (large phases) is not measured.", "anchors": ["src/rayVector.cpp: phase, amplitude, sumAmplitude", "batoid/analysis.py: huygensPSF", "batoid/rayVector.py: k"]}
{"id": "C133", "title": "In double precision Newton's iteration finds the meeting point it should", "statement": "A ray whose start is close enough to its meeting point with a polynomial, table, asphere or sum is not reported as failed because of rounding: the error of the time after `n` steps is at most a number below one to the power `2^n - 1`, plus an explicit multiple of rounding and of the errors with which the surface reports heights and normals; if that is below the tolerance of 1e-12, `intersect` does not fail the ray and puts it at the true meeting point up to that slack. The slack is multiplied by the inverse of the speed at which the ray approaches the graph.", "quantifier": "for all surfaces that are met by iteration and report heights and normals next to the ray accurately (C125, C130), all rays, numbers of steps, starting times, and all rounding functions with a relative error of at most u <= 1/1000", "why_tests_cant": "Tests intersect random rays with a few surfaces and compare to a tolerance; a ray lost because rounding kept the last step above 1e-12 would show only for some rays, sizes and incidence angles. No test says for which sizes the fixed tolerance can be met at all.", "anchors": ["src/surface.cpp: Surface::timeToIntersect", "src/asphere.cpp: Asphere::timeToIntersect", "src/sum.cpp: Sum::timeToIntersect", "src/batoid.cpp: intersect"]}
{"id": "C134", "title": "Refractive indices are accurate in double precision", "statement": "In double precision `TableMedium.getN` is the linear interpolation of the table up to 12 roundings of the tabulated values. `SellmeierMedium.getN` and `SumitaMedium.getN` are the published formulas up to 200 respectively 60 roundings of the index, times a number for how much `lambda^2 - C` cancels and one for how much the terms under the root cancel. `Air.getN` is Filippenko's formula up to three roundings plus 600 roundings of its (small) difference from one. No glass divides by zero or takes a negative root as long as these numbers are moderate.", "quantifier": "for all tables, coefficients, pressures, temperatures and wavelengths for which the stated differences do not cancel completely, and all rounding functions with a relative error of at most u <= 1/1000", "why_tests_cant": "Tests compare a few indices with references at a tolerance of about 1e-8 or worse; the amplification next to a resonance and in air at low temperatures ranges over a continuum of coefficients and wavelengths.", "anchors": ["src/medium.cpp: TableMedium::getN, SellmeierMedium::getN, SumitaMedium::getN, Air::Air, Air::getN"]}
{"id": "C135", "title": "Bicubic tables are accurate in double precision", "statement": "In double precision the height reported by a `Bicubic` table is the exact bicubic interpolation of its entries up to `u Z (50000 + 140000 R)`, where `Z` bounds the entries (derivatives times the size of a cell) and `R` is how many cells the point and the corner of the table are away from the origin. Slopes have the same slack divided by the size of a cell, and the unit normal moves no more than the slopes plus 12 roundings. This includes points next to a grid line, which rounding may put into the neighbouring cell. Points outside by more than five roundings are reported as nan (or as a flat surface when `nanpolicy` is zero).", "quantifier": "for all grids, entries, points (except within five roundings of the last node of a row or column), and all rounding functions with a relative error of at most u <= 1/1000 and fewer than 1/(500 u) cells", "why_tests_cant": "Tests evaluate tables of smooth functions at random points; that a misplaced cell index never matters depends on the patches matching along every grid line for every table.", "anchors": ["src/table.cpp: Table::eval, Table::grad, oneDSpline, oneDGrad", "src/bicubic.cpp: Bicubic::sag, Bicubic::normal"]}
{"id": "C136", "title": "Field angles are accurate in double precision", "statement": "With the postel (default), zemax, gnomonic and stereographic projections, `fieldToDirCos` in double precision gives each transverse component of the direction within 40 roundings relative to the field coordinate (its tangent for zemax), and the axial one within 40 roundings of one plus the field radius. Converting there and back with gnomonic or zemax loses at most 40 roundings of the coordinate. With orthographic, up to 45 degrees, the transverse components are the field angles bit by bit, there and back, and the axial one is right to 40 roundings. So arbitrarily small field angles keep their sixteen digits. VIOLATED for lambert, whose formula `sqrt(1 - gamma**2)` returns the axis itself for field angles below 1e-8 rad, (between 14 square roots of a rounding, 1.6e-7 rad, and 60 degrees its error is at most 140 roundings of the coordinate divided by the square of the field radius, there and back) and for `dirCosToField` with postel and stereographic, which takes the angle from a cosine that has been rounded to one and returns (0, 0). With postel up to 43 degrees this is the only loss: whenever the computed axial component is not exactly -1, the angle comes back within 40 roundings of the coordinate.", "quantifier": "for all field angles in the domain of the projection, and all rounding functions with a relative error of at most 1/1000", "why_tests_cant": "Tests go there and back with an absolute tolerance and random angles of some degrees, for which the loss at small angles is invisible; the bound is for every angle.", "anchors": ["batoid/utils.py: fieldToDirCos, dirCosToField, postelToDirCos, dirCosToPostel, zemaxToDirCos, dirCosToZemax, gnomonicToDirCos, dirCosToGnomonic, stereographicToDirCos, lambertToDirCos, orthographicToDirCos, dirCosToOrthographic"]}
{"id": "C137", "title": "Plane waves start where they should, in double precision", "statement": "The rays made by `asGrid`, `asFan`, `asPolar`, `asSpokes` and `fromStop` for a plane wave in double precision all carry the same velocity, each component of which is right to 12 roundings, and the requested wavelength, flux and clean flags. Each starts within 3600 u (|x|+|y|+|z| + 2 backDist) per coordinate of the point where the line through its stop point in the direction of the light meets the plane at `backDist`. There is no loss of accuracy for directions near the x axis, although the frame used for launching degenerates there. The rays of `fromFieldAngles` have, per coordinate and for the postel, zemax, gnomonic and stereographic projections, a velocity within 45 u (1 + offset) / n of that of their field angle, and start within 50 u (|x| + backDist (1 + offset)) of the point at distance `backDist` before the point of the stop, where offset is the field angle in that coordinate (its tangent for zemax; 1 plus the length of the field angle for z).", "quantifier": "for all directions not along x, lists of field angles, refractive indices > 0, back distances >= 0, stop points, and all rounding functions with a relative error of at most u <= 1/1000", "why_tests_cant": "Tests compare launch positions for some angles with an absolute tolerance; that the frame stays orthonormal to a fixed number of roundings right up to the degenerate direction is a statement about all directions.", "anchors": ["batoid/rayVector.py: RayVector._finish, RayVector.fromStop, RayVector.asGrid, RayVector.asPolar, RayVector.asSpokes, RayVector.fromFieldAngles", "src/batoid.cpp: finishParallel"]}
{"id": "C138", "title": "Grids of rays are accurate in double precision", "statement": "In double precision `asGrid(nx=, ny=, lx=, ly=)` puts each point of the grid on the stop within 24 roundings of its own coordinates, so that the middle ray and the rays on the axes are there exactly. Put on the stop surface, taken to the frame of the rays and backed up, each ray starts within a stated number of roundings of where the exact construction starts it (plus the error of the reported sag and of the frames), and all have the same velocity. The same holds for `asFan(nx=, ny=, lx=, ly=)`, ray by ray.", "quantifier": "for all grid sizes and lengths, stops, frames orthonormal to 1/100, directions not along x, and all rounding functions with a relative error of at most 1/7200", "why_tests_cant": "Tests compare a handful of grids with an absolute tolerance; the bound holds for each point of each grid.", "anchors": ["batoid/rayVector.py: RayVector.asGrid, RayVector._finish", "batoid/coordTransform.py: CoordTransform.applyForwardArray", "src/batoid.cpp: finishParallel"]}
{"id": "C139", "title": "Rings and spokes of rays are accurate in double precision", "statement": "In double precision `asSpokes(outer=, inner=, rings=k, spokes=m, spacing='uniform')` puts each of its k m points on the stop within 200 u r per coordinate of the point at its radius r and azimuth, however many rings and spokes there are. Put on the stop surface, taken to the frame of the rays and backed up, each ray then starts next to where the exact one would, with an error of a few thousand roundings of the size of the system, plus the error of the height of the stop; all rays carry the same velocity, right to 12 roundings per component, and the flux asked for. The same holds for `fromStop`, whose points are given, and for `asPolar(nrandom=)`, given the draws. With spacing='GQ' and the nodes and weights numpy returns, each point is within 250 u r per coordinate, and the flux of a ring is within 20 u pi |w| / m of its weight w times the area of the annulus (in units of outer squared) divided by 2 m.", "quantifier": "for all numbers of rings and spokes, radii 0 <= inner <= outer, points of the stop, stop surfaces with a height known to some accuracy, frames, directions not along x, and all rounding functions with a relative error of at most u <= 1/7200", "why_tests_cant": "Tests compare the positions of a few patterns with an absolute tolerance; a bound that does not grow with the number of rings or spokes is a statement about all patterns.", "anchors": ["batoid/rayVector.py: RayVector.asSpokes, RayVector.asPolar, RayVector.fromStop, RayVector._finish", "numpy: linspace, meshgrid"]}
