import Verif.Zernike
import Verif.Props.Wavefront
import Verif.Props.Quadrature
import Verif.Props.Psf
import Mathlib.Topology.Algebra.MvPolynomial

/-!
# Property C86: Zernike coefficients by Gaussian quadrature
-/

namespace Batoid.Props
open Batoid Batoid.Analysis Batoid.Construct MeasureTheory

/-! ## Specification -/

/-- The points of the stop that the Gaussian quadrature with these nodes samples, in an annulus with the outer radius `pupil/2`. -/
noncomputable def gqPoints (nodes : List ℝ) (m : ℕ) (pupil eps : ℝ) : List (ℝ × ℝ) :=
  spokesSpec (nodes.map (quadRadius (eps * pupil / 2) (pupil / 2))) (equalAzimuths m)

/-- The solver of the surface finds the points at which lines of direction `v` cross it at these points. -/
def Finds (surf : Surface Dbl) (niter : ℕ) (v : V3 ℝ) (pts : List (ℝ × ℝ)) : Prop :=
  ∀ p ∈ pts, ∀ (r : V3 ℝ) (z T : ℝ), surf.sag (Dbl.fin p.1) (Dbl.fin p.2) = Dbl.fin z → r + v.smulR T = ⟨p.1, p.2, z⟩ →
    surf.timeToIntersect r.fin v.fin 0 niter = (true, Dbl.fin T)

/-- Planes do, for all lines that are not parallel to them. -/
theorem plane_finds (niter : ℕ) {v : V3 ℝ} (hv : v.z ≠ 0) (pts : List (ℝ × ℝ)) : Finds Surface.plane niter v pts := by
  intro p _ r z T hz h
  have hz' : z = 0 := by
    simp only [Surface.plane, Dbl.zero_dbl, Dbl.fin_inj] at hz
    exact hz.symm
  have h3 := congrArg V3.z h
  simp only [V3.add_z, V3.smulR_z] at h3
  simp only [Surface.plane, V3.fin_z, Dbl.zero_dbl, Dbl.eq_fin, hv, decide_false, Bool.false_eq_true, if_false, Dbl.neg_fin, Dbl.div_fin hv]
  congr 2
  field_simp
  linarith

/-! ## Where the rays cross the stop -/

theorem dotF_fin (a b : List ℝ) : dotF (a.map Dbl.fin) (b.map Dbl.fin) = Dbl.fin (List.zipWith (· * ·) a b).sum := by
  unfold dotF
  rw [List.zipWith_map]
  have e : List.zipWith (fun x y : ℝ => Dbl.fin x * Dbl.fin y) a b = (List.zipWith (· * ·) a b).map Dbl.fin := by
    rw [List.map_zipWith]; simp only [Dbl.mul_fin]
  rw [e, Dbl.zero_dbl, foldl_add_fin, zero_add]

variable {s : System Dbl} {surf : Surface Dbl} {stop cs : CoordSys ℝ} {n w back pupil : ℝ} {d : V3 ℝ} {thx thy : Dbl} {projection : String}

/-- The points of the stop that `epRays` holds are those that the rays were made for. -/
theorem stopPoints_eq (h : LegalSystem s surf stop cs n w back pupil) {pts : List (ℝ × ℝ)} {fl : List ℝ} {rv : RayVec Dbl}
    (hl : fl.length = pts.length) (hw : PlaneWave surf stop cs n w back d pts fl rv)
    (hfind : ∀ c, 0 < c → Finds surf s.niter (stop.rot.tr.mulVec (cs.rot.mulVec (d.smulR c))) pts) :
    stopPoints s rv = .ok (pts.map fun p => (Dbl.fin p.1, Dbl.fin p.2)) := by
  obtain ⟨v, ⟨c, hc, rfl⟩, -, hr⟩ := hw.rays
  unfold stopPoints
  rw [h.stopSurface]
  simp only
  refine congrArg _ ?_
  have hcs := h.cs
  have hst := h.stop
  have hrv : rv = ⟨rv.rays, cs.fin⟩ := by rw [← hw.frame]
  rw [hrv]
  simp only [RayVec.toCoordSys, RayVec.applyForward, RayVec.intersect, RayVec.runKernel, RayVec.target, Option.getD_none, List.map_map]
  have hto : (CoordTransform.make cs.fin stop.fin).toSys = stop.fin := rfl
  rw [hto]
  apply List.ext_getElem?
  intro i
  rw [List.getElem?_map, List.getElem?_map]
  rcases Nat.lt_or_ge i pts.length with hi | hi
  · have hp := List.getElem?_eq_getElem hi
    have hf := List.getElem?_eq_getElem (hl ▸ hi : i < fl.length)
    obtain ⟨r, z, T, h1, -, h2, h3⟩ := hr i _ _ hp hf
    rw [hp, h1]
    simp only [Option.map_some, Option.some.injEq, Function.comp]
    have hcross : stop.toLocal (cs.toGlobal r) + (stop.rot.tr.mulVec (cs.rot.mulVec (d.smulR c))).smulR T = ⟨(pts[i]).1, (pts[i]).2, z⟩ := by
      rw [← h3]
      simp only [CoordSys.toLocal, CoordSys.toGlobal, M3.mulVec_add, M3.mulVec_sub, M3.mulVec_smulR]
      apply V3.ext <;> simp <;> ring
    have ht := hfind c hc _ (List.getElem_mem hi) _ z T h2 hcross
    simp only [Ray.intersect, Ray.forward, CoordTransform.forward_fin, CoordTransform.forwardVel_fin, CoordSys.forward_eq hcs, CoordSys.forwardVel_eq,
      same_forward hst, same_forwardVel hst, Bool.false_eq_true, if_false, hst.tr_mulVec, ht, V3.fin_smulR, V3.fin_add, Dbl.add_fin]
    rw [hcross]
    rfl
  · rw [List.getElem?_eq_none hi, List.getElem?_eq_none (by rw [hw.size]; exact hi)]
    rfl

/-! ## The rays of the quadrature -/

/-- `outer` is half of the size of the pupil. -/
theorem spokes_pupil {F : Type} [Arith F] (lg : ℤ → Except PyErr (List F × List F)) (a : Args F) (o : OpticAttrs F) (p : F) (ho : a.optic = some o)
    (hp : o.pupilSize = some p) (inner : F) (spokes rings : Option (Count F)) (spacing : String) (flux : F) :
    asSpokes lg a none inner spokes rings spacing flux = asSpokes lg a (some (p / 2)) inner spokes rings spacing flux := by
  have e1 : pupilOuter a none = .ok (some (p / 2)) := by
    unfold pupilOuter; rw [ho]; simp [fromOptic, hp, bind, Except.bind]
  have e2 : pupilOuter a (some (p / 2)) = .ok (some (p / 2)) := by
    unfold pupilOuter fromOptic; cases a.optic <;> rfl
  unfold asSpokes
  rw [e1, e2]

/-- The weights of the rays. -/
noncomputable def gqFlux (weights : List ℝ) (m : ℕ) (eps : ℝ) : List ℝ :=
  (List.replicate m (weights.map fun x => x * (Real.pi * (1 - eps * eps)) / (2 * m))).flatten

/-- The keyword arguments with which `zernikeGQ` makes its rays. -/
def gqArgs (s : System Dbl) (w : ℝ) (d : V3 ℝ) : Args Dbl := { optic := some s.attrs, wavelength := some (Dbl.fin w), dirCos := some d.fin }

theorem gqRays (h : LegalSystem s surf stop cs n w back pupil) (hd : d.y ≠ 0 ∨ d.z ≠ 0) (hp : 0 < pupil) {eps : ℝ} (h0 : 0 ≤ eps) (h1 : eps ≤ 1)
    {lg : ℤ → Except PyErr (List Dbl × List Dbl)} {k m : ℕ} (hm : 0 < m) {spokes : Option (Count Dbl)}
    (hsp : spokes = some (.num (m : ℤ)) ∨ (spokes = none ∧ m = 2 * k + 1)) {nodes weights : List ℝ} (hg : GaussRule k nodes weights)
    (hlg : lg (k : ℤ) = .ok (nodes.map Dbl.fin, weights.map Dbl.fin)) (hs : OnSurface surf (gqPoints nodes m pupil eps)) :
    ∃ rv, asSpokes lg (gqArgs s w d) none (Dbl.fin (eps * pupil / 2)) spokes (some (.num (k : ℤ))) "GQ" 1 = .ok (some rv) ∧
      PlaneWave surf stop cs n w back d (gqPoints nodes m pupil eps) (gqFlux weights m eps) rv := by
  obtain ⟨med, hm1, hm2⟩ := h.medium
  have hl : LegalCall (gqArgs s w d) surf stop cs n w back d :=
    ⟨⟨med, ⟨.inr ⟨rfl, .inl ⟨_, rfl, h.back⟩⟩, .inr ⟨rfl, .inl ⟨_, rfl, hm1⟩⟩, .inr ⟨rfl, .inl ⟨_, rfl, h.stopSurface⟩⟩,
      .inr ⟨rfl, .inl ⟨_, rfl, by simp only [h.frame]⟩⟩, rfl, ⟨rfl, .inl rfl⟩⟩, hm2⟩, h.stop, h.cs, h.n, hd⟩
  have hp2 : 0 < pupil / 2 := by positivity
  obtain ⟨rv, h2, h3⟩ := C45_quadrature_partial hl lg (pupil / 2) (eps * pupil / 2) 1 hp2 (by positivity) (by nlinarith) hm spokes hsp
    nodes weights hg.1 hg.2.1 hlg hg.2.2.1 hs
  have e : eps * pupil / 2 / (pupil / 2) = eps := by field_simp
  rw [e] at h3
  refine ⟨rv, ?_, h3⟩
  have h2' : (2 : Dbl) = Dbl.fin 2 := Dbl.ofNat_dbl' 2
  rw [spokes_pupil lg (gqArgs s w d) s.attrs (Dbl.fin pupil) rfl h.pupil, h2', Dbl.div_fin two_ne_zero, Dbl.one_dbl]
  exact h2

theorem gqFlux_length {weights : List ℝ} {k m : ℕ} (h : weights.length = k) (eps : ℝ) : (gqFlux weights m eps).length = m * k := by
  simp [gqFlux, h]

theorem gqPoints_length {nodes : List ℝ} {k m : ℕ} (h : nodes.length = k) (pupil eps : ℝ) : (gqPoints nodes m pupil eps).length = m * k := by
  simp [gqPoints, spokesSpec, equalAzimuths, h, Function.comp_def]

/-- The sum over the points of the pupil. -/
theorem gq_sum {k m : ℕ} {nodes weights : List ℝ} (hg : GaussRule k nodes weights) {eps : ℝ} (h0 : 0 ≤ eps) (h1 : eps ≤ 1) (hp : 0 < pupil)
    (P : MvPolynomial (Fin 2) ℝ) (hm : P.totalDegree < m) (hk : P.totalDegree < 4 * k) :
    (List.zipWith (fun f (q : ℝ × ℝ) => f * polyAt P (q.1 / (pupil / 2), q.2 / (pupil / 2))) (gqFlux weights m eps) (gqPoints nodes m pupil eps)).sum =
      ∫ q in pupilDisk eps, polyAt P q := by
  have ho : pupil / 2 ≠ 0 := by positivity
  rw [← spokes_polynomial hg h0 h1 P hm hk]
  have e' : eps * pupil / 2 / (pupil / 2) = eps := by field_simp
  have e : gqPoints nodes m pupil eps =
      (spokesSpec (nodes.map fun t => Real.sqrt (eps * eps + (1 + t) * (1 - eps * eps) / 2)) (equalAzimuths m)).map
        fun q => (q.1 * (pupil / 2), q.2 * (pupil / 2)) := by
    unfold gqPoints spokesSpec
    rw [List.map_flatMap]
    congr 1
    funext t
    rw [List.map_map, List.map_map, List.map_map]
    refine List.map_congr_left fun x _ => ?_
    simp only [Function.comp, quadRadius, e']
    ring_nf
  rw [e, List.zipWith_map_right]
  simp only [mul_div_cancel_right₀ _ ho]
  rfl

/-! ## The reference sphere -/

theorem intersect_flux {F : Type} [Arith F] (s : Surface F) (ct : CoordTransform F) (niter : ℕ) (ray : Ray F) :
    (Ray.intersect s ct none niter ray).flux = ray.flux := by
  unfold Ray.intersect
  split
  · rfl
  · simp only
    split <;> rfl

theorem toSphere_map {out : CoordSys ℝ} (hcs : out.rot.Orth) {P : V3 ℝ} {R : ℝ} (hR : 0 < R) (niter : ℕ) :
    ∃ f : Ray Dbl → Ray Dbl, (∀ rays, (toSphere niter (out.fin.shiftLocal (P.fin + ⟨0, 0, Dbl.fin R⟩)) (Dbl.fin R) ⟨rays, out.fin⟩).rays = rays.map f) ∧
      (∀ ray, ray.vignetted = true → (f ray).vignetted = true) ∧ (∀ ray, (f ray).flux = ray.flux) ∧
      ∀ ray, Inside P R ray → ∃ T, SphereTime P R ray T ∧ (f ray).t = Dbl.fin T ∧ (f ray).vignetted = ray.vignetted := by
  obtain ⟨f, h1, h2, h3⟩ := onReferenceSphere_map hcs hR niter (P := P)
  refine ⟨f, h1, h2, fun ray => ?_, h3⟩
  have h4 := h1 [ray]
  have h5 : ((onReferenceSphere niter P.fin (Dbl.fin R) ⟨[ray], out.fin⟩).rays).map (·.flux) = [ray.flux] := by
    unfold onReferenceSphere
    simp only [RayVec.toCoordSys, RayVec.applyForward, RayVec.intersect, RayVec.runKernel, List.map_cons, List.map_nil, intersect_flux]
    rfl
  rw [h4] at h5
  simpa using h5

/-! ## C86 -/

/-- The reference point: the mean of the unvignetted rays, or where the chief ray ends. -/
def GQPoint (ref : Reference) (s : System Dbl) (d : V3 ℝ) (w : ℝ) (rays : List (Ray Dbl)) (out : CoordSys ℝ) (P : V3 ℝ) (R : ℝ) : Prop :=
  match ref with
  | .mean => meanV ((clear rays).map (·.r)) = P.fin ∧ ∃ ray ∈ rays, ray.vignetted = false
  | .chief => ∃ rv ray, gqChief s d.fin (Dbl.fin w) = .ok rv ∧ s.trace rv = ⟨[ray], out.fin⟩ ∧ ray.r = P.fin ∧ Inside P R ray
  | .other => False

/-- The reference time: the mean of those of the unvignetted rays, or that of the chief ray. -/
def GQTime (ref : Reference) (s : System Dbl) (d : V3 ℝ) (w : ℝ) (rays : List (Ray Dbl)) (time : Ray Dbl → ℝ → Prop) (T0 : ℝ) : Prop :=
  match ref with
  | .mean => ∃ Ts : List ℝ, Ts ≠ [] ∧ List.Forall₂ time (rays.filter fun ray => !ray.vignetted) Ts ∧ T0 = Ts.sum / Ts.length
  | .chief => ∃ rv ray, gqChief s d.fin (Dbl.fin w) = .ok rv ∧ (s.trace rv).rays = [ray] ∧ time ray T0
  | .other => False

/-- `W` is the wavefront: at each ray, in waves, as a polynomial of the place in the pupil. -/
def IsWavefront (W : MvPolynomial (Fin 2) ℝ) (pts : List (ℝ × ℝ)) (pupil w : ℝ) (rays : List (Ray Dbl)) (time : Ray Dbl → ℝ → Prop) (T0 : ℝ) : Prop :=
  ∀ (i : ℕ) (p : ℝ × ℝ) (ray : Ray Dbl) (T : ℝ), pts[i]? = some p → rays[i]? = some ray → time ray T →
    (T0 - T) / w = polyAt W (p.1 / (pupil / 2), p.2 / (pupil / 2))

theorem zip_product (g z : ℝ × ℝ → ℝ) (fl : List ℝ) (pts : List (ℝ × ℝ)) :
    (List.zipWith (· * ·) (pts.map z) (List.zipWith (fun x p => g p * x) fl pts)).sum = (List.zipWith (fun x p => x * (g p * z p)) fl pts).sum := by
  induction fl generalizing pts with
  | nil => simp
  | cons x fl ih =>
    cases pts with
    | nil => simp
    | cons p pts =>
      simp only [List.map_cons, List.zipWith_cons_cons, List.sum_cons, ih]
      ring

theorem zip_zero (fl : List ℝ) (pts : List (ℝ × ℝ)) : (List.zipWith (fun _ _ => (0 : ℝ)) fl pts).sum = 0 := by
  induction fl generalizing pts with
  | nil => simp
  | cons x fl ih =>
    cases pts with
    | nil => simp
    | cons p pts => simp [ih]

/-- **C86**: coefficient `j` of `zernikeGQ` is the mean over the pupil of the wavefront times Zernike `j`: for all systems, field
angles, references, pupils and families of polynomials, when the wavefront is a polynomial of the place in the pupil whose degree
plus that of Zernike `j` is less than four times the number of rings and less than the number of spokes.  No ray may fail; whether
rays are vignetted does not matter, other than for the mean reference.  Coefficient 0 is zero. -/
theorem C86_integral (h : LegalSystem s surf stop cs n w back pupil) (hd : FieldAngle thx thy projection d) (hp : 0 < pupil) (hw : w ≠ 0)
    {eps : ℝ} (h0 : 0 ≤ eps) (h1 : eps < 1) {lg : ℤ → Except PyErr (List Dbl × List Dbl)} {k m : ℕ} (hm : 0 < m) {spokes : Option (Count Dbl)}
    (hsp : spokes = some (.num (m : ℤ)) ∨ (spokes = none ∧ m = 2 * k + 1)) {nodes weights : List ℝ} (hg : GaussRule k nodes weights)
    (hlg : lg (k : ℤ) = .ok (nodes.map Dbl.fin, weights.map Dbl.fin)) (hs : OnSurface surf (gqPoints nodes m pupil eps))
    (hfind : ∀ c, 0 < c → Finds surf s.niter (stop.rot.tr.mulVec (cs.rot.mulVec (d.smulR c))) (gqPoints nodes m pupil eps))
    {rv : RayVec Dbl} (hrv : asSpokes lg (gqArgs s w d) none (Dbl.fin (eps * pupil / 2)) spokes (some (.num (k : ℤ))) "GQ" 1 = .ok (some rv))
    {out : CoordSys ℝ} (ho : out.rot.Orth) (hf : (s.trace rv).coordSys = out.fin)
    {R : ℝ} (hR : 0 < R) {sphereRadius : Option Dbl} (hsr : sphereRadius = some (Dbl.fin R) ∨ (sphereRadius = none ∧ s.sphereRadius = some (Dbl.fin R)))
    {ref : Reference} {P : V3 ℝ} (hP : GQPoint ref s d w (s.trace rv).rays out P R)
    (hin : ∀ ray ∈ (s.trace rv).rays, Inside P R ray)
    {W : MvPolynomial (Fin 2) ℝ}
    (hW : ∀ T0, GQTime ref s d w (s.trace rv).rays (SphereTime P R) T0 → IsWavefront W (gqPoints nodes m pupil eps) pupil w (s.trace rv).rays (SphereTime P R) T0)
    {zern : Family Dbl} {Z : ℕ → MvPolynomial (Fin 2) ℝ} {jmax : ℕ}
    (hZ : ∀ j x y, 1 ≤ j → j ≤ jmax → zern j (Dbl.fin (pupil / 2)) (Dbl.fin (eps * pupil / 2)) (Dbl.fin x) (Dbl.fin y) =
      Dbl.fin (polyAt (Z j) (x / (pupil / 2), y / (pupil / 2))))
    (hdeg : ∀ j, 1 ≤ j → j ≤ jmax → (W * Z j).totalDegree < 4 * k ∧ (W * Z j).totalDegree < m) :
    ∃ c : List ℝ, zernikeGQ lg zern s thx thy (Dbl.fin w) projection k spokes sphereRadius ref jmax (Dbl.fin eps) = .ok (c.map Dbl.fin) ∧
      c.length = jmax + 1 ∧ c[0]? = some 0 ∧
      ∀ j, 1 ≤ j → j ≤ jmax → c[j]? = some ((∫ q in pupilDisk eps, polyAt W q * polyAt (Z j) q) / (Real.pi * (1 - eps * eps))) := by
  obtain ⟨rv', e1, hwave⟩ := gqRays h hd.legal hp h0 h1.le hm hsp hg hlg hs
  rw [hrv] at e1
  injection e1 with e1
  injection e1 with e1
  subst e1
  set pts := gqPoints nodes m pupil eps with hpts
  set fl := gqFlux weights m eps with hfl
  have hlen : fl.length = pts.length := by rw [hfl, hpts, gqFlux_length hg.2.1, gqPoints_length hg.1]
  have hstop := stopPoints_eq h hlen hwave hfind
  obtain ⟨f, f1, f2, f3, f4⟩ := toSphere_map ho hR s.niter (P := P)
  have h2' : (2 : Dbl) = Dbl.fin 2 := Dbl.ofNat_dbl' 2
  have hnf : (s.trace rv).rays.any (·.failed) = false := by
    rw [List.any_eq_false]
    intro ray hray
    obtain ⟨_, _, _, _, _, _, hfail, _⟩ := hin ray hray
    simp [hfail]
  have htr : s.trace rv = ⟨(s.trace rv).rays, out.fin⟩ := by rw [← hf]
  have hpe : Dbl.fin eps * Dbl.fin pupil / 2 = Dbl.fin (eps * pupil / 2) := by rw [Dbl.mul_fin, h2', Dbl.div_fin two_ne_zero]
  have hp2 : Dbl.fin pupil / 2 = Dbl.fin (pupil / 2) := by rw [h2', Dbl.div_fin two_ne_zero]
  have hrad : s.radius sphereRadius = .ok (Dbl.fin R) := by
    rcases hsr with rfl | ⟨rfl, hr⟩
    · rfl
    · unfold System.radius; rw [hr]
  have hpu : s.pupil = .ok (Dbl.fin pupil) := by unfold System.pupil; rw [h.pupil]
  -- the reference time
  have key : ∃ T0, GQTime ref s d w (s.trace rv).rays (SphereTime P R) T0 ∧
      zernikeGQ lg zern s thx thy (Dbl.fin w) projection k spokes sphereRadius ref jmax (Dbl.fin eps) =
        .ok ((List.range (jmax + 1)).map fun j =>
          dotF (basisRow zern (Dbl.fin (pupil / 2)) (Dbl.fin (eps * pupil / 2)) (pts.map fun p => (Dbl.fin p.1, Dbl.fin p.2)) j)
            (((s.trace rv).rays.map f).map fun ray => (Dbl.fin T0 - ray.t) / Dbl.fin w * ray.flux) / (Arith.pi * (1 - Dbl.fin eps * Dbl.fin eps))) := by
    have hsph : ∀ rays : List (Ray Dbl), (toSphere s.niter ((s.trace rv).coordSys.shiftLocal (P.fin + ⟨0, 0, Dbl.fin R⟩)) (Dbl.fin R) ⟨rays, out.fin⟩).rays =
        rays.map f := by
      intro rays; rw [hf]; exact f1 rays
    have hsph0 : (toSphere s.niter ((s.trace rv).coordSys.shiftLocal (P.fin + ⟨0, 0, Dbl.fin R⟩)) (Dbl.fin R) (s.trace rv)).rays =
        (s.trace rv).rays.map f := by
      conv_lhs => rw [htr]
      exact f1 _
    have hrv' : asSpokes lg { optic := some s.attrs, wavelength := some (Dbl.fin w), dirCos := some ⟨Dbl.fin d.x, Dbl.fin d.y, Dbl.fin d.z⟩ } none
        (Dbl.fin (eps * pupil / 2)) spokes (some (.num (k : ℤ))) "GQ" 1 = .ok (some rv) := hrv
    cases ref with
    | other => exact hP.elim
    | mean =>
      obtain ⟨q1, q2⟩ := hP
      obtain ⟨T0, t1, t2⟩ := refTime_fin f2 f4 (rays := (s.trace rv).rays) (fun ray hr _ => hin ray hr) (ref := .mean) (nx := 0) q2
      refine ⟨T0, t2, ?_⟩
      unfold refTime at t1
      simp only [Except.ok.injEq] at t1
      unfold zernikeGQ
      rw [hd.dir]
      simp only [bind, Except.bind, hpu, hpe, hrv', hstop, hrad, hnf, Bool.false_eq_true, if_false, q1, hsph0, t1, hp2]
    | chief =>
      obtain ⟨crv, ray, c1, c2, c3, c4⟩ := hP
      obtain ⟨T0, t1, t2, -⟩ := f4 ray c4
      refine ⟨T0, ⟨crv, ray, c1, by rw [c2], t1⟩, ?_⟩
      unfold zernikeGQ
      rw [hd.dir]
      have hi : item [ray] 0 = .ok ray := item_nat (k := 0) rfl
      have hi' : item [f ray] 0 = .ok (f ray) := item_nat (k := 0) rfl
      have c1' : gqChief s ⟨Dbl.fin d.x, Dbl.fin d.y, Dbl.fin d.z⟩ (Dbl.fin w) = .ok crv := c1
      simp only [bind, Except.bind, hpu, hpe, hrv', hstop, hrad, hnf, Bool.false_eq_true, if_false, c1', c2, hi, Except.map, c3, hsph0, hsph,
        List.map_cons, List.map_nil, hi', t2, hp2]
  obtain ⟨T0, k1, k2⟩ := key
  have hiw := hW T0 k1
  have hsz : (s.trace rv).rays.length = pts.length := by
    obtain ⟨g, c', hg'⟩ := trace_map s.niter false s.optic rv.coordSys
    have : s.trace rv = ⟨rv.rays.map g, c'⟩ := hg' rv.rays
    rw [this, List.length_map, hwave.size]
  have hflux : (s.trace rv).rays.map (·.flux) = fl.map Dbl.fin := by
    have hk := congrArg (List.map Prod.snd) (C79_keeps s.niter false s.optic rv)
    rw [List.map_map, List.map_map] at hk
    have hk' : (s.trace rv).rays.map (·.flux) = rv.rays.map (·.flux) := hk
    rw [hk']
    obtain ⟨v, -, -, hr⟩ := hwave.rays
    apply List.ext_getElem?
    intro i
    rw [List.getElem?_map, List.getElem?_map]
    rcases Nat.lt_or_ge i pts.length with hi | hi
    · obtain ⟨r, z, T, e, -⟩ := hr i _ _ (List.getElem?_eq_getElem hi) (List.getElem?_eq_getElem (hlen ▸ hi : i < fl.length))
      rw [e, List.getElem?_eq_getElem (hlen ▸ hi : i < fl.length)]
      rfl
    · rw [List.getElem?_eq_none (by rw [hwave.size]; exact hi), List.getElem?_eq_none (by rw [hlen]; exact hi)]
      rfl
  have hvals : ((s.trace rv).rays.map f).map (fun ray => (Dbl.fin T0 - ray.t) / Dbl.fin w * ray.flux) =
      (List.zipWith (fun x (p : ℝ × ℝ) => polyAt W (p.1 / (pupil / 2), p.2 / (pupil / 2)) * x) fl pts).map Dbl.fin := by
    apply List.ext_getElem?
    intro i
    rw [List.map_map, List.getElem?_map, List.getElem?_map, List.getElem?_zipWith]
    rcases Nat.lt_or_ge i pts.length with hi | hi
    · have hi' : i < (s.trace rv).rays.length := by rw [hsz]; exact hi
      have hr := List.getElem?_eq_getElem hi'
      have hpi := List.getElem?_eq_getElem hi
      have hfi := List.getElem?_eq_getElem (hlen ▸ hi : i < fl.length)
      obtain ⟨T, t1, t2, -⟩ := f4 _ (hin _ (List.getElem_mem hi'))
      have := hiw i _ _ T hpi hr t1
      have hfx : ((s.trace rv).rays[i]).flux = Dbl.fin fl[i] := by
        have := congrArg (fun l => l[i]?) hflux
        simp only [List.getElem?_map, hr, hfi, Option.map_some, Option.some.injEq] at this
        exact this
      rw [hr, hpi, hfi]
      simp only [Option.map_some, Function.comp, t2, f3, hfx, Dbl.sub_fin, Dbl.div_fin hw, Dbl.mul_fin, this]
    · rw [List.getElem?_eq_none (by rw [hsz]; exact hi), List.getElem?_eq_none hi]
      cases fl[i]? <;> rfl
  have harea : Real.pi * (1 - eps * eps) ≠ 0 := by
    have : 0 < 1 - eps * eps := by nlinarith
    exact (mul_pos Real.pi_pos this).ne'
  have hdarea : (Arith.pi * (1 - Dbl.fin eps * Dbl.fin eps) : Dbl) = Dbl.fin (Real.pi * (1 - eps * eps)) := by
    simp only [Dbl.one_dbl, Dbl.mul_fin, Dbl.sub_fin, Dbl.pi_def]
  have hrow : ∀ j, j ≤ jmax → basisRow zern (Dbl.fin (pupil / 2)) (Dbl.fin (eps * pupil / 2)) (pts.map fun p => (Dbl.fin p.1, Dbl.fin p.2)) j =
      (pts.map fun p => if j = 0 then 0 else polyAt (Z j) (p.1 / (pupil / 2), p.2 / (pupil / 2))).map Dbl.fin := by
    intro j hj
    unfold basisRow
    rw [List.map_map, List.map_map]
    refine List.map_congr_left fun p _ => ?_
    simp only [Function.comp]
    by_cases hj0 : j = 0
    · rw [if_pos hj0, if_pos hj0, Dbl.zero_dbl]
    · rw [if_neg hj0, if_neg hj0, hZ j _ _ (by omega) hj]
  refine ⟨(List.range (jmax + 1)).map fun j => (List.zipWith (· * ·) (pts.map fun p => if j = 0 then 0 else polyAt (Z j) (p.1 / (pupil / 2), p.2 / (pupil / 2)))
    (List.zipWith (fun x (p : ℝ × ℝ) => polyAt W (p.1 / (pupil / 2), p.2 / (pupil / 2)) * x) fl pts)).sum / (Real.pi * (1 - eps * eps)), ?_, by simp, ?_, ?_⟩
  · rw [k2, hvals, List.map_map]
    refine congrArg _ (List.map_congr_left fun j hj => ?_)
    rw [List.mem_range] at hj
    rw [hrow j (by omega), dotF_fin, hdarea, Dbl.div_fin harea]
    rfl
  · rw [List.getElem?_map, List.getElem?_range (by omega), Option.map_some, zip_product]
    simp [zip_zero]
  · intro j hj1 hj2
    rw [List.getElem?_map, List.getElem?_range (by omega), Option.map_some, zip_product]
    have hmul : ∀ q, polyAt W q * polyAt (Z j) q = polyAt (W * Z j) q := by intro q; simp [polyAt]
    simp only [if_neg (show j ≠ 0 by omega), hmul]
    rw [gq_sum hg h0 h1.le hp _ (hdeg j hj1 hj2).2 (hdeg j hj1 hj2).1]

theorem polyAt_integrable (P : MvPolynomial (Fin 2) ℝ) (eps : ℝ) : IntegrableOn (polyAt P) (pupilDisk eps) := by
  have hc : Continuous (polyAt P) := by
    unfold polyAt
    exact (MvPolynomial.continuous_eval P).comp (by fun_prop)
  refine IntegrableOn.mono_set (t := Set.Icc ((-1 : ℝ), (-1 : ℝ)) (1, 1)) (Continuous.integrableOn_Icc hc) ?_
  rintro ⟨x, y⟩ ⟨_, hq⟩
  simp only at hq
  exact ⟨⟨by nlinarith [sq_nonneg y], by nlinarith [sq_nonneg x]⟩, ⟨by nlinarith [sq_nonneg y], by nlinarith [sq_nonneg x]⟩⟩

/-- The polynomials are orthogonal on the pupil, with mean square one: as Zernike polynomials are in the convention of Noll. -/
def OnPupil (Z : ℕ → MvPolynomial (Fin 2) ℝ) (jmax : ℕ) (eps : ℝ) : Prop :=
  ∀ i j, 1 ≤ i → i ≤ jmax → 1 ≤ j → j ≤ jmax →
    ∫ q in pupilDisk eps, polyAt (Z i) q * polyAt (Z j) q = if i = j then Real.pi * (1 - eps * eps) else 0

/-- **C86** (the coefficients): a wavefront that is a combination of the polynomials is decomposed into its coefficients. -/
theorem C86_recovers (h : LegalSystem s surf stop cs n w back pupil) (hd : FieldAngle thx thy projection d) (hp : 0 < pupil) (hw : w ≠ 0)
    {eps : ℝ} (h0 : 0 ≤ eps) (h1 : eps < 1) {lg : ℤ → Except PyErr (List Dbl × List Dbl)} {k m : ℕ} (hm : 0 < m) {spokes : Option (Count Dbl)}
    (hsp : spokes = some (.num (m : ℤ)) ∨ (spokes = none ∧ m = 2 * k + 1)) {nodes weights : List ℝ} (hg : GaussRule k nodes weights)
    (hlg : lg (k : ℤ) = .ok (nodes.map Dbl.fin, weights.map Dbl.fin)) (hs : OnSurface surf (gqPoints nodes m pupil eps))
    (hfind : ∀ c, 0 < c → Finds surf s.niter (stop.rot.tr.mulVec (cs.rot.mulVec (d.smulR c))) (gqPoints nodes m pupil eps))
    {rv : RayVec Dbl} (hrv : asSpokes lg (gqArgs s w d) none (Dbl.fin (eps * pupil / 2)) spokes (some (.num (k : ℤ))) "GQ" 1 = .ok (some rv))
    {out : CoordSys ℝ} (ho : out.rot.Orth) (hf : (s.trace rv).coordSys = out.fin)
    {R : ℝ} (hR : 0 < R) {sphereRadius : Option Dbl} (hsr : sphereRadius = some (Dbl.fin R) ∨ (sphereRadius = none ∧ s.sphereRadius = some (Dbl.fin R)))
    {ref : Reference} {P : V3 ℝ} (hP : GQPoint ref s d w (s.trace rv).rays out P R)
    (hin : ∀ ray ∈ (s.trace rv).rays, Inside P R ray)
    {zern : Family Dbl} {Z : ℕ → MvPolynomial (Fin 2) ℝ} {jmax D : ℕ}
    (hZ : ∀ j x y, 1 ≤ j → j ≤ jmax → zern j (Dbl.fin (pupil / 2)) (Dbl.fin (eps * pupil / 2)) (Dbl.fin x) (Dbl.fin y) =
      Dbl.fin (polyAt (Z j) (x / (pupil / 2), y / (pupil / 2))))
    (hon : OnPupil Z jmax eps) (hD : ∀ j, 1 ≤ j → j ≤ jmax → (Z j).totalDegree ≤ D) (hk : D < 2 * k) (hDm : 2 * D < m) {a : ℕ → ℝ}
    (hW : ∀ T0, GQTime ref s d w (s.trace rv).rays (SphereTime P R) T0 →
      IsWavefront (∑ j ∈ Finset.Icc 1 jmax, MvPolynomial.C (a j) * Z j) (gqPoints nodes m pupil eps) pupil w (s.trace rv).rays (SphereTime P R) T0) :
    ∃ c : List ℝ, zernikeGQ lg zern s thx thy (Dbl.fin w) projection k spokes sphereRadius ref jmax (Dbl.fin eps) = .ok (c.map Dbl.fin) ∧
      c.length = jmax + 1 ∧ c[0]? = some 0 ∧ ∀ j, 1 ≤ j → j ≤ jmax → c[j]? = some (a j) := by
  have hWd : (∑ j ∈ Finset.Icc 1 jmax, MvPolynomial.C (a j) * Z j).totalDegree ≤ D := by
    refine MvPolynomial.totalDegree_finsetSum_le fun j hj => ?_
    rw [Finset.mem_Icc] at hj
    refine (MvPolynomial.totalDegree_mul _ _).trans ?_
    rw [MvPolynomial.totalDegree_C, zero_add]
    exact hD j hj.1 hj.2
  obtain ⟨c, c1, c2, c3, c4⟩ := C86_integral h hd hp hw h0 h1 hm hsp hg hlg hs hfind hrv ho hf hR hsr hP hin hW hZ (by
    intro j hj1 hj2
    have h3 := MvPolynomial.totalDegree_mul (∑ j ∈ Finset.Icc 1 jmax, MvPolynomial.C (a j) * Z j) (Z j)
    have h4 := hD j hj1 hj2
    constructor <;> omega)
  refine ⟨c, c1, c2, c3, fun j hj1 hj2 => ?_⟩
  rw [c4 j hj1 hj2, Option.some.injEq]
  have hA : Real.pi * (1 - eps * eps) ≠ 0 := by
    have : 0 < 1 - eps * eps := by nlinarith
    exact (mul_pos Real.pi_pos this).ne'
  rw [div_eq_iff hA]
  have e : ∀ q, polyAt (∑ i ∈ Finset.Icc 1 jmax, MvPolynomial.C (a i) * Z i) q * polyAt (Z j) q =
      ∑ i ∈ Finset.Icc 1 jmax, a i * (polyAt (Z i) q * polyAt (Z j) q) := by
    intro q
    unfold polyAt
    rw [map_sum, Finset.sum_mul]
    refine Finset.sum_congr rfl fun i _ => ?_
    rw [map_mul, MvPolynomial.eval_C, mul_assoc]
  simp only [e]
  rw [integral_finset_sum]
  · rw [Finset.sum_eq_single j]
    · rw [integral_const_mul, hon j j hj1 hj2 hj1 hj2, if_pos rfl]
    · intro i hi hij
      rw [Finset.mem_Icc] at hi
      rw [integral_const_mul, hon i j hi.1 hi.2 hj1 hj2, if_neg hij, mul_zero]
    · intro hj
      exact absurd (Finset.mem_Icc.2 ⟨hj1, hj2⟩) hj
  · intro i _
    have e2 : (fun q => polyAt (Z i) q * polyAt (Z j) q) = polyAt (Z i * Z j) := by funext q; simp [polyAt]
    exact Integrable.const_mul (e2 ▸ polyAt_integrable (Z i * Z j) eps) (a i)

/-! ## The telescope of C75 -/

/-- The keyword arguments with which `zernikeGQ` makes the chief ray. -/
def chiefArgs (back : Dbl) (med : Medium Dbl) (stop : Construct.Stop Dbl) (w : Dbl) (d : V3 Dbl) : Args Dbl :=
  { backDist := some back, wavelength := some w, dirCos := some d, medium := some med, stopSurface := some stop }

open Surface in
/-- The rays of a paraboloid with a detector in its focus, for a star on the axis: what C86 asks for. -/
theorem newtonian_gq {R : ℝ} {m' : CoordSys ℝ} {d1 d2 : Iface Dbl} {o : V3 ℝ} (h : Newtonian s R m' d1 d2) (hR : R ≠ 0)
    (hs : LegalSystem s plane m' ⟨o, M3.one⟩ n w back pupil) (hd : FieldAngle thx thy projection d) {L : ℝ} (hL : 0 < L)
    (haxis : m'.rot.tr.mulVec d = ⟨0, 0, -L⟩) (hp : 0 < pupil) (hpR : pupil / 2 < |R|)
    {eps : ℝ} (h0 : 0 ≤ eps) (h1 : eps < 1) {lg : ℤ → Except PyErr (List Dbl × List Dbl)} {k m : ℕ} (hm : 0 < m) {spokes : Option (Count Dbl)}
    (hsp : spokes = some (.num (m : ℤ)) ∨ (spokes = none ∧ m = 2 * k + 1)) {nodes weights : List ℝ} (hg : GaussRule k nodes weights)
    (hlg : lg (k : ℤ) = .ok (nodes.map Dbl.fin, weights.map Dbl.fin)) {ρ : ℝ} (hρ : 0 < ρ) :
    ∃ rv, asSpokes lg (gqArgs s w d) none (Dbl.fin (eps * pupil / 2)) spokes (some (.num (k : ℤ))) "GQ" 1 = .ok (some rv) ∧
      (s.trace rv).coordSys = (CoordSys.mk (m'.toGlobal ⟨0, 0, R / 2⟩) m'.rot).fin ∧
      GQPoint .chief s d w (s.trace rv).rays ⟨m'.toGlobal ⟨0, 0, R / 2⟩, m'.rot⟩ ⟨0, 0, 0⟩ ρ ∧
      (∀ ray ∈ (s.trace rv).rays, Inside ⟨0, 0, 0⟩ ρ ray) ∧
      (∀ c, 0 < c → Finds plane s.niter (m'.rot.tr.mulVec ((M3.one : M3 ℝ).mulVec (d.smulR c))) (gqPoints nodes m pupil eps)) ∧
      ∀ T0, GQTime .chief s d w (s.trace rv).rays (SphereTime ⟨0, 0, 0⟩ ρ) T0 →
        IsWavefront (MvPolynomial.C (n * ((m'.toLocal ⟨0, 0, 0⟩).z - (m'.toLocal o).z) / w)) (gqPoints nodes m pupil eps) pupil w
          (s.trace rv).rays (SphereTime ⟨0, 0, 0⟩ ρ) T0 := by
  have hn := hs.n
  have hone : ∀ x : V3 ℝ, (M3.one : M3 ℝ).mulVec x = x := by intro x; ext <;> simp [M3.one, M3.mulVec, V3.dot]
  have hz : ∀ c : ℝ, 0 < c → (m'.rot.tr.mulVec ((M3.one : M3 ℝ).mulVec (d.smulR c))).z ≠ 0 := by
    intro c hc
    rw [hone, M3.mulVec_smulR, haxis]
    simp only [V3.smulR_z]
    nlinarith
  obtain ⟨rv, hrv, hwave⟩ := gqRays hs hd.legal hp h0 h1.le hm hsp hg hlg (plane_onSurface _)
  have hlen : (gqFlux weights m eps).length = (gqPoints nodes m pupil eps).length := by rw [gqFlux_length hg.2.1, gqPoints_length hg.1]
  have hap : ∀ p ∈ gqPoints nodes m pupil eps, p.1 ^ 2 + p.2 ^ 2 < R ^ 2 := by
    intro p hp'
    unfold gqPoints spokesSpec at hp'
    rw [List.mem_flatMap] at hp'
    obtain ⟨t, -, hp'⟩ := hp'
    rw [List.mem_map] at hp'
    obtain ⟨r, hr, rfl⟩ := hp'
    rw [List.mem_map] at hr
    obtain ⟨x, hx, rfl⟩ := hr
    obtain ⟨hx1, hx2⟩ := hg.2.2.1 x hx
    have e : eps * pupil / 2 / (pupil / 2) = eps := by field_simp
    have hle : quadRadius (eps * pupil / 2) (pupil / 2) x ^ 2 ≤ (pupil / 2) ^ 2 := by
      unfold quadRadius
      rw [e, mul_pow, Real.sq_sqrt (by nlinarith [mul_nonneg (show 0 ≤ 1 + x by linarith) (show 0 ≤ 1 - eps * eps by nlinarith), mul_self_nonneg eps])]
      have : eps * eps + (1 + x) * (1 - eps * eps) / 2 ≤ 1 := by nlinarith [mul_le_mul_of_nonneg_right (show 1 + x ≤ 2 by linarith) (show 0 ≤ 1 - eps * eps by nlinarith)]
      nlinarith [sq_nonneg (pupil / 2)]
    have hlt : (pupil / 2) ^ 2 < R ^ 2 := by
      rw [← sq_abs R]; nlinarith
    have hsc : (quadRadius (eps * pupil / 2) (pupil / 2) x * Real.cos t) ^ 2 + (quadRadius (eps * pupil / 2) (pupil / 2) x * Real.sin t) ^ 2 =
        quadRadius (eps * pupil / 2) (pupil / 2) x ^ 2 := by
      have := Real.sin_sq_add_cos_sq t
      linear_combination quadRadius (eps * pupil / 2) (pupil / 2) x ^ 2 * this
    rw [hsc]
    linarith
  obtain ⟨r1, r2, r3⟩ := newtonian_wave h hR hn hs.stop hs.cs hL (by rw [hone]; exact haxis) hlen hwave hap
  -- the chief ray
  obtain ⟨med, hm1, hm2⟩ := hs.medium
  have hl : LegalCall (chiefArgs (Dbl.fin back) med ⟨plane, m'.fin⟩ (Dbl.fin w) d.fin) plane m' globalFrame n w back d :=
    ⟨⟨med, ⟨.inl rfl, .inl rfl, .inl rfl, .inr ⟨rfl, .inr ⟨rfl, rfl⟩⟩, rfl, ⟨rfl, .inl rfl⟩⟩, hm2⟩, hs.stop, hs.cs, hn, hd.legal⟩
  obtain ⟨crv, c1, c2⟩ := C43_fromStop_partial hl [(0, 0)] (plane_onSurface _) 1
  have hchief : gqChief s d.fin (Dbl.fin w) = .ok crv := by
    unfold gqChief
    rw [hs.back, hm1, hs.stopSurface]
    simp only [Dbl.zero_dbl, Dbl.one_dbl]
    simp only [List.map_cons, List.map_nil] at c1
    rw [show Args.mk none (some (Dbl.fin back)) (some med) (some ⟨plane, m'.fin⟩) none (some (Dbl.fin w)) none (some d.fin) none none "postel" =
      chiefArgs (Dbl.fin back) med ⟨plane, m'.fin⟩ (Dbl.fin w) d.fin from rfl, c1]
    rfl
  obtain ⟨q1, q2, q3⟩ := newtonian_wave (cs := globalFrame) h hR hn hs.stop hs.cs hL (by rw [show globalFrame.rot = M3.one from rfl, hone]; exact haxis) (by simp) c2
    (by simp; positivity)
  obtain ⟨ray, hray⟩ : ∃ ray, (s.trace crv).rays = [ray] := List.length_eq_one_iff.1 (by rw [q1]; rfl)
  have inside : ∀ {ray : Ray Dbl} {tau : ℝ}, (∃ v, ray.failed = false ∧ ray.r = (⟨0, 0, 0⟩ : V3 ℝ).fin ∧ ray.v = v.fin ∧ ray.t = Dbl.fin tau ∧
      V3.normSq v = (1 / n) ^ 2 ∧ 0 < v.z) → Inside ⟨0, 0, 0⟩ ρ ray := by
    rintro ray tau ⟨v, k1, k2, k3, k4, k5, k6⟩
    refine ⟨_, v, tau, k2, k3, k4, k1, ?_, ?_⟩
    · rintro rfl; simp at k6
    · simp [V3.normSq, V3.dot]; positivity
  have focused : ∀ {ray : Ray Dbl} {tau : ℝ}, (∃ v, ray.failed = false ∧ ray.r = (⟨0, 0, 0⟩ : V3 ℝ).fin ∧ ray.v = v.fin ∧ ray.t = Dbl.fin tau ∧
      V3.normSq v = (1 / n) ^ 2 ∧ 0 < v.z) → Focused ⟨0, 0, 0⟩ tau (1 / n) True ray := by
    rintro ray tau ⟨v', k1, k2, k3, k4, k5, k6⟩ r v t e1 e2 e3
    rw [k2, V3.fin_inj] at e1
    rw [k3, V3.fin_inj] at e2
    rw [k4, Dbl.fin_inj] at e3
    subst e1 e2 e3
    exact ⟨by ext <;> simp, k5, by simpa using k6⟩
  have hcr := q3 ray (by rw [hray]; simp)
  have hctr : s.trace crv = ⟨[ray], (CoordSys.mk (m'.toGlobal ⟨0, 0, R / 2⟩) m'.rot).fin⟩ := by rw [← q2, ← hray]
  have hn' : (0 : ℝ) < 1 / n := by positivity
  refine ⟨rv, hrv, r2, ⟨crv, ray, hchief, hctr, hcr.choose_spec.2.1, inside hcr⟩, fun x hx => inside (r3 x hx),
    fun c hc => plane_finds _ (hz c hc) _, ?_⟩
  rintro T0 ⟨crv', ray', g1, g2, g3⟩ i p x T - hx hT
  rw [hchief] at g1
  injection g1 with g1
  subst g1
  rw [hray] at g2
  injection g2 with g2
  subst g2
  rw [focused_time hρ hn' (focused hcr) (inside hcr) g3]
  have hx' := r3 x (List.mem_of_getElem? hx)
  rw [focused_time hρ hn' (focused hx') (inside hx') hT]
  simp only [focusTime, if_true, polyAt, MvPolynomial.eval_C, globalFrame]
  ring

open Surface in
/-- On the axis of a paraboloid the rays and the chief ray arrive at the focus at the same time, up to the distance of the frame of
the system from the global origin. -/
theorem C86_newtonian {R : ℝ} {m' : CoordSys ℝ} {d1 d2 : Iface Dbl} {o : V3 ℝ} (h : Newtonian s R m' d1 d2) (hR : R ≠ 0)
    (hs : LegalSystem s plane m' ⟨o, M3.one⟩ n w back pupil) (hd : FieldAngle thx thy projection d) {L : ℝ} (hL : 0 < L)
    (haxis : m'.rot.tr.mulVec d = ⟨0, 0, -L⟩) (hp : 0 < pupil) (hpR : pupil / 2 < |R|) (hw : w ≠ 0)
    {eps : ℝ} (h0 : 0 ≤ eps) (h1 : eps < 1) {lg : ℤ → Except PyErr (List Dbl × List Dbl)} {k m : ℕ} (hm : 0 < m) {spokes : Option (Count Dbl)}
    (hsp : spokes = some (.num (m : ℤ)) ∨ (spokes = none ∧ m = 2 * k + 1)) {nodes weights : List ℝ} (hg : GaussRule k nodes weights)
    (hlg : lg (k : ℤ) = .ok (nodes.map Dbl.fin, weights.map Dbl.fin)) {ρ : ℝ} (hρ : 0 < ρ)
    {zern : Family Dbl} {Z : ℕ → MvPolynomial (Fin 2) ℝ} {jmax : ℕ}
    (hZ : ∀ j x y, 1 ≤ j → j ≤ jmax → zern j (Dbl.fin (pupil / 2)) (Dbl.fin (eps * pupil / 2)) (Dbl.fin x) (Dbl.fin y) =
      Dbl.fin (polyAt (Z j) (x / (pupil / 2), y / (pupil / 2))))
    (hdeg : ∀ j, 1 ≤ j → j ≤ jmax → (Z j).totalDegree < 4 * k ∧ (Z j).totalDegree < m) :
    ∃ c : List ℝ, zernikeGQ lg zern s thx thy (Dbl.fin w) projection k spokes (some (Dbl.fin ρ)) .chief jmax (Dbl.fin eps) = .ok (c.map Dbl.fin) ∧
      c.length = jmax + 1 ∧ c[0]? = some 0 ∧
      ∀ j, 1 ≤ j → j ≤ jmax → c[j]? = some (n * ((m'.toLocal ⟨0, 0, 0⟩).z - (m'.toLocal o).z) / w *
        ((∫ q in pupilDisk eps, polyAt (Z j) q) / (Real.pi * (1 - eps * eps)))) := by
  obtain ⟨rv, hrv, r2, hP, hin, hf, hW⟩ := newtonian_gq h hR hs hd hL haxis hp hpR h0 h1 hm hsp hg hlg hρ
  obtain ⟨c, e1, e2, e3, e4⟩ := C86_integral hs hd hp hw h0 h1 hm hsp hg hlg (plane_onSurface _) hf hrv
    (out := ⟨m'.toGlobal ⟨0, 0, R / 2⟩, m'.rot⟩) h.mirror.orth r2 hρ (sphereRadius := some (Dbl.fin ρ)) (.inl rfl) hP hin hW hZ (by
      intro j hj1 hj2
      have h3 := MvPolynomial.totalDegree_mul (MvPolynomial.C (n * ((m'.toLocal ⟨0, 0, 0⟩).z - (m'.toLocal o).z) / w)) (Z j)
      rw [MvPolynomial.totalDegree_C, zero_add] at h3
      have h4 := hdeg j hj1 hj2
      constructor <;> omega)
  refine ⟨c, e1, e2, e3, fun j hj1 hj2 => ?_⟩
  rw [e4 j hj1 hj2]
  simp only [polyAt, MvPolynomial.eval_C]
  rw [integral_const_mul, mul_div_assoc]

/-! ## Examples -/

/-- The first Zernike polynomial is the constant one, the second (without its factor) is x. -/
noncomputable def demoFamily : Family Dbl := fun j outer _ x _ => if j = 1 then 1 else x / outer

noncomputable def demoPoly (j : ℕ) : MvPolynomial (Fin 2) ℝ := if j = 1 then 1 else MvPolynomial.X 0

theorem demoPoly_degree (j : ℕ) : (demoPoly j).totalDegree ≤ 1 := by
  unfold demoPoly
  split
  · simp
  · rw [MvPolynomial.totalDegree_X]

theorem demoFamily_eq {o : ℝ} (ho : o ≠ 0) (i : Dbl) (j : ℕ) (x y : ℝ) :
    demoFamily j (Dbl.fin o) i (Dbl.fin x) (Dbl.fin y) = Dbl.fin (polyAt (demoPoly j) (x / o, y / o)) := by
  unfold demoFamily demoPoly polyAt
  split
  · simp
  · rw [Dbl.div_fin ho]
    simp

/-- The rule with two nodes. -/
noncomputable def demoGauss : ℤ → Except PyErr (List Dbl × List Dbl) := fun _ =>
  .ok ([-Real.sqrt (1 / 3), Real.sqrt (1 / 3)].map Dbl.fin, [1, 1].map Dbl.fin)

/-- The telescope of the examples for C75, moved as a whole by `z` along its axis. -/
noncomputable def newtonAt (z : ℝ) : System Dbl where
  optic := demoComp "T" [.iface { demoMirror with surface := Surface.paraboloid (Dbl.fin 20), coordSys := (CoordSys.mk ⟨0, 0, z⟩ M3.one).fin },
    .iface (demoFlat "D" (z + 10))]
  attrs := ⟨some (Dbl.fin 30), some ⟨fun _ => Dbl.fin 1⟩, some ⟨Surface.plane, (CoordSys.mk ⟨0, 0, z⟩ M3.one).fin⟩, some (Dbl.fin 4), none,
    (CoordSys.mk ⟨0, 0, z⟩ M3.one).fin⟩
  sphereRadius := none
  niter := 5

theorem newtonAt_optic (z : ℝ) : Newtonian (newtonAt z) 20 ⟨⟨0, 0, z⟩, M3.one⟩
    { demoMirror with surface := Surface.paraboloid (Dbl.fin 20), coordSys := (CoordSys.mk ⟨0, 0, z⟩ M3.one).fin } (demoFlat "D" (z + 10)) where
  optic := ⟨_, rfl⟩
  mirror := ⟨rfl, rfl, rfl, M3.orth_one⟩
  detector := ⟨rfl, rfl, rfl, by
    have : (CoordSys.mk (⟨0, 0, z⟩ : V3 ℝ) M3.one).toGlobal ⟨0, 0, 20 / 2⟩ = ⟨0, 0, z + 10⟩ := by
      ext <;> norm_num [CoordSys.toGlobal, M3.mulVec, M3.one, V3.dot, add_comm]
    rw [this]
    rfl, M3.orth_one⟩
  skip1 := rfl
  skip2 := rfl

theorem newtonAt_legal (z : ℝ) : LegalSystem (newtonAt z) Surface.plane ⟨⟨0, 0, z⟩, M3.one⟩ ⟨⟨0, 0, z⟩, M3.one⟩ 1 (1 / 2) 30 4 where
  back := rfl
  medium := ⟨_, rfl, rfl⟩
  stopSurface := rfl
  pupil := rfl
  frame := rfl
  stop := M3.orth_one
  cs := M3.orth_one
  n := one_pos

theorem pupilDisk_one : ∫ q in pupilDisk 0, polyAt (demoPoly 1) q = Real.pi := by
  have h := gq_sum gaussRule_two (le_refl (0 : ℝ)) zero_le_one two_pos (demoPoly 1) (m := 5) (by have := demoPoly_degree 1; omega)
    (by have := demoPoly_degree 1; omega)
  rw [← h]
  simp [gqFlux, gqPoints, spokesSpec, equalAzimuths, demoPoly, polyAt, List.range_succ]
  ring

/-- The coefficients of this telescope depend on where it is. -/
theorem newtonAt_zernike (z : ℝ) : ∃ c : List ℝ,
    zernikeGQ demoGauss demoFamily (newtonAt z) (Dbl.fin 0) (Dbl.fin 0) (Dbl.fin (1 / 2)) "orthographic" 2 none (some (Dbl.fin 5)) .chief 2 (Dbl.fin 0) =
      .ok (c.map Dbl.fin) ∧ c.length = 3 ∧ c[1]? = some (-2 * z) := by
  have hid : ∀ x : V3 ℝ, (M3.one : M3 ℝ).tr.mulVec x = x := by intro x; ext <;> simp [M3.one, M3.tr, M3.mulVec, V3.dot]
  obtain ⟨c, c1, c2, -, c4⟩ := C86_newtonian (newtonAt_optic z) (by norm_num) (newtonAt_legal z) newton_field one_pos (hid _)
    (by norm_num) (by norm_num) (by norm_num) (le_refl (0 : ℝ)) one_pos (lg := demoGauss) (k := 2) (m := 5) (spokes := none) (by norm_num) (.inr ⟨rfl, rfl⟩)
    gaussRule_two rfl (ρ := 5) (by norm_num) (zern := demoFamily) (Z := demoPoly) (jmax := 2)
    (fun j x y _ _ => demoFamily_eq (by norm_num) _ j x y) (fun j _ _ => by have := demoPoly_degree j; constructor <;> omega)
  refine ⟨c, c1, c2, ?_⟩
  rw [c4 1 le_rfl (by norm_num), pupilDisk_one, mul_zero, sub_zero, mul_one, div_self Real.pi_ne_zero]
  simp [CoordSys.toLocal, hid]
  ring

/-- **C86, violated**: the chief ray of `zernikeGQ` is made without the `coordSys` of the system.  A perfect telescope whose wavefront
is zero, moved by one along its axis, gets a piston of minus two waves. -/
theorem C86_frame_violated :
    (∃ wf, wavefront (newtonAt 1) (Dbl.fin 0) (Dbl.fin 0) (Dbl.fin (1 / 2)) "orthographic" 6 (some (Dbl.fin 5)) .chief = .ok wf ∧
      wf.cells.length = 6 * 6 ∧ ∀ x, (x, false) ∈ wf.cells → x = Dbl.fin 0) ∧
    ∃ c : List ℝ,
      zernikeGQ demoGauss demoFamily (newtonAt 1) (Dbl.fin 0) (Dbl.fin 0) (Dbl.fin (1 / 2)) "orthographic" 2 none (some (Dbl.fin 5)) .chief 2 (Dbl.fin 0) =
        .ok (c.map Dbl.fin) ∧ c[1]? = some (-2 : ℝ) := by
  have hid : ∀ x : V3 ℝ, (M3.one : M3 ℝ).tr.mulVec ((M3.one : M3 ℝ).mulVec x) = x := by
    intro x; ext <;> simp [M3.one, M3.tr, M3.mulVec, V3.dot]
  refine ⟨C75_newtonian (newtonAt_optic 1).turned (by norm_num) (newtonAt_legal 1) newton_field one_pos (hid _) (nx := 6) (by norm_num)
    newton_aperture (by norm_num) (ρ := 5) (by norm_num) (ref := .chief) (fun _ _ => trivial), ?_⟩
  obtain ⟨c, c1, -, c2⟩ := newtonAt_zernike 1
  exact ⟨c, c1, by rw [c2, mul_one]⟩

/-- In the global frame the piston is zero. -/
example : ∃ c : List ℝ,
    zernikeGQ demoGauss demoFamily (newtonAt 0) (Dbl.fin 0) (Dbl.fin 0) (Dbl.fin (1 / 2)) "orthographic" 2 none (some (Dbl.fin 5)) .chief 2 (Dbl.fin 0) =
      .ok (c.map Dbl.fin) ∧ c[1]? = some 0 := by
  obtain ⟨c, c1, -, c2⟩ := newtonAt_zernike 0
  exact ⟨c, c1, by rw [c2, mul_zero]⟩

/-- C86_recovers on this telescope: moved by one, its wavefront against the chief ray of `zernikeGQ` is minus two times the first
polynomial. -/
example : ∃ c : List ℝ,
    zernikeGQ demoGauss demoFamily (newtonAt 1) (Dbl.fin 0) (Dbl.fin 0) (Dbl.fin (1 / 2)) "orthographic" 2 none (some (Dbl.fin 5)) .chief 1 (Dbl.fin 0) =
      .ok (c.map Dbl.fin) ∧ c.length = 2 ∧ c[1]? = some (-2 : ℝ) := by
  have hid : ∀ x : V3 ℝ, (M3.one : M3 ℝ).tr.mulVec x = x := by intro x; ext <;> simp [M3.one, M3.tr, M3.mulVec, V3.dot]
  obtain ⟨rv, hrv, r2, hP, hin, hf, hW⟩ := newtonian_gq (newtonAt_optic 1) (by norm_num) (newtonAt_legal 1) newton_field one_pos (hid _)
    (by norm_num) (by norm_num) (le_refl (0 : ℝ)) one_pos (lg := demoGauss) (k := 2) (m := 5) (spokes := none) (by norm_num) (.inr ⟨rfl, rfl⟩)
    gaussRule_two rfl (ρ := 5) (by norm_num)
  obtain ⟨c, c1, c2, -, c4⟩ := C86_recovers (newtonAt_legal 1) newton_field (by norm_num) (by norm_num) (le_refl (0 : ℝ)) one_pos (by norm_num)
    (.inr ⟨rfl, rfl⟩) gaussRule_two rfl (plane_onSurface _) hf hrv M3.orth_one r2 (by norm_num) (.inl rfl) hP hin (zern := demoFamily) (Z := demoPoly)
    (jmax := 1) (D := 1) (fun j x y _ _ => demoFamily_eq (by norm_num) _ j x y)
    (by
      intro i j hi1 hi2 hj1 hj2
      obtain rfl : i = 1 := by omega
      obtain rfl : j = 1 := by omega
      have := pupilDisk_one
      simp only [demoPoly, if_true, polyAt, map_one, mul_one] at this ⊢
      rw [this]
      simp)
    (fun j _ _ => demoPoly_degree j) (by norm_num) (by norm_num) (a := fun _ => -2) (by
      intro T0 hT0
      have := hW T0 hT0
      have e : (∑ j ∈ Finset.Icc 1 1, MvPolynomial.C (-2 : ℝ) * demoPoly j) =
          MvPolynomial.C (1 * (((CoordSys.mk (⟨0, 0, 1⟩ : V3 ℝ) M3.one).toLocal ⟨0, 0, 0⟩).z - ((CoordSys.mk (⟨0, 0, 1⟩ : V3 ℝ) M3.one).toLocal ⟨0, 0, 1⟩).z) / (1 / 2)) := by
        rw [Finset.Icc_self, Finset.sum_singleton, demoPoly, if_pos rfl, mul_one]
        congr 1
        norm_num [CoordSys.toLocal, hid]
      rw [e]
      exact this)
  exact ⟨c, c1, c2, c4 1 le_rfl le_rfl⟩

end Batoid.Props
