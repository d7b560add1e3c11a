import Verif.Props.Zernike
import Verif.Props.Screen

/-!
# Property C88: the double Zernike decomposition

The rings and spokes of `doubleZernike` in the field integrate polynomials exactly, so that it is the projection of the pupil
coefficients on the polynomials of the field.
-/

namespace Batoid.Props
open Batoid Batoid.Analysis Batoid.Construct MeasureTheory

/-- The points of the field: `k` rings, `m` spokes. -/
noncomputable def fieldPts (nodes : List ℝ) (m : ℕ) (field : ℝ) : List (ℝ × ℝ) :=
  spokesSpec (nodes.map fun t => Real.sqrt ((1 + t) / 2) * field) (equalAzimuths m)

/-- Their weights. -/
noncomputable def fieldWts (weights : List ℝ) (m : ℕ) : List ℝ := (List.replicate m (weights.map fun x => x * (Real.pi / (2 * m)))).flatten

variable {lg : ℤ → Except PyErr (List Dbl × List Dbl)} {k m : ℕ} {nodes weights : List ℝ} {field : ℝ}

theorem fieldPoints_eq (hm : 0 < m) (hg : GaussRule k nodes weights) (hlg : lg (k : ℤ) = .ok (nodes.map Dbl.fin, weights.map Dbl.fin)) :
    fieldPoints lg (Dbl.fin field) k m = .ok ((fieldPts nodes m field).map fun p => (Dbl.fin p.1, Dbl.fin p.2), (fieldWts weights m).map Dbl.fin) := by
  have h2 : (2 : Dbl) = Dbl.fin 2 := Dbl.ofNat_dbl' 2
  have hm' : (m : ℝ) ≠ 0 := by exact_mod_cast hm.ne'
  have h2m : (2 * (m : ℝ)) ≠ 0 := by positivity
  have hr : nodes.map ((fun t => Arith.sqrt ((1 + t) / 2) * Dbl.fin field) ∘ Dbl.fin) = nodes.map (Dbl.fin ∘ fun t => Real.sqrt ((1 + t) / 2) * field) := by
    refine List.map_congr_left fun t ht => ?_
    have := hg.2.2.1 t ht
    simp only [Function.comp, h2, Dbl.one_dbl, Dbl.add_fin, Dbl.div_fin two_ne_zero, Dbl.sqrt_fin (show (0 : ℝ) ≤ (1 + t) / 2 by linarith [this.1]), Dbl.mul_fin]
  have hw : weights.map ((fun x => x * (Arith.pi / Arith.const ((2 * (m : ℤ) : ℤ) : ℚ))) ∘ Dbl.fin) = weights.map (Dbl.fin ∘ fun x => x * (Real.pi / (2 * m))) := by
    refine List.map_congr_left fun t _ => ?_
    have e : (Arith.const ((2 * (m : ℤ) : ℤ) : ℚ) : Dbl) = Dbl.fin (2 * m) := by
      rw [Dbl.const_dbl]; push_cast; rfl
    simp only [Function.comp, e, Dbl.pi_def, Dbl.div_fin h2m, Dbl.mul_fin]
  unfold fieldPoints
  have hz : ¬ ((m : ℤ) = 0) := by exact_mod_cast hm.ne'
  simp only [bind, Except.bind, hlg, List.map_map, hr, hw, if_neg hz]
  rw [Dbl.zero_dbl, h2, Dbl.pi_def, Dbl.mul_fin, Numpy.linspace_open hm]
  simp only [Numpy.broadcastTo, List.length_map, hg.1, hg.2.1, if_true, List.length_range]
  refine congrArg _ (Prod.ext ?_ ?_)
  · unfold Numpy.meshgrid fieldPts spokesSpec equalAzimuths
    simp only [List.map_flatMap, List.flatMap_map, List.map_map]
    refine List.flatMap_congr fun j _ => ?_
    refine List.map_congr_left fun t _ => ?_
    simp only [Function.comp, fromPolar, Dbl.cos_fin, Dbl.sin_fin, Dbl.mul_fin, zero_add, sub_zero]
    rw [show (j : ℝ) / (m : ℝ) * (2 * Real.pi) = 2 * Real.pi * j / m by ring]
  · unfold fieldWts
    rw [List.map_flatten, List.map_replicate, List.map_map]

theorem field_sum (hg : GaussRule k nodes weights) (hf : 0 < field) (P : MvPolynomial (Fin 2) ℝ) (hm : P.totalDegree < m) (hk : P.totalDegree < 4 * k) :
    (List.zipWith (fun f (q : ℝ × ℝ) => f * polyAt P (q.1 / field, q.2 / field)) (fieldWts weights m) (fieldPts nodes m field)).sum =
      ∫ q in pupilDisk 0, polyAt P q := by
  rw [← spokes_polynomial hg le_rfl zero_le_one P hm hk]
  have e : fieldPts nodes m field =
      (spokesSpec (nodes.map fun t => Real.sqrt (0 * 0 + (1 + t) * (1 - 0 * 0) / 2)) (equalAzimuths m)).map fun q => (q.1 * field, q.2 * field) := by
    unfold fieldPts spokesSpec
    rw [List.map_flatMap]
    congr 1
    funext t
    rw [List.map_map, List.map_map, List.map_map]
    refine List.map_congr_left fun r _ => ?_
    simp only [Function.comp, mul_zero, zero_add, sub_zero, mul_one]
    ext <;> simp <;> ring
  have e2 : fieldWts weights m = (List.replicate m (weights.map fun x => x * (Real.pi * (1 - 0 * 0)) / (2 * m))).flatten := by
    unfold fieldWts
    congr 2
    refine List.map_congr_left fun x _ => ?_
    ring
  rw [e, e2, List.zipWith_map_right]
  congr 2
  funext f q
  rw [mul_div_cancel_right₀ _ hf.ne', mul_div_cancel_right₀ _ hf.ne']

/-- **C88**: entry `[k, j]` is the mean over the field of the polynomial `k` times the coefficient `j` of the pupil, for coefficients that
are polynomials of the field angle and rings and spokes enough for the degrees; row 0 is zero. -/
theorem C88_integral (hf : 0 < field) (hm : 0 < m) {spokes : Option ℤ} (hsp : spokes = some (m : ℤ) ∨ (spokes = none ∧ m = 2 * k + 1))
    (hk0 : 0 < k) (hg : GaussRule k nodes weights) (hlg : lg (k : ℤ) = .ok (nodes.map Dbl.fin, weights.map Dbl.fin))
    {gq : Dbl → Dbl → ℤ → ℤ → Except PyErr (List Dbl)} {ncol : ℕ} {A : ℕ → MvPolynomial (Fin 2) ℝ}
    (hgq : ∀ p ∈ fieldPts nodes m field, gq (Dbl.fin p.1) (Dbl.fin p.2) k m =
      .ok ((List.range ncol).map fun j => Dbl.fin (polyAt (A j) (p.1 / field, p.2 / field))))
    {zern : Family Dbl} {Z : ℕ → MvPolynomial (Fin 2) ℝ} {kmax : ℕ}
    (hZ : ∀ i x y, 1 ≤ i → i ≤ kmax → zern i (Dbl.fin field) (Dbl.fin 0) (Dbl.fin x) (Dbl.fin y) = Dbl.fin (polyAt (Z i) (x / field, y / field)))
    (hdeg : ∀ i j, 1 ≤ i → i ≤ kmax → j < ncol → (A j * Z i).totalDegree < m ∧ (A j * Z i).totalDegree < 4 * k) :
    ∃ c : ℕ → ℕ → ℝ, doubleZernike lg zern gq (Dbl.fin field) k spokes kmax =
        .ok ((List.range (kmax + 1)).map fun i => (List.range ncol).map fun j => Dbl.fin (c i j)) ∧
      (∀ j, c 0 j = 0) ∧
      ∀ i j, 1 ≤ i → i ≤ kmax → j < ncol → c i j = (∫ q in pupilDisk 0, polyAt (A j) q * polyAt (Z i) q) / Real.pi := by
  have hspk : spokes.getD (2 * (k : ℤ) + 1) = (m : ℤ) := by
    rcases hsp with rfl | ⟨rfl, rfl⟩
    · rfl
    · simp
  have hmap : ((fieldPts nodes m field).map fun p => (Dbl.fin p.1, Dbl.fin p.2)).mapM (fun th => gq th.1 th.2 k m) =
      .ok ((fieldPts nodes m field).map fun p => (List.range ncol).map fun j => Dbl.fin (polyAt (A j) (p.1 / field, p.2 / field))) := by
    rw [List.mapM_map]
    exact mapM_ok fun p hp => hgq p hp
  have hne : fieldPts nodes m field ≠ [] := by
    have : (fieldPts nodes m field).length = m * k := by simp [fieldPts, spokesSpec, equalAzimuths, hg.1, Function.comp_def]
    intro h
    rw [h] at this
    have hpos := Nat.mul_pos hm hk0
    rw [List.length_nil] at this
    omega
  have hcol : (((fieldPts nodes m field).map fun p => (List.range ncol).map fun j => Dbl.fin (polyAt (A j) (p.1 / field, p.2 / field))).headD []).length = ncol := by
    cases h : fieldPts nodes m field with
    | nil => exact absurd h hne
    | cons p l => simp
  refine ⟨fun i j => (List.zipWith (fun f (q : ℝ × ℝ) => f * ((if i = 0 then 0 else polyAt (Z i) (q.1 / field, q.2 / field)) * polyAt (A j) (q.1 / field, q.2 / field)))
    (fieldWts weights m) (fieldPts nodes m field)).sum / Real.pi, ?_, ?_, ?_⟩
  · unfold doubleZernike
    simp only [bind, Except.bind, hspk, fieldPoints_eq hm hg hlg, hmap, hcol]
    refine congrArg _ (List.map_congr_left fun i hi => List.map_congr_left fun j hj => ?_)
    rw [List.mem_range] at hi hj
    have e1 : basisRow zern (Dbl.fin field) 0 ((fieldPts nodes m field).map fun p => (Dbl.fin p.1, Dbl.fin p.2)) i =
        ((fieldPts nodes m field).map fun q => if i = 0 then 0 else polyAt (Z i) (q.1 / field, q.2 / field)).map Dbl.fin := by
      unfold basisRow
      rw [List.map_map, List.map_map]
      refine List.map_congr_left fun q _ => ?_
      simp only [Function.comp]
      by_cases h0 : i = 0
      · simp [h0]
      · rw [if_neg h0, if_neg h0, Dbl.zero_dbl, hZ i _ _ (by omega) (by omega)]
    have e2 : List.zipWith (fun (row : List Dbl) w => row.getD j 0 * w)
        ((fieldPts nodes m field).map fun p => (List.range ncol).map fun j => Dbl.fin (polyAt (A j) (p.1 / field, p.2 / field))) ((fieldWts weights m).map Dbl.fin) =
        (List.zipWith (fun (q : ℝ × ℝ) w => polyAt (A j) (q.1 / field, q.2 / field) * w) (fieldPts nodes m field) (fieldWts weights m)).map Dbl.fin := by
      rw [List.zipWith_map, List.map_zipWith]
      congr 1
      funext q w
      rw [List.getD_eq_getElem?_getD, List.getElem?_map, List.getElem?_range hj]
      simp
    rw [e1, e2, dotF_fin, Dbl.pi_def, Dbl.div_fin Real.pi_ne_zero]
    congr 2
    generalize fieldPts nodes m field = P
    generalize fieldWts weights m = W
    induction P generalizing W with
    | nil => simp
    | cons q P ih =>
      cases W with
      | nil => simp
      | cons w W =>
        simp only [List.map_cons, List.zipWith_cons_cons, List.sum_cons, ih W]
        ring
  · intro j
    simp [zip_zero]
  · intro i j h1 h2 hj
    obtain ⟨d1, d2⟩ := hdeg i j h1 h2 hj
    have e : ∀ q, polyAt (A j) q * polyAt (Z i) q = polyAt (A j * Z i) q := fun q => by simp [polyAt]
    simp only [e]
    rw [← field_sum hg hf (A j * Z i) d1 d2]
    congr 3
    funext f q
    rw [if_neg (by omega), ← e]
    ring

/-- **C88** (the coefficients): coefficients of the pupil that are combinations of the polynomials of the field are decomposed. -/
theorem C88_recovers (hf : 0 < field) (hm : 0 < m) {spokes : Option ℤ} (hsp : spokes = some (m : ℤ) ∨ (spokes = none ∧ m = 2 * k + 1))
    (hk0 : 0 < k) (hg : GaussRule k nodes weights) (hlg : lg (k : ℤ) = .ok (nodes.map Dbl.fin, weights.map Dbl.fin))
    {gq : Dbl → Dbl → ℤ → ℤ → Except PyErr (List Dbl)} {ncol kmax D : ℕ} {Z : ℕ → MvPolynomial (Fin 2) ℝ} {a : ℕ → ℕ → ℝ}
    (hgq : ∀ p ∈ fieldPts nodes m field, gq (Dbl.fin p.1) (Dbl.fin p.2) k m =
      .ok ((List.range ncol).map fun j => Dbl.fin (∑ i ∈ Finset.Icc 1 kmax, a i j * polyAt (Z i) (p.1 / field, p.2 / field))))
    {zern : Family Dbl}
    (hZ : ∀ i x y, 1 ≤ i → i ≤ kmax → zern i (Dbl.fin field) (Dbl.fin 0) (Dbl.fin x) (Dbl.fin y) = Dbl.fin (polyAt (Z i) (x / field, y / field)))
    (hon : OnPupil Z kmax 0) (hD : ∀ i, 1 ≤ i → i ≤ kmax → (Z i).totalDegree ≤ D) (hk : D < 2 * k) (hDm : 2 * D < m) :
    ∃ c : ℕ → ℕ → ℝ, doubleZernike lg zern gq (Dbl.fin field) k spokes kmax =
        .ok ((List.range (kmax + 1)).map fun i => (List.range ncol).map fun j => Dbl.fin (c i j)) ∧
      (∀ j, c 0 j = 0) ∧ ∀ i j, 1 ≤ i → i ≤ kmax → j < ncol → c i j = a i j := by
  have hev : ∀ j q, polyAt (∑ i ∈ Finset.Icc 1 kmax, MvPolynomial.C (a i j) * Z i) q = ∑ i ∈ Finset.Icc 1 kmax, a i j * polyAt (Z i) q := by
    intro j q
    unfold polyAt
    rw [map_sum]
    refine Finset.sum_congr rfl fun i _ => ?_
    rw [map_mul, MvPolynomial.eval_C]
  have hdeg : ∀ j, (∑ i ∈ Finset.Icc 1 kmax, MvPolynomial.C (a i j) * Z i).totalDegree ≤ D := by
    intro j
    refine MvPolynomial.totalDegree_finsetSum_le fun i hi => ?_
    rw [Finset.mem_Icc] at hi
    refine (MvPolynomial.totalDegree_mul _ _).trans ?_
    rw [MvPolynomial.totalDegree_C, zero_add]
    exact hD i hi.1 hi.2
  obtain ⟨c, c1, c2, c3⟩ := C88_integral hf hm hsp hk0 hg hlg (gq := gq) (A := fun j => ∑ i ∈ Finset.Icc 1 kmax, MvPolynomial.C (a i j) * Z i) (ncol := ncol)
    (fun p hp => by rw [hgq p hp]; simp only [hev]) hZ (by
      intro i j h1 h2 _
      have h3 := MvPolynomial.totalDegree_mul (∑ i ∈ Finset.Icc 1 kmax, MvPolynomial.C (a i j) * Z i) (Z i)
      have h4 := hD i h1 h2
      have h5 := hdeg j
      constructor <;> omega)
  refine ⟨c, c1, c2, fun i j h1 h2 hj => ?_⟩
  rw [c3 i j h1 h2 hj, div_eq_iff Real.pi_ne_zero]
  have e : ∀ q, polyAt (∑ l ∈ Finset.Icc 1 kmax, MvPolynomial.C (a l j) * Z l) q * polyAt (Z i) q =
      ∑ l ∈ Finset.Icc 1 kmax, a l j * (polyAt (Z l) q * polyAt (Z i) q) := by
    intro q
    rw [hev, Finset.sum_mul]
    exact Finset.sum_congr rfl fun l _ => mul_assoc _ _ _
  simp only [e]
  rw [integral_finset_sum]
  · rw [Finset.sum_eq_single i]
    · rw [integral_const_mul, hon i i h1 h2 h1 h2, if_pos rfl, mul_zero, sub_zero, mul_one]
    · intro l hl hli
      rw [Finset.mem_Icc] at hl
      rw [integral_const_mul, hon l i hl.1 hl.2 h1 h2, if_neg hli, mul_zero]
    · intro hi
      exact absurd (Finset.mem_Icc.2 ⟨h1, h2⟩) hi
  · intro l _
    have e2 : (fun q => polyAt (Z l) q * polyAt (Z i) q) = polyAt (Z l * Z i) := by funext q; simp [polyAt]
    exact Integrable.const_mul (e2 ▸ polyAt_integrable (Z l * Z i) 0) (a l j)

/-- What C86 asks of one field angle: the rays are launched, found and timed, and the wavefront is the combination of the polynomials `Z`
of the pupil with the coefficients `a`. -/
structure FieldReady (lg : ℤ → Except PyErr (List Dbl × List Dbl)) (s : System Dbl) (surf : Surface Dbl) (stop cs : CoordSys ℝ) (w pupil eps : ℝ) (k m : ℕ)
    (nodes : List ℝ) (projection : String) (sphereRadius : Option Dbl) (ref : Reference) (Z : ℕ → MvPolynomial (Fin 2) ℝ) (jmax : ℕ) (p : ℝ × ℝ) (a : ℕ → ℝ) : Prop where
  ready : ∃ (d : V3 ℝ) (rv : RayVec Dbl) (out : CoordSys ℝ) (R : ℝ) (P : V3 ℝ),
    FieldAngle (Dbl.fin p.1) (Dbl.fin p.2) projection d ∧
    (∀ c, 0 < c → Finds surf s.niter (stop.rot.tr.mulVec (cs.rot.mulVec (d.smulR c))) (gqPoints nodes m pupil eps)) ∧
    asSpokes lg (gqArgs s w d) none (Dbl.fin (eps * pupil / 2)) (some (.num (m : ℤ))) (some (.num (k : ℤ))) "GQ" 1 = .ok (some rv) ∧
    out.rot.Orth ∧ (s.trace rv).coordSys = out.fin ∧ 0 < R ∧
    (sphereRadius = some (Dbl.fin R) ∨ (sphereRadius = none ∧ s.sphereRadius = some (Dbl.fin R))) ∧
    GQPoint ref s d w (s.trace rv).rays out P R ∧ (∀ ray ∈ (s.trace rv).rays, Inside P R ray) ∧
    ∀ T0, GQTime ref s d w (s.trace rv).rays (SphereTime P R) T0 →
      IsWavefront (∑ j ∈ Finset.Icc 1 jmax, MvPolynomial.C (a j) * Z j) (gqPoints nodes m pupil eps) pupil w (s.trace rv).rays (SphereTime P R) T0

/-- **C88** (the whole chain): a wavefront `W(u, θ) = Σ aᵢⱼ Zⱼ(u) Z'ᵢ(θ)` is decomposed into its coefficients, entry `[i, j]` is `aᵢⱼ`. -/
theorem C88_wavefront {s : System Dbl} {surf : Surface Dbl} {stop cs : CoordSys ℝ} {n w back pupil : ℝ} {projection : String}
    (h : LegalSystem s surf stop cs n w back pupil) (hp : 0 < pupil) (hw : w ≠ 0) {eps : ℝ} (h0 : 0 ≤ eps) (h1 : eps < 1)
    (hf : 0 < field) (hm : 0 < m) {spokes : Option ℤ} (hsp : spokes = some (m : ℤ) ∨ (spokes = none ∧ m = 2 * k + 1))
    (hk0 : 0 < k) (hg : GaussRule k nodes weights) (hlg : lg (k : ℤ) = .ok (nodes.map Dbl.fin, weights.map Dbl.fin))
    (hs : OnSurface surf (gqPoints nodes m pupil eps)) {sphereRadius : Option Dbl} {ref : Reference}
    {zern : Family Dbl} {Z Z' : ℕ → MvPolynomial (Fin 2) ℝ} {jmax kmax D : ℕ}
    (hZ : ∀ j x y, 1 ≤ j → j ≤ jmax → zern j (Dbl.fin (pupil / 2)) (Dbl.fin (eps * pupil / 2)) (Dbl.fin x) (Dbl.fin y) =
      Dbl.fin (polyAt (Z j) (x / (pupil / 2), y / (pupil / 2))))
    (hZ' : ∀ i x y, 1 ≤ i → i ≤ kmax → zern i (Dbl.fin field) (Dbl.fin 0) (Dbl.fin x) (Dbl.fin y) = Dbl.fin (polyAt (Z' i) (x / field, y / field)))
    (hon : OnPupil Z jmax eps) (hon' : OnPupil Z' kmax 0) (hD : ∀ j, 1 ≤ j → j ≤ jmax → (Z j).totalDegree ≤ D)
    (hD' : ∀ j, 1 ≤ j → j ≤ kmax → (Z' j).totalDegree ≤ D) (hk : D < 2 * k) (hDm : 2 * D < m) {a : ℕ → ℕ → ℝ}
    (hready : ∀ p ∈ fieldPts nodes m field, FieldReady lg s surf stop cs w pupil eps k m nodes projection sphereRadius ref Z jmax p
      fun j => ∑ i ∈ Finset.Icc 1 kmax, a i j * polyAt (Z' i) (p.1 / field, p.2 / field)) :
    ∃ c : ℕ → ℕ → ℝ, doubleZernike lg zern
        (fun thx thy rings spokes => zernikeGQ lg zern s thx thy (Dbl.fin w) projection rings (some (.num spokes)) sphereRadius ref jmax (Dbl.fin eps))
        (Dbl.fin field) k spokes kmax = .ok ((List.range (kmax + 1)).map fun i => (List.range (jmax + 1)).map fun j => Dbl.fin (c i j)) ∧
      (∀ j, c 0 j = 0) ∧ ∀ i j, 1 ≤ i → i ≤ kmax → j ≤ jmax → c i j = if j = 0 then 0 else a i j := by
  obtain ⟨c, c1, c2, c3⟩ := C88_recovers hf hm hsp hk0 hg hlg (ncol := jmax + 1) (a := fun i j => if j = 0 then 0 else a i j)
    (gq := fun thx thy rings spokes => zernikeGQ lg zern s thx thy (Dbl.fin w) projection rings (some (.num spokes)) sphereRadius ref jmax (Dbl.fin eps))
    (fun p hp' => by
      obtain ⟨d, rv, out, R, P, r1, r2, r3, r4, r5, r6, r7, r8, r9, r10⟩ := (hready p hp').ready
      obtain ⟨c, c1, c2, c3, c4⟩ := C86_recovers h r1 hp hw h0 h1 hm (.inl rfl) hg hlg hs r2 r3 r4 r5 r6 r7 r8 r9 hZ hon hD hk hDm r10
      rw [c1]
      refine congrArg _ (List.ext_getElem (by simp [c2]) fun j hj1 hj2 => ?_)
      rw [List.length_map] at hj1
      rw [List.getElem_map, List.getElem_map, List.getElem_range]
      congr 1
      by_cases hj : j = 0
      · subst hj
        rw [List.getElem?_eq_getElem hj1, Option.some.injEq] at c3
        simp [c3]
      · have := c4 j (by omega) (by omega)
        rw [List.getElem?_eq_getElem hj1, Option.some.injEq] at this
        simp [this, hj]) hZ' hon' hD' hk hDm
  exact ⟨c, c1, c2, fun i j h1 h2 hj => c3 i j h1 h2 (by omega)⟩

/-- A tilt proportional to the field angle and a constant piston, with the rule of two nodes: the mean over the field of the tilt is the
integral of an odd function, the piston remains. -/
example : ∃ c : ℕ → ℕ → ℝ, doubleZernike demoGauss demoFamily (fun x _ _ _ => .ok [Dbl.fin 7, x]) (Dbl.fin 2) (2 : ℕ) none 1 =
      .ok ((List.range 2).map fun i => (List.range 2).map fun j => Dbl.fin (c i j)) ∧
    c 1 0 = 7 ∧ c 1 1 = (∫ q in pupilDisk 0, 2 * q.1) / Real.pi := by
  obtain ⟨c, c1, c2, c3⟩ := C88_integral (k := 2) (m := 5) (field := 2) (lg := demoGauss) (by norm_num) (by norm_num) (spokes := none) (.inr ⟨rfl, rfl⟩) (by norm_num)
    gaussRule_two rfl (gq := fun x _ _ _ => .ok [Dbl.fin 7, x]) (ncol := 2) (A := fun j => if j = 0 then MvPolynomial.C 7 else MvPolynomial.C 2 * MvPolynomial.X 0)
    (fun p _ => by
      simp [List.range_succ, polyAt]
      ring) (zern := demoFamily) (Z := demoPoly) (kmax := 1) (fun i x y _ _ => demoFamily_eq two_ne_zero _ i x y) (by
      intro i j h1 h2 hj
      have h3 : i = 1 := by omega
      subst h3
      have : demoPoly 1 = 1 := by simp [demoPoly]
      rw [this, mul_one]
      split
      · rw [MvPolynomial.totalDegree_C]; omega
      · have := MvPolynomial.totalDegree_mul (MvPolynomial.C (2 : ℝ)) (MvPolynomial.X (0 : Fin 2))
        rw [MvPolynomial.totalDegree_C, MvPolynomial.totalDegree_X] at this
        omega)
  refine ⟨c, c1, ?_, ?_⟩
  · rw [c3 1 0 le_rfl le_rfl (by norm_num)]
    have : ∫ q in pupilDisk 0, polyAt (if (0 : ℕ) = 0 then MvPolynomial.C 7 else MvPolynomial.C 2 * MvPolynomial.X 0) q * polyAt (demoPoly 1) q = 7 * Real.pi := by
      rw [← pupilDisk_one, ← integral_const_mul]
      simp [polyAt]
    rw [this, mul_div_cancel_right₀ _ Real.pi_ne_zero]
  · rw [c3 1 1 le_rfl le_rfl (by norm_num)]
    simp [polyAt, demoPoly]

/-- The rule with one node. -/
theorem gaussRule_one : GaussRule 1 [0] [2] := by
  refine ⟨rfl, rfl, by simp, fun p hp => ?_⟩
  rw [Polynomial.eq_X_add_C_of_natDegree_le_one (show p.natDegree ≤ 1 by omega)]
  simp only [Polynomial.eval_add, Polynomial.eval_mul, Polynomial.eval_C, Polynomial.eval_X]
  rw [intervalIntegral.integral_add (Continuous.intervalIntegrable (by fun_prop) _ _) (Continuous.intervalIntegrable (by fun_prop) _ _), intervalIntegral.integral_const_mul, integral_id]
  norm_num

theorem camera_ready (x y : ℝ) : FieldReady (fun _ => .ok ([0].map Dbl.fin, [2].map Dbl.fin)) camera Surface.plane (CoordSys.std ℝ) globalFrame (1 / 2) 4 0 1 1 [0] "gnomonic"
    (some (Dbl.fin 3)) .mean demoPoly 1 (x, y) fun _ => 0 := by
  obtain ⟨hz, -, -⟩ := gnomonic_slope x y
  obtain ⟨rv, h1, h2⟩ := gqRays camera_legal (gnomonic_field x y).legal (by norm_num) (le_refl (0 : ℝ)) zero_le_one (k := 1) (m := 1) one_pos (spokes := some (.num (1 : ℕ)))
    (.inl rfl) gaussRule_one (lg := fun _ => .ok ([0].map Dbl.fin, [2].map Dbl.fin)) rfl (plane_onSurface _)
  have hl1 : (gqPoints [0] 1 4 0).length = 1 := gqPoints_length (k := 1) rfl 4 0
  obtain ⟨p, hp⟩ : ∃ p, gqPoints [0] 1 4 0 = [p] := List.length_eq_one_iff.1 hl1
  have hlen : (camera.trace rv).rays.length = 1 := by
    obtain ⟨g, c', hg⟩ := trace_map camera.niter false camera.optic rv.coordSys
    have : camera.trace rv = ⟨rv.rays.map g, c'⟩ := hg rv.rays
    rw [this, List.length_map, h2.size, hl1]
  obtain ⟨out, k1, k2, k3, k4, v, t, k5, k6, k7⟩ := screen_wave camera_optic std_orth globalFrame_orth (camera_dir _) hz (by simp [hl1, gqFlux]) h2 (i := 0) (by rw [hp]; rfl)
  obtain ⟨o, ho⟩ := List.length_eq_one_iff.1 hlen
  rw [ho] at k1
  have : o = out := by simpa using k1
  subst this
  rw [one_mul] at k4
  obtain ⟨fr, f1, f2⟩ := screen_frame camera_optic rv
  refine ⟨gnomonicDir x y, rv, fr, 3, ⟨p.1 - 5 * ((gnomonicDir x y).x / (gnomonicDir x y).z), p.2 - 5 * ((gnomonicDir x y).y / (gnomonicDir x y).z), 0⟩, gnomonic_field x y, fun c hc => plane_finds _ ?_ _, h1, f1, f2, by norm_num, .inl rfl, ⟨?_, o, ?_, k3⟩, ?_, ?_⟩
  · rw [camera_dir]
    exact mul_ne_zero hz hc.ne'
  · rw [ho]
    have e : (clear [o]).map (·.r) = [(⟨p.1 - 5 * ((gnomonicDir x y).x / (gnomonicDir x y).z), p.2 - 5 * ((gnomonicDir x y).y / (gnomonicDir x y).z), 0⟩ : V3 ℝ)].map V3.fin := by
      simp [clear, k3, k4]
    rw [e, meanV_fin (by simp), centroid_const (by simp) (fun r hr => List.mem_singleton.1 hr)]
  · rw [ho]; simp
  · intro ray hray
    rw [ho] at hray
    have : ray = o := by simpa using hray
    subst this
    refine ⟨_, v, t, k4, k5, k7, k2, ?_, ?_⟩
    · rintro rfl; exact k6 rfl
    · simp [V3.normSq, V3.dot]
  · intro T0 hT i q ray T hq hr hT'
    obtain ⟨Ts, t1, t2, t3⟩ := hT
    rw [ho] at t2 hr
    have e1 : ray = o := by
      cases i with
      | zero => simpa using hr.symm
      | succ i => simp at hr
    subst e1
    have e2 : ([ray].filter fun ray => !ray.vignetted) = [ray] := by simp [k3]
    rw [e2] at t2
    cases t2 with
    | cons a b =>
      cases b
      rename_i T1
      obtain ⟨r1, v1, s1, a1, a2, a3, a4⟩ := a
      obtain ⟨r2, v2, s2, b1, b2, b3, b4⟩ := hT'
      rw [k4, V3.fin_inj] at a1 b1
      rw [k5, V3.fin_inj] at a2 b2
      rw [k7, Dbl.fin_inj] at a3 b3
      subst a1 a2 a3 b1 b2 b3
      have := AtSphere.unique (by simp [V3.normSq, V3.dot]) a4 b4
      subst this
      rw [t3]
      simp [polyAt]

/-- One ray for one field angle: its wavefront, relative to the mean, is zero. -/
example : ∃ c : ℕ → ℕ → ℝ, doubleZernike (fun _ => .ok ([0].map Dbl.fin, [2].map Dbl.fin)) demoFamily
      (fun thx thy rings spokes => zernikeGQ (fun _ => .ok ([0].map Dbl.fin, [2].map Dbl.fin)) demoFamily camera thx thy (Dbl.fin (1 / 2)) "gnomonic" rings (some (.num spokes))
        (some (Dbl.fin 3)) .mean 1 (Dbl.fin 0)) (Dbl.fin 1) (1 : ℕ) (some 1) 1 =
      .ok ((List.range 2).map fun i => (List.range 2).map fun j => Dbl.fin (c i j)) ∧ c 1 1 = 0 := by
  obtain ⟨c, c1, -, c3⟩ := C88_wavefront camera_legal (by norm_num) (by norm_num) (le_refl (0 : ℝ)) one_pos (field := 1) one_pos (m := 1) one_pos (spokes := some 1) (.inl rfl)
    (k := 1) one_pos gaussRule_one (lg := fun _ => .ok ([0].map Dbl.fin, [2].map Dbl.fin)) rfl (plane_onSurface _) (zern := demoFamily) (Z := demoPoly) (Z' := demoPoly) (jmax := 1) (kmax := 1) (D := 0)
    (fun j x y _ _ => demoFamily_eq (by norm_num) _ j x y) (fun j x y _ _ => demoFamily_eq one_ne_zero _ j x y)
    (by
      intro i j h1 h2 h3 h4
      obtain rfl : i = 1 := by omega
      obtain rfl : j = 1 := by omega
      rw [if_pos rfl, mul_zero, sub_zero, mul_one, ← pupilDisk_one]
      simp [polyAt, demoPoly])
    (by
      intro i j h1 h2 h3 h4
      obtain rfl : i = 1 := by omega
      obtain rfl : j = 1 := by omega
      rw [if_pos rfl, mul_zero, sub_zero, mul_one, ← pupilDisk_one]
      simp [polyAt, demoPoly])
    (by
      intro j h1 h2
      obtain rfl : j = 1 := by omega
      simp [demoPoly])
    (by
      intro j h1 h2
      obtain rfl : j = 1 := by omega
      simp [demoPoly]) (by norm_num) (by norm_num) (a := fun _ _ => 0) (fun p _ => by simpa using camera_ready p.1 p.2)
  exact ⟨c, c1, by simpa using c3 1 1 le_rfl le_rfl le_rfl⟩

end Batoid.Props
