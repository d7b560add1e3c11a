import Verif.Props.RoundSag
import Verif.Props.Polynomial

/-!
# Property C130: polynomial surfaces and sums, in arithmetic with rounding

Specification vocabulary: the polynomial is the double sum `polyValue`, its slopes are derivatives in the sense of analysis; `SlopeNormal` says
what the unit normal of a surface with given slopes is.
-/

namespace Batoid.Props
open Batoid Finset

section spec

/-- `n` is the upward unit normal of a surface with the slopes `P` along x and `Q` along y. -/
def SlopeNormal (P Q : ℝ) (n : V3 ℝ) : Prop := nrm n = 1 ∧ 0 < n.z ∧ n.x = -P * n.z ∧ n.y = -Q * n.z

/-- The arrays of the surface hold the coefficients `a` (row `i` at offset `i * xsize`) and the origin `(x0, y0)`. -/
structure PolyHolds {rd : ℝ → ℝ} (p : Surface.PolyData (Flt rd)) (a : ℕ → ℕ → ℝ) (x0 y0 : ℝ) : Prop where
  coefs : ∀ i < p.ysize, ∀ j < p.xsize, p.coefs (i * p.xsize + j) = Flt.fin rd (a i j)
  xorigin : p.xorigin = Flt.fin rd x0
  yorigin : p.yorigin = Flt.fin rd y0

/-- The gradient arrays, one row and one column smaller, hold the coefficients of the derivatives, up to `g` roundings. -/
structure GradHolds {rd : ℝ → ℝ} (u : ℝ) (g : ℕ) (p : Surface.PolyData (Flt rd)) (a : ℕ → ℕ → ℝ) : Prop where
  x : ∀ i < p.ysize - 1, ∀ j < p.xsize - 1, ∃ c, p.gradx (i * (p.xsize - 1) + j) = Flt.fin rd c ∧ Rel u g c ((i + 1) * a (i + 1) j)
  y : ∀ i < p.ysize - 1, ∀ j < p.xsize - 1, ∃ c, p.grady (i * (p.xsize - 1) + j) = Flt.fin rd c ∧ Rel u g c ((j + 1) * a i (j + 1))

end spec

section lemmas
variable {u : ℝ} {rd : ℝ → ℝ}

theorem SlopeNormal.upward {P Q : ℝ} {n : V3 ℝ} (h : SlopeNormal P Q n) : n = upward P Q := by
  obtain ⟨h1, h2, hx, hy⟩ := h
  have k := nrm_sq n
  rw [h1, hx, hy] at k
  have p : 0 < 1 + (P * P + Q * Q) := by nlinarith [mul_self_nonneg P, mul_self_nonneg Q]
  have e : 1 + (P * P + Q * Q) = (1 / n.z) ^ 2 := by field_simp; linarith
  have s : Real.sqrt (1 + (P * P + Q * Q)) = 1 / n.z := by rw [e, Real.sqrt_sq (by positivity)]
  ext <;> simp only [Props.upward, s, one_div_one_div]
  · exact hx
  · exact hy

theorem upward_slope (P Q : ℝ) : SlopeNormal P Q (upward P Q) := by
  refine ⟨nrm_upward _ _, ?_, rfl, rfl⟩
  have : 0 < 1 + (P * P + Q * Q) := by nlinarith [mul_self_nonneg P, mul_self_nonneg Q]
  exact one_div_pos.2 (Real.sqrt_pos.2 this)

/-- The direction of the normal moves by no more than the slopes. -/
theorem upward_close (P Q P' Q' : ℝ) : nrm (upward P' Q' - upward P Q) ≤ |P' - P| + |Q' - Q| := by
  refine nrm_le (by positivity) ?_
  have t : (P' - P) ^ 2 + (Q' - Q) ^ 2 ≤ (|P' - P| + |Q' - Q|) ^ 2 := by
    have := mul_nonneg (abs_nonneg (P' - P)) (abs_nonneg (Q' - Q))
    nlinarith [sq_abs (P' - P), sq_abs (Q' - Q)]
  refine le_trans ?_ t
  simp only [upward, V3.sub_x, V3.sub_y, V3.sub_z]
  have a0 : 1 ≤ 1 + (P * P + Q * Q) := by nlinarith [mul_self_nonneg P, mul_self_nonneg Q]
  have b0 : 1 ≤ 1 + (P' * P' + Q' * Q') := by nlinarith [mul_self_nonneg P', mul_self_nonneg Q']
  have fa := Real.sq_sqrt (zero_le_one.trans a0)
  have fb := Real.sq_sqrt (zero_le_one.trans b0)
  have sa := Real.one_le_sqrt.2 a0
  have sb := Real.one_le_sqrt.2 b0
  generalize Real.sqrt (1 + (P * P + Q * Q)) = A at *
  generalize Real.sqrt (1 + (P' * P' + Q' * Q')) = B at *
  have ap : 0 < A := by linarith
  have bp : 0 < B := by linarith
  have AB1 : 1 ≤ A * B := by nlinarith
  obtain ⟨c, hc⟩ : ∃ c, c = 1 + P * P' + Q * Q' := ⟨_, rfl⟩
  have cs : c ≤ A * B := by
    refine abs_le_of_sq_le_sq' ?_ (by positivity) |>.2
    rw [mul_pow, fa, fb, hc]
    nlinarith [sq_nonneg (P - P'), sq_nonneg (Q - Q'), sq_nonneg (P * Q' - Q * P')]
  have e : (-P' * (1 / B) - -P * (1 / A)) ^ 2 + (-Q' * (1 / B) - -Q * (1 / A)) ^ 2 + (1 / B - 1 / A) ^ 2 = 2 * (A * B - c) / (A * B) := by
    rw [hc]
    field_simp
    linear_combination (-B ^ 2) * fa - A ^ 2 * fb
  rw [e, div_le_iff₀ (by positivity)]
  have e2 : (P' - P) ^ 2 + (Q' - Q) ^ 2 = A ^ 2 + B ^ 2 - 2 * c := by rw [fa, fb, hc]; ring
  rw [e2]
  have : 2 * (A * B - c) ≤ A ^ 2 + B ^ 2 - 2 * c := by nlinarith [sq_nonneg (A - B)]
  nlinarith

/-- What `Polynomial` and `Sum` make of computed slopes. -/
theorem slopes_near (h : Rounds u rd) (h1 : rd 1 = 1) (hu : 12 * u ≤ 1) (a b : ℝ) :
    ∃ n' : V3 ℝ, (⟨Flt.fin rd a * (1 / Arith.sqrt (Flt.fin rd a * Flt.fin rd a + Flt.fin rd b * Flt.fin rd b + 1)),
      Flt.fin rd b * (1 / Arith.sqrt (Flt.fin rd a * Flt.fin rd a + Flt.fin rd b * Flt.fin rd b + 1)),
      1 / Arith.sqrt (Flt.fin rd a * Flt.fin rd a + Flt.fin rd b * Flt.fin rd b + 1)⟩ : V3 (Flt rd)) = n'.flt rd ∧
      nrm (n' - upward (-a) (-b)) ≤ 12 * u := by
  have hu0 := h.nonneg
  have hu1 : u < 1 := by linarith
  have one : (1 : Flt rd) = Flt.fin rd 1 := by rw [flt_one, h1]
  have rq := h.after hu1 ((r2_rel h hu1 a b).add hu1 ((Rel.refl 1).mono hu0 hu1 (Nat.zero_le _))
    (add_nonneg (mul_self_nonneg _) (mul_self_nonneg _)) zero_le_one)
  have qp : 0 < a * a + b * b + 1 := by nlinarith [mul_self_nonneg a, mul_self_nonneg b]
  have rs := h.after hu1 (rq.sqrt hu0 hu1 qp.le)
  have rz := h.after hu1 ((Rel.refl 1).div hu1 rs)
  have rx := fun t : ℝ => h.after hu1 ((Rel.refl t).mul hu1 rz)
  have ea : 1 + (-a * -a + -b * -b) = a * a + b * b + 1 := by ring
  refine ⟨⟨rd (a * rd (1 / rd (Real.sqrt (rd (rd (rd (a * a) + rd (b * b)) + 1))))), rd (b * rd (1 / rd (Real.sqrt (rd (rd (rd (a * a) + rd (b * b)) + 1))))),
    rd (1 / rd (Real.sqrt (rd (rd (rd (a * a) + rd (b * b)) + 1))))⟩, ?_, ?_⟩
  · rw [one, Flt.mul_fin, Flt.mul_fin, Flt.add_fin, Flt.add_fin, Flt.sqrt_fin (rq.nonneg hu1 qp.le), Flt.div_fin (rs.ne hu1 (Real.sqrt_pos.2 qp).ne'),
      Flt.mul_fin, Flt.mul_fin]
    rfl
  · have := near_of_rel hu0 hu1 (k := 6) (n := upward (-a) (-b))
      (n' := ⟨rd (a * rd (1 / rd (Real.sqrt (rd (rd (rd (a * a) + rd (b * b)) + 1))))), rd (b * rd (1 / rd (Real.sqrt (rd (rd (rd (a * a) + rd (b * b)) + 1))))),
        rd (1 / rd (Real.sqrt (rd (rd (rd (a * a) + rd (b * b)) + 1))))⟩) ?_ ?_ ?_ (by push_cast; linarith)
    · rw [nrm_upward, mul_one] at this
      push_cast at this
      linarith
    · rw [upward, ea, neg_neg]
      exact (rx a).mono hu0 hu1 (by norm_num)
    · rw [upward, ea, neg_neg b]
      exact (rx b).mono hu0 hu1 (by norm_num)
    · rw [upward, ea]
      exact rz.mono hu0 hu1 (by norm_num)

/-- Horner's rule: three more roundings for every coefficient. -/
theorem horner_err (h : Rounds u rd) (hu1 : u < 1) {X' X : ℝ} (hX : Rel u 1 X' X) (m n : ℕ) (coefs : ℕ → Flt rd) (c M : ℕ → ℝ)
    (hc : ∀ k < n, ∃ c', coefs k = Flt.fin rd c' ∧ Err u m c' (c k) (M k)) :
    ∃ z', Surface.horner (Flt.fin rd X') coefs n = Flt.fin rd z' ∧
      Err u (m + 3 * n) z' (∑ k ∈ range n, c k * X ^ k) (∑ k ∈ range n, M k * |X| ^ k) := by
  have hu0 := h.nonneg
  unfold Surface.horner
  rw [List.range_eq_range']
  have key : ∀ l s, s + l ≤ n → ∃ z', (List.range' s l).foldr (fun i res => res * Flt.fin rd X' + coefs i) 0 = Flt.fin rd z' ∧
      Err u (m + 3 * l) z' (∑ k ∈ range l, c (s + k) * X ^ k) (∑ k ∈ range l, M (s + k) * |X| ^ k) := by
    intro l
    induction l with
    | zero =>
      intro s _
      refine ⟨0, flt_zero h, ?_⟩
      have := (Err.exact (u := u) 0).mono hu0 hu1 (Nat.zero_le (m + 3 * 0))
      simpa using this
    | succ l ih =>
      intro s hs
      obtain ⟨z, e, r⟩ := ih (s + 1) (by omega)
      obtain ⟨c', ec, rc⟩ := hc s (by omega)
      refine ⟨rd (rd (z * X') + c'), ?_, ?_⟩
      · rw [List.range'_succ, List.foldr_cons, e, ec, Flt.mul_fin, Flt.add_fin]
      · have := h.errAdd hu1 (h.errMul hu1 r (hX.err hu0 hu1)) (rc.mono hu0 hu1 (l := m + 3 * l + 1 + 1) (by omega))
        rw [show m + 3 * (l + 1) = m + 3 * l + 1 + 1 + 1 by ring, sum_range_succ', sum_range_succ']
        simp only [add_zero, pow_zero, mul_one]
        rw [sum_mul, sum_mul] at this
        convert this using 2
        · refine sum_congr rfl fun k _ => ?_
          rw [show s + (k + 1) = s + 1 + k by ring, pow_succ]; ring
        · refine sum_congr rfl fun k _ => ?_
          rw [show s + (k + 1) = s + 1 + k by ring, pow_succ]; ring
  obtain ⟨z', e, r⟩ := key n 0 (by omega)
  exact ⟨z', e, by simpa using r⟩

/-- Twice. -/
theorem horner2d_err (h : Rounds u rd) (hu1 : u < 1) {X' X Y' Y : ℝ} (hX : Rel u 1 X' X) (hY : Rel u 1 Y' Y) (g nx ny : ℕ) (coefs : ℕ → Flt rd)
    (a : ℕ → ℕ → ℝ) (hc : ∀ i < ny, ∀ j < nx, ∃ c', coefs (i * nx + j) = Flt.fin rd c' ∧ Rel u g c' (a i j)) :
    ∃ z', Surface.horner2d (Flt.fin rd X') (Flt.fin rd Y') coefs nx ny = Flt.fin rd z' ∧
      Err u (g + 3 * nx + 3 * ny) z' (polyValue a ny nx X Y) (polyValue (fun i j => |a i j|) ny nx |X| |Y|) := by
  have hu0 := h.nonneg
  obtain ⟨z', e, r⟩ := horner_err h hu1 hX (g + 3 * nx) ny (fun i => Surface.horner (Flt.fin rd Y') (fun j => coefs (i * nx + j)) nx)
    (fun i => ∑ j ∈ range nx, a i j * Y ^ j) (fun i => ∑ j ∈ range nx, |a i j| * |Y| ^ j) fun i hi =>
      horner_err h hu1 hY g nx _ (fun j => a i j) (fun j => |a i j|) fun j hj => by
        obtain ⟨c', e, r⟩ := hc i hi j hj
        exact ⟨c', e, r.err hu0 hu1⟩
  refine ⟨z', e, ?_⟩
  unfold polyValue
  convert r using 2
  all_goals
    rw [sum_mul]
    exact sum_congr rfl fun j _ => by ring

end lemmas

section c130
variable {u : ℝ} {rd : ℝ → ℝ} {x y x0 y0 : ℝ} {n : V3 ℝ}

/-- **C130** (`Zernike` and other polynomial surfaces, sag).  The error is a small part of the sum of the sizes of the terms. -/
theorem C130_polynomial_sag (h : Rounds u rd) (hu : u ≤ 1 / 1000) {p : Surface.PolyData (Flt rd)} {a : ℕ → ℕ → ℝ} (ha : PolyHolds p a x0 y0)
    (hd : (6 * p.xsize + 6 * p.ysize) * u ≤ 1) :
    SagWithin rd (.polynomial p) x y (polyValue a p.ysize p.xsize (x - x0) (y - y0))
      ((6 * p.xsize + 6 * p.ysize) * u * polyValue (fun i j => |a i j|) p.ysize p.xsize |x - x0| |y - y0|) := by
  have hu0 := h.nonneg
  have hu1 : u < 1 := by linarith
  obtain ⟨z', e, r⟩ := horner2d_err h hu1 (h.rel hu1 (x - x0)) (h.rel hu1 (y - y0)) 0 p.xsize p.ysize p.coefs a fun i hi j hj =>
    ⟨_, ha.coefs i hi j hj, Rel.refl _⟩
  refine ⟨z', ?_, ?_⟩
  · show Surface.polySag _ _ _ = _
    rw [Surface.polySag, ha.xorigin, ha.yorigin, Flt.sub_fin, Flt.sub_fin, e]
  · have := r.close hu0 hu1 (6 * p.xsize + 6 * p.ysize) (by push_cast; linarith) hd
    exact this

/-- **C130** (`Zernike` and other polynomial surfaces, normal).  `P` and `Q` are the slopes of the polynomial at the point. -/
theorem C130_polynomial_normal (h : Rounds u rd) (h1 : rd 1 = 1) (hu : u ≤ 1 / 1000) {p : Surface.PolyData (Flt rd)} {a : ℕ → ℕ → ℝ} {g : ℕ}
    (ha : PolyHolds p a x0 y0) (hg : GradHolds u g p a) (hl : NoLostTerms a p.ysize p.xsize)
    (hd : (2 * g + 6 * p.xsize + 6 * p.ysize) * u ≤ 1) {P Q : ℝ}
    (hP : HasDerivAt (fun t => polyValue a p.ysize p.xsize (t - x0) (y - y0)) P x)
    (hQ : HasDerivAt (fun t => polyValue a p.ysize p.xsize (x - x0) (t - y0)) Q y) (hn : SlopeNormal P Q n) :
    NormalWithin rd (.polynomial p) x y n (12 * u + (2 * g + 6 * p.xsize + 6 * p.ysize) * u *
      (polyValue (fun i j => |(i + 1) * a (i + 1) j|) (p.ysize - 1) (p.xsize - 1) |x - x0| |y - y0| +
        polyValue (fun i j => |(j + 1) * a i (j + 1)|) (p.ysize - 1) (p.xsize - 1) |x - x0| |y - y0|)) := by
  have hu0 := h.nonneg
  have hu1 : u < 1 := by linarith
  have eP : P = polyValue (fun i j => (i + 1) * a (i + 1) j) (p.ysize - 1) (p.xsize - 1) (x - x0) (y - y0) := by
    have hs : HasDerivAt (fun u : ℝ => u - x0) 1 x := HasDerivAt.sub_const x0 (hasDerivAt_id' x)
    have d := (HasDerivAt.comp x (h₂ := fun u => polyValue a p.ysize p.xsize u (y - y0)) (h := fun u => u - x0)
      (deriv_x a p.ysize p.xsize (x - x0) (y - y0)) hs).congr_deriv (mul_one _)
    rw [polyValue_drop_col _ _ _ _ _ fun i hi => by rw [hl.x i (by omega), mul_zero]]
    exact hP.unique d
  have eQ : Q = polyValue (fun i j => (j + 1) * a i (j + 1)) (p.ysize - 1) (p.xsize - 1) (x - x0) (y - y0) := by
    have hs : HasDerivAt (fun u : ℝ => u - y0) 1 y := HasDerivAt.sub_const y0 (hasDerivAt_id' y)
    have d := (HasDerivAt.comp y (h₂ := fun u => polyValue a p.ysize p.xsize (x - x0) u) (h := fun u => u - y0)
      (deriv_y a p.ysize p.xsize (x - x0) (y - y0)) hs).congr_deriv (mul_one _)
    rw [polyValue_drop_row _ _ _ _ _ fun j hj => by rw [hl.y j (by omega), mul_zero]]
    exact hQ.unique d
  obtain ⟨a', ea, ra⟩ := horner2d_err h hu1 (h.rel hu1 (x - x0)) (h.rel hu1 (y - y0)) g (p.xsize - 1) (p.ysize - 1) p.gradx
    (fun i j => (i + 1) * a (i + 1) j) hg.x
  obtain ⟨b', eb, rb⟩ := horner2d_err h hu1 (h.rel hu1 (x - x0)) (h.rel hu1 (y - y0)) g (p.xsize - 1) (p.ysize - 1) p.grady
    (fun i j => (j + 1) * a i (j + 1)) hg.y
  have hK : 2 * ((g + 3 * (p.xsize - 1) + 3 * (p.ysize - 1) : ℕ) : ℝ) ≤ 2 * g + 6 * p.xsize + 6 * p.ysize := by
    have : 2 * (g + 3 * (p.xsize - 1) + 3 * (p.ysize - 1)) ≤ 2 * g + 6 * p.xsize + 6 * p.ysize := by omega
    exact_mod_cast this
  have ca := ra.close hu0 hu1 _ hK hd
  have cb := rb.close hu0 hu1 _ hK hd
  rw [← eP] at ca
  rw [← eQ] at cb
  obtain ⟨n', en, hn'⟩ := slopes_near h h1 (by linarith) (-a') (-b')
  refine ⟨n', ?_, ?_⟩
  · show Surface.polyNormal _ _ _ = _
    rw [← en, Surface.polyNormal, ha.xorigin, ha.yorigin, Flt.sub_fin, Flt.sub_fin, ea, eb, Flt.neg_fin, Flt.neg_fin]
  · rw [neg_neg, neg_neg] at hn'
    have up := upward_close P Q a' b'
    rw [hn.upward]
    have t := nrm_via n' (upward a' b') (upward P Q)
    linarith

/-- The slope read off a normal: it is accurate if the surface is not too steep. -/
theorem slope_read {P Q ε G : ℝ} {n n' : V3 ℝ} (hn : SlopeNormal P Q n) (hG : 1 ≤ G * n.z) (h : nrm (n' - n) ≤ ε) (hε : 2 * (G * ε) ≤ 1) :
    n'.z ≠ 0 ∧ |n'.x / n'.z - -P| ≤ 4 * G ^ 2 * ε ∧ |n'.y / n'.z - -Q| ≤ 4 * G ^ 2 * ε ∧ |P| ≤ G ∧ |Q| ≤ G := by
  obtain ⟨h1, hz, hx, hy⟩ := hn
  have e0 : 0 ≤ ε := (nrm_nonneg _).trans h
  have sq := nrm_sq n
  rw [h1] at sq
  have z1 : n.z ≤ 1 := by nlinarith [sq_nonneg n.x, sq_nonneg n.y]
  have G1 : 1 ≤ G := by nlinarith
  have dx := (abs_coord_le (n' - n)).1.trans h
  have dy := (abs_coord_le (n' - n)).2.1.trans h
  have dz := (abs_coord_le (n' - n)).2.2.trans h
  simp only [V3.sub_x, V3.sub_y, V3.sub_z] at dx dy dz
  have nz' : 1 ≤ 2 * G * n'.z := by
    have := (abs_le.1 dz).1
    nlinarith
  have zp : 0 < n'.z := by
    by_contra hc
    nlinarith
  have sl : ∀ p c : ℝ, c = -p * n.z → c ^ 2 ≤ 1 → |p| ≤ G := by
    intro p c hc h2
    have a1 : |c| ≤ 1 := abs_le_one_iff_mul_self_le_one.2 (by nlinarith)
    rw [hc, abs_mul, abs_neg, abs_of_pos hz] at a1
    have : |p| * 1 ≤ |p| * (G * n.z) := mul_le_mul_of_nonneg_left hG (abs_nonneg p)
    nlinarith
  have key : ∀ p c c' : ℝ, c = -p * n.z → |p| ≤ G → |c' - c| ≤ ε → |c' / n'.z - -p| ≤ 4 * G ^ 2 * ε := by
    intro p c c' hc hp hd
    have e : c' / n'.z - -p = ((c' - c) + p * (n'.z - n.z)) / n'.z := by rw [hc]; field_simp; ring
    rw [e, abs_div, abs_of_pos zp, div_le_iff₀ zp]
    have := abs_add_le (c' - c) (p * (n'.z - n.z))
    rw [abs_mul] at this
    have m := mul_le_mul hp dz (abs_nonneg _) (by linarith)
    have q : (1 + G) * ε ≤ 2 * G * ε := mul_le_mul_of_nonneg_right (by linarith) e0
    have q2 : 2 * G * ε * 1 ≤ 2 * G * ε * (2 * G * n'.z) := mul_le_mul_of_nonneg_left nz' (by positivity)
    nlinarith
  have px := sl P n.x hx (by nlinarith [sq_nonneg n.y, sq_nonneg n.z])
  have py := sl Q n.y hy (by nlinarith [sq_nonneg n.x, sq_nonneg n.z])
  exact ⟨zp.ne', key P n.x n'.x hx px dx, key Q n.y n'.y hy py dy, px, py⟩

/-- A running sum of slopes in arithmetic with rounding. -/
theorem slope_step (h : Rounds u rd) {k : ℕ} {D δ B res res' t t' : ℝ} (hD : δ + u * (B + 1) ≤ D) (hδ : 0 ≤ δ) (hr : |res' - res| ≤ k * D * (1 + u) ^ k)
    (ht : |t' - t| ≤ δ) (hB : |res + t| ≤ B) : |rd (res' + t') - (res + t)| ≤ (k + 1 : ℕ) * D * (1 + u) ^ (k + 1) := by
  have hu0 := h.nonneg
  have e := h.err (res' + t')
  have d : |res' + t' - (res + t)| ≤ k * D * (1 + u) ^ k + δ := by
    rw [show res' + t' - (res + t) = (res' - res) + (t' - t) by ring]
    exact (abs_add_le _ _).trans (by linarith)
  have sz : |res' + t'| ≤ k * D * (1 + u) ^ k + δ + B := by
    have := abs_add_le (res' + t' - (res + t)) (res + t)
    rw [sub_add_cancel] at this
    linarith
  have t1 := abs_add_le (rd (res' + t') - (res' + t')) (res' + t' - (res + t))
  rw [sub_add_sub_cancel] at t1
  have m := mul_le_mul_of_nonneg_left sz hu0
  have B0 : 0 ≤ B := (abs_nonneg _).trans hB
  have D0 : 0 ≤ D := by nlinarith [mul_nonneg hu0 B0]
  have one : 1 ≤ (1 + u) ^ k := one_le_pow₀ (by linarith)
  have p1 : (1 + u) * δ + u * B ≤ (1 + u) * D := by nlinarith [mul_nonneg hu0 B0, mul_nonneg hu0 hu0, mul_nonneg (mul_nonneg hu0 hu0) B0]
  have p2 : (1 + u) * D * 1 ≤ (1 + u) * D * (1 + u) ^ k := mul_le_mul_of_nonneg_left one (by positivity)
  rw [pow_succ]
  push_cast
  nlinarith

end c130
section c130b
variable {u : ℝ} {rd : ℝ → ℝ} {x y x0 y0 : ℝ} {n : V3 ℝ}

/-- A part of a sum: the surface, its slopes at the point, and its normal there. -/
structure SumPart (rd : ℝ → ℝ) where
  surface : Surface (Flt rd)
  P : ℝ
  Q : ℝ
  n : V3 ℝ

/-- **C130** (`Sum`, normal).  Slopes add; the error grows with the square of the steepness `G` of the parts. -/
theorem C130_sum_normal (h : Rounds u rd) (h1 : rd 1 = 1) (hu : u ≤ 1 / 1000) (parts : List (SumPart rd)) {ε G : ℝ} (hε : 0 ≤ ε)
    (hG : 2 * (G * ε) ≤ 1) (hm : parts.length * u ≤ 1 / 2)
    (hp : ∀ p ∈ parts, NormalWithin rd p.surface x y p.n ε ∧ SlopeNormal p.P p.Q p.n ∧ 1 ≤ G * p.n.z)
    (hn : SlopeNormal (parts.map SumPart.P).sum (parts.map SumPart.Q).sum n) :
    NormalWithin rd (.sum (parts.map SumPart.surface)) x y n
      (12 * u + 4 * parts.length * (5 * G ^ 2 * ε + u * (parts.length * G + G + 1))) := by
  have hu0 := h.nonneg
  have main : ∀ (ps : List (SumPart rd)) (k : ℕ) (a b a' b' : ℝ), k + ps.length = parts.length →
      (∀ p ∈ ps, NormalWithin rd p.surface x y p.n ε ∧ SlopeNormal p.P p.Q p.n ∧ 1 ≤ G * p.n.z) → |a| ≤ k * G → |b| ≤ k * G →
      |a' - -a| ≤ k * (5 * G ^ 2 * ε + u * (parts.length * G + G + 1)) * (1 + u) ^ k →
      |b' - -b| ≤ k * (5 * G ^ 2 * ε + u * (parts.length * G + G + 1)) * (1 + u) ^ k →
      ∃ p q, (ps.map SumPart.surface).foldl (fun (acc : Flt rd × Flt rd) s =>
        (acc.1 + (s.normal (Flt.fin rd x) (Flt.fin rd y)).x / (s.normal (Flt.fin rd x) (Flt.fin rd y)).z,
          acc.2 + (s.normal (Flt.fin rd x) (Flt.fin rd y)).y / (s.normal (Flt.fin rd x) (Flt.fin rd y)).z))
          (Flt.fin rd a', Flt.fin rd b') = (Flt.fin rd p, Flt.fin rd q) ∧
        |p - -(a + (ps.map SumPart.P).sum)| ≤ parts.length * (5 * G ^ 2 * ε + u * (parts.length * G + G + 1)) * (1 + u) ^ parts.length ∧
        |q - -(b + (ps.map SumPart.Q).sum)| ≤ parts.length * (5 * G ^ 2 * ε + u * (parts.length * G + G + 1)) * (1 + u) ^ parts.length := by
    intro ps
    induction ps with
    | nil =>
      intro k a b a' b' hk _ _ _ ha hb
      simp only [List.length_nil, add_zero] at hk
      subst hk
      exact ⟨a', b', rfl, by simpa using ha, by simpa using hb⟩
    | cons p ps ih =>
      intro k a b a' b' hk hps ha hb ha' hb'
      obtain ⟨⟨n', en, hn'⟩, sn, gz⟩ := hps p List.mem_cons_self
      obtain ⟨nz, sx, sy, px, py⟩ := slope_read sn gz hn' hG
      have G0 : 0 ≤ G := (abs_nonneg _).trans px
      have kl : (k + 1 : ℝ) ≤ parts.length := by
        rw [List.length_cons] at hk
        exact_mod_cast (by omega : k + 1 ≤ parts.length)
      have kG : (k + 1 : ℝ) * G ≤ parts.length * G := mul_le_mul_of_nonneg_right kl G0
      have part : ∀ c s : ℝ, |c - -s| ≤ 4 * G ^ 2 * ε → |s| ≤ G → |rd c - -s| ≤ 5 * G ^ 2 * ε + u * G := by
        intro c s h2 h3
        have e := h.err c
        have sz := abs_add_le (c - -s) (-s)
        rw [sub_add_cancel, abs_neg] at sz
        have t := abs_add_le (rd c - c) (c - -s)
        rw [sub_add_sub_cancel] at t
        have m := mul_le_mul_of_nonneg_left (sz.trans (add_le_add h2 h3)) hu0
        have m2 : u * (4 * G ^ 2 * ε) ≤ 1 / 1000 * (4 * G ^ 2 * ε) := mul_le_mul_of_nonneg_right hu (by positivity)
        have m3 : 0 ≤ G ^ 2 * ε := by positivity
        linarith
      have stp : ∀ s t v' w : ℝ, |s| ≤ k * G → |t| ≤ G → |v' - -s| ≤ k * (5 * G ^ 2 * ε + u * (parts.length * G + G + 1)) * (1 + u) ^ k →
          |w - -t| ≤ 5 * G ^ 2 * ε + u * G →
          |rd (v' + w) - -(s + t)| ≤ (k + 1 : ℕ) * (5 * G ^ 2 * ε + u * (parts.length * G + G + 1)) * (1 + u) ^ (k + 1) := by
        intro s t v' w h2 h3 h4 h5
        have := slope_step h (D := 5 * G ^ 2 * ε + u * (parts.length * G + G + 1)) (B := parts.length * G) (δ := 5 * G ^ 2 * ε + u * G)
          (le_of_eq (by ring)) (by positivity) h4 h5 (by
            rw [← neg_add, abs_neg]
            exact (abs_add_le _ _).trans (by linarith))
        rwa [← neg_add] at this
      obtain ⟨p', q', e, h6, h7⟩ := ih (k + 1) (a + p.P) (b + p.Q) (rd (a' + rd (n'.x / n'.z))) (rd (b' + rd (n'.y / n'.z)))
        (by rw [List.length_cons] at hk; omega) (fun q hq => hps q (List.mem_cons_of_mem _ hq))
        (by push_cast; exact (abs_add_le _ _).trans (by linarith)) (by push_cast; exact (abs_add_le _ _).trans (by linarith))
        (stp a p.P a' _ ha px ha' (part _ _ sx px)) (stp b p.Q b' _ hb py hb' (part _ _ sy py))
      refine ⟨p', q', ?_, ?_, ?_⟩
      · rw [List.map_cons, List.foldl_cons, en]
        simp only [V3.flt, V3.map]
        rw [Flt.div_fin nz, Flt.div_fin nz, Flt.add_fin, Flt.add_fin]
        exact e
      · rw [List.map_cons, List.sum_cons, ← add_assoc]; exact h6
      · rw [List.map_cons, List.sum_cons, ← add_assoc]; exact h7
  obtain ⟨a, b, e, ha, hb⟩ := main parts 0 0 0 0 0 (by simp) hp (by simp) (by simp) (by simp) (by simp)
  rw [zero_add] at ha hb
  have D0 : 0 ≤ parts.length * (5 * G ^ 2 * ε + u * (parts.length * G + G + 1)) := by
    rcases parts with - | ⟨p, ps⟩
    · simp
    · have gz := (hp p List.mem_cons_self).2.2
      have := (hp p List.mem_cons_self).2.1.2.1
      have : 0 ≤ G := by by_contra hc; nlinarith
      positivity
  have two : (1 + u) ^ parts.length ≤ 2 := by
    have b1 := one_add_mul_le_pow (a := -u) (by linarith) parts.length
    have b2 : ((1 + u) * (1 + -u)) ^ parts.length ≤ 1 := pow_le_one₀ (by nlinarith) (by nlinarith)
    rw [mul_pow] at b2
    have b0 : 0 ≤ (1 + u) ^ parts.length := by positivity
    nlinarith
  have m := mul_le_mul_of_nonneg_left two D0
  obtain ⟨n', en, hn'⟩ := slopes_near h h1 (by linarith) a b
  refine ⟨n', ?_, ?_⟩
  · show Surface.sumNormal _ _ _ = _
    rw [← en]
    unfold Surface.sumNormal
    simp only [flt_zero h] at e ⊢
    rw [e]
  · rw [hn.upward]
    have up := upward_close (parts.map SumPart.P).sum (parts.map SumPart.Q).sum (-a) (-b)
    rw [show -a - (parts.map SumPart.P).sum = -(a - -(parts.map SumPart.P).sum) by ring, abs_neg,
      show -b - (parts.map SumPart.Q).sum = -(b - -(parts.map SumPart.Q).sum) by ring, abs_neg] at up
    have t := nrm_via n' (upward (-a) (-b)) (upward (parts.map SumPart.P).sum (parts.map SumPart.Q).sum)
    linarith

end c130b
section c130
variable {u : ℝ} {rd : ℝ → ℝ} {x y x0 y0 : ℝ} {n : V3 ℝ}

/-- **C130** (landing).  Rays meet aspheres, polynomial surfaces and sums at points of the true surface: within the tolerance of the iteration
and the error of the sag, which `C125_asphere_sag`, `C130_polynomial_sag` and `C125_sum_sag` bound. -/
theorem C130_lands (h : Rounds u rd) (hu : u ≤ 1 / 1000) {s : Surface (Flt rd)} (hs : Iterated s) (ct : CoordTransform (Flt rd))
    (c : Option (Coating (Flt rd))) (niter : ℕ) (ray : Ray (Flt rd)) (hf : ray.failed = false) {r v q : V3 ℝ}
    (hr : ct.forward ray.r = r.flt rd) (hv : ct.forwardVel ray.v = v.flt rd)
    (hok : (ray.intersect s ct c niter).failed = false) (hq : (ray.intersect s ct c niter).r = q.flt rd) {z e : ℝ}
    (hz : SagWithin rd s q.x q.y z e) : |q.z - z| ≤ (1 + 3 * u) / 10 ^ 12 + e := by
  obtain ⟨z1, e1, h1⟩ := C118_iterated h hu hs ct c niter ray hf hr hv hok hq
  obtain ⟨z2, e2, h2⟩ := hz
  rw [e1] at e2
  have : z1 = z2 := Flt.fin_inj.1 e2
  subst this
  have := abs_add_le (q.z - z1) (z1 - z)
  rw [sub_add_sub_cancel] at this
  linarith

/-- **C130** (mirrors of polynomial shape).  Light leaves along the mirror image of the arriving direction in the true tangent plane. -/
theorem C130_polynomial_reflect (h : Rounds u rd) (h1 : rd 1 = 1) (hu : u ≤ 1 / 1000) {p : Surface.PolyData (Flt rd)} {a : ℕ → ℕ → ℝ} {g : ℕ}
    (ha : PolyHolds p a x0 y0) (hg : GradHolds u g p a) (hl : NoLostTerms a p.ysize p.xsize)
    (hd : (2 * g + 6 * p.xsize + 6 * p.ysize) * u ≤ 1) (ct : CoordTransform (Flt rd)) (co : Option (Coating (Flt rd))) (niter : ℕ)
    (ray : Ray (Flt rd)) {w : V3 ℝ} (hw : (ray.reflect (.polynomial p) ct co niter).v = w.flt rd)
    (hok : (ray.reflect (.polynomial p) ct co niter).failed = false)
    (hx : (ray.reflect (.polynomial p) ct co niter).r.x = Flt.fin rd x) (hy : (ray.reflect (.polynomial p) ct co niter).r.y = Flt.fin rd y)
    {P Q e : ℝ} (hP : HasDerivAt (fun t => polyValue a p.ysize p.xsize (t - x0) (y - y0)) P x)
    (hQ : HasDerivAt (fun t => polyValue a p.ysize p.xsize (x - x0) (t - y0)) Q y) (hn : SlopeNormal P Q n)
    (he : 12 * u + (2 * g + 6 * p.xsize + 6 * p.ysize) * u *
      (polyValue (fun i j => |(i + 1) * a (i + 1) j|) (p.ysize - 1) (p.xsize - 1) |x - x0| |y - y0| +
        polyValue (fun i j => |(j + 1) * a i (j + 1)|) (p.ysize - 1) (p.xsize - 1) |x - x0| |y - y0|) ≤ e) (he1 : e ≤ 1 / 10) :
    ∃ v : V3 ℝ, ct.forwardVel ray.v = v.flt rd ∧ nrm (w - mirrorImage n v) ≤ (114 * u + 11 * e) * nrm v := by
  obtain ⟨n', e1, e2⟩ := C130_polynomial_normal h h1 hu ha hg hl hd hP hQ hn
  obtain ⟨v, hv, hb⟩ := C125_reflect h hu (C114_polynomial h hu p) (by linarith) ct co niter ray hw hok hx hy ⟨n', e1, e2.trans he⟩ hn.1 he1
  exact ⟨v, hv, by rwa [show 30 * u + 3 * (28 * u) + 11 * e = 114 * u + 11 * e by ring] at hb⟩

end c130

/-! ## Concrete cases -/

section cases53

/-- `z = x² + y²` as a polynomial surface, arrays of shape `3 x 3`. -/
noncomputable def bowlData : Surface.PolyData (Flt rd53) :=
  ⟨fun k => Flt.fin rd53 (if k = 2 ∨ k = 6 then 1 else 0), fun k => Flt.fin rd53 (if k = 2 then 2 else 0), fun k => Flt.fin rd53 (if k = 1 then 2 else 0),
    Flt.fin rd53 0, Flt.fin rd53 0, 3, 3⟩
/-- Its coefficients. -/
noncomputable def bowlCoefs (i j : ℕ) : ℝ := if i = 2 ∧ j = 0 ∨ i = 0 ∧ j = 2 then 1 else 0

theorem bowl_holds : PolyHolds bowlData bowlCoefs 0 0 := by
  refine ⟨?_, rfl, rfl⟩
  intro i hi j hj
  simp only [bowlData] at hi hj
  interval_cases i <;> interval_cases j <;> simp [bowlData, bowlCoefs]
theorem bowl_grads : GradHolds (2 ^ (-53 : ℤ)) 0 bowlData bowlCoefs := by
  constructor
  all_goals
    intro i hi j hj
    simp only [bowlData] at hi hj
    refine ⟨_, rfl, ?_⟩
    have : ∀ p q : ℝ, p = q → Rel (2 ^ (-53 : ℤ)) 0 p q := fun p q e => e ▸ Rel.refl p
    apply this
    interval_cases i <;> interval_cases j <;> norm_num [bowlData, bowlCoefs]
theorem bowl_full : NoLostTerms bowlCoefs 3 3 := by
  constructor
  · intro i hi; simp [bowlCoefs]
  · intro j hj; simp [bowlCoefs]
theorem bowl_value (x y : ℝ) : polyValue bowlCoefs 3 3 x y = x ^ 2 + y ^ 2 := by
  simp [polyValue, bowlCoefs, sum_range_succ]; ring

/-- The sag of `z = x² + y²` in double precision. -/
example (x y : ℝ) : SagWithin rd53 (.polynomial bowlData) x y (x ^ 2 + y ^ 2) (36 * 2 ^ (-53 : ℤ) * (x ^ 2 + y ^ 2)) := by
  have := C130_polynomial_sag (x := x) (y := y) rd53_rounds (by norm_num) bowl_holds (by norm_num [bowlData])
  rw [show bowlData.xsize = 3 from rfl, show bowlData.ysize = 3 from rfl, sub_zero, sub_zero, bowl_value] at this
  have e : polyValue (fun i j => |bowlCoefs i j|) 3 3 |x| |y| = x ^ 2 + y ^ 2 := by
    simp [polyValue, bowlCoefs, sum_range_succ]; ring
  rw [e] at this
  norm_num at this ⊢
  exact this

theorem bowl_normal (x y : ℝ) : NormalWithin rd53 (.polynomial bowlData) x y (upward (2 * x) (2 * y)) ((12 + 72 * (|x| + |y|)) * 2 ^ (-53 : ℤ)) := by
  have d : ∀ c t : ℝ, HasDerivAt (fun t : ℝ => t ^ 2 + c) (2 * t) t := fun c t => by
    simpa using (hasDerivAt_pow 2 t).add_const c
  have sn := upward_slope (2 * x) (2 * y)
  have := C130_polynomial_normal (x := x) (y := y) rd53_rounds rd53_one (by norm_num) bowl_holds bowl_grads bowl_full (by norm_num [bowlData])
    (P := 2 * x) (Q := 2 * y)
    (by
      rw [show bowlData.xsize = 3 from rfl, show bowlData.ysize = 3 from rfl]
      simp only [bowl_value, sub_zero]
      exact d _ x)
    (by
      rw [show bowlData.xsize = 3 from rfl, show bowlData.ysize = 3 from rfl]
      simp only [bowl_value, sub_zero]
      have := d (x ^ 2) y
      simpa only [add_comm] using this) sn
  rw [show bowlData.xsize = 3 from rfl, show bowlData.ysize = 3 from rfl, sub_zero, sub_zero] at this
  have e : polyValue (fun i j => |(i + 1) * bowlCoefs (i + 1) j|) (3 - 1) (3 - 1) |x| |y| = 2 * |x| := by
    norm_num [polyValue, bowlCoefs, sum_range_succ]
  have e' : polyValue (fun i j => |(j + 1) * bowlCoefs i (j + 1)|) (3 - 1) (3 - 1) |x| |y| = 2 * |y| := by
    norm_num [polyValue, bowlCoefs, sum_range_succ]
  rw [e, e'] at this
  obtain ⟨n', h1, h2⟩ := this
  refine ⟨n', h1, h2.trans (le_of_eq ?_)⟩
  push_cast
  ring

/-- The sum of the surface with itself has the normal of `z = 2 x² + 2 y²`. -/
example : NormalWithin rd53 (.sum [.polynomial bowlData, .polynomial bowlData]) 1 0 (upward 4 0) (31000 * 2 ^ (-53 : ℤ)) := by
  have b := bowl_normal 1 0
  norm_num at b
  have sn := fun p : ℝ => upward_slope p 0
  have z : 1 ≤ 3 * (upward 2 0).z := by
    simp only [upward]
    rw [mul_one_div, le_div_iff₀ (by positivity), one_mul, Real.sqrt_le_left (by norm_num)]
    norm_num
  have := C130_sum_normal (x := 1) (y := 0) (n := upward 4 0) (u := 2 ^ (-53 : ℤ)) rd53_rounds rd53_one (by norm_num)
    [⟨.polynomial bowlData, 2, 0, upward 2 0⟩, ⟨.polynomial bowlData, 2, 0, upward 2 0⟩] (ε := 84 * 2 ^ (-53 : ℤ)) (G := 3) (by norm_num) (by norm_num)
    (by norm_num) (by
      intro p hp
      have : p = ⟨.polynomial bowlData, 2, 0, upward 2 0⟩ := by simpa using hp
      subst this
      refine ⟨?_, sn 2, z⟩
      norm_num
      exact b) (by
      have := sn 4
      norm_num
      exact this)
  obtain ⟨n', h1, h2⟩ := this
  refine ⟨n', h1, h2.trans ?_⟩
  norm_num

/-- A ray upwards lands on the vertex. -/
example : |(0 : ℝ) - 0| ≤ (1 + 3 * 2 ^ (-53 : ℤ)) / 10 ^ 12 + 0 := by
  have h0 := rd53_rounds.zero
  have i1 := rd53_one
  have i2 : rd53 2 = 2 := by exact_mod_cast rd53_nat 2 (by norm_num)
  have one : (1 : Flt rd53) = Flt.fin rd53 1 := by rw [flt_one, i1]
  have zero := flt_zero rd53_rounds
  have sg : Surface.polySag bowlData (Flt.fin rd53 0) (Flt.fin rd53 0) = Flt.fin rd53 0 := by
    simp [Surface.polySag, Surface.horner2d, Surface.horner, bowlData, List.range_succ, zero, h0]
  have nm : Surface.polyNormal bowlData (Flt.fin rd53 0) (Flt.fin rd53 0) = V3.flt rd53 ⟨0, 0, 1⟩ := by
    have s1 : Arith.sqrt (Flt.fin rd53 1) = Flt.fin rd53 1 := by rw [Flt.sqrt_fin (by norm_num), Real.sqrt_one, i1]
    have d1 : Flt.fin rd53 1 / Flt.fin rd53 1 = Flt.fin rd53 1 := by rw [Flt.div_fin (by norm_num)]; norm_num [i1]
    simp [Surface.polyNormal, Surface.horner2d, Surface.horner, bowlData, List.range_succ, zero, one, h0, i1, s1, d1, V3.flt, V3.map]
  have st : Surface.newtonStep (Surface.polySag bowlData) (Surface.polyNormal bowlData) (V3.flt rd53 ⟨0, 0, -2⟩) (V3.flt rd53 ⟨0, 0, 1⟩) 0 = Flt.fin rd53 2 := by
    have d1 : Flt.fin rd53 2 / Flt.fin rd53 1 = Flt.fin rd53 2 := by rw [Flt.div_fin (by norm_num)]; norm_num [i2]
    have j2 : rd53 (-2) = -2 := by exact_mod_cast rd53_negNat 2 (by norm_num)
    have e : V3.flt rd53 ⟨0, 0, -2⟩ + (V3.flt rd53 ⟨0, 0, 1⟩).smulR 0 = V3.flt rd53 ⟨0, 0, -2⟩ := by
      ext <;> simp [V3.flt, V3.map, V3.smulR, zero, h0, j2]
    unfold Surface.newtonStep
    simp only [e]
    simp [V3.flt, V3.map, V3.dot] at sg nm ⊢
    simp [sg, nm, h0, i1, i2, d1]
  have hu : V3.flt rd53 ⟨0, 0, -2⟩ + (V3.flt rd53 ⟨0, 0, 1⟩).smulR (Flt.fin rd53 2) = V3.flt rd53 ⟨0, 0, 0⟩ := by
    ext <;> simp [V3.flt, V3.map, V3.smulR, h0, i2]
  have ht : (Surface.polynomial bowlData).timeToIntersect (V3.flt rd53 ⟨0, 0, -2⟩) (V3.flt rd53 ⟨0, 0, 1⟩) 0 1 = (true, Flt.fin rd53 2) := by
    change Surface.newton _ _ _ _ _ _ = _
    unfold Surface.newton
    simp only [Surface.newtonIter, st, hu, Prod.mk.injEq, and_true]
    change Arith.lt (Arith.abs (Surface.polySag bowlData (Flt.fin rd53 0) (Flt.fin rd53 0) - Flt.fin rd53 0)) _ = true
    have e : (Arith.const (1 / 10 ^ 12) : Flt rd53) = Flt.fin rd53 (rd53 ((1 / 10 ^ 12 : ℚ) : ℝ)) := rfl
    rw [sg, e, Flt.sub_fin, Flt.abs_fin, Flt.lt_fin, decide_eq_true_iff, sub_zero, h0, abs_zero]
    have k := (abs_le.1 (rd53_rounds.err ((1 / 10 ^ 12 : ℚ) : ℝ))).1
    norm_num [abs_of_pos] at k ⊢
    linarith
  have f := hereT_forward 0 0 (-2) (by norm_num) (by norm_num) (by norm_num)
  have g := hereT_forward 0 0 1 (by norm_num) (by norm_num) (by norm_num)
  push_cast at f g
  have e : (upRay ⟨0, 0, -2⟩).intersect (.polynomial bowlData) hereT none 1 = { upRay ⟨0, 0, -2⟩ with r := V3.flt rd53 ⟨0, 0, 0⟩, t := 0 + Flt.fin rd53 2 } := by
    unfold Ray.intersect
    simp only [upRay, f.1, g.2, ht, Bool.false_eq_true, if_false, hu]
  exact C130_lands (z := 0) (e := 0) (q := ⟨0, 0, 0⟩) rd53_rounds (by norm_num) (iterated_polynomial bowlData) hereT none 1 (upRay ⟨0, 0, -2⟩) rfl f.1 g.2
    (by rw [e]; rfl) (by rw [e]) ⟨0, sg, by norm_num⟩

end cases53
end Batoid.Props
