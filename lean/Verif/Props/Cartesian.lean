import Verif.Props.Straight
import Verif.Props.Stigmatic

/-!
# Property C122: faces that image one point sharply

A face between media of index `n1` and `n2` whose shape is a conic of eccentricity `n1 / n2` brings all light parallel to the axis to one point, at one time;
a conic of eccentricity `n2 / n1` makes light from a point parallel; a spherical face images a point at `n2 / n1` radii from its centre to
one at `n1 / n2` radii from it, whatever the aperture.
-/

namespace Batoid.Props
open Batoid Batoid.Surface

/-! ## Specification -/

/-- The face of an interface: a conic of vertex radius `R` and conic constant `k` in the frame `c`, between indices `n1` (where the light comes from)
and `n2`. -/
structure ConicFace (d : Iface Dbl) (c : CoordSys ℝ) (R k : ℝ) (w : Dbl) (reverse : Bool) (n1 n2 : ℝ) : Prop where
  framed : Framed d c
  lens : d.kind = .refractive
  shape : (k + 1 ≠ 0 ∧ d.surface = quadric (.fin R) (.fin k)) ∨ (k = 0 ∧ d.surface = sphere (.fin R))
  curved : R ≠ 0
  pos1 : 0 < n1
  pos2 : 0 < n2
  index : (behind d reverse).getN w = .fin n2

/-- The part of the conic that holds the vertex: up to where its tangent plane is parallel to the axis. -/
def OnSheet (R k : ℝ) (p : V3 ℝ) : Prop := OnQuadric R k p ∧ 0 < R * (R - (1 + k) * p.z)

/-! ## The normal and the turn -/

theorem sheet_root {R k : ℝ} {p : V3 ℝ} (hR : R ≠ 0) (h : OnSheet R k p) :
    (p.x, p.y) ∈ quadricDomain R k ∧ R * Real.sqrt (1 - (p.x * p.x + p.y * p.y) * ((k + 1) / R / R)) = R - (1 + k) * p.z := by
  obtain ⟨h1, h2⟩ := h
  unfold OnQuadric at h1
  have hg : R - (1 + k) * p.z ≠ 0 := by intro h0; rw [h0] at h2; simp at h2
  have hsq : (R - (1 + k) * p.z) ^ 2 = R * R - (1 + k) * (p.x * p.x + p.y * p.y) := by
    linear_combination (1 + k) * h1
  refine ⟨?_, ?_⟩
  · simp only [quadricDomain, Set.mem_ofPred_eq]
    have : 0 < (R - (1 + k) * p.z) ^ 2 := by positivity
    linarith
  · have hr : 1 - (p.x * p.x + p.y * p.y) * ((k + 1) / R / R) = ((R - (1 + k) * p.z) / R) ^ 2 := by
      rw [div_pow, hsq]; field_simp; ring
    have hpos : 0 ≤ (R - (1 + k) * p.z) / R := by
      have : (R - (1 + k) * p.z) / R = R * (R - (1 + k) * p.z) / (R * R) := by field_simp
      rw [this]; exact (div_pos h2 (mul_self_pos.2 hR)).le
    rw [hr, Real.sqrt_sq hpos]; field_simp

theorem sheet_normal {d : Iface Dbl} {c : CoordSys ℝ} {R k : ℝ} {w : Dbl} {reverse : Bool} {n1 n2 : ℝ} (hd : ConicFace d c R k w reverse n1 n2) {p : V3 ℝ}
    (h : OnSheet R k p) : ∃ a : ℝ, a ≠ 0 ∧ d.surface.normal (.fin p.x) (.fin p.y) = (V3.smul a ⟨-p.x, -p.y, R - (1 + k) * p.z⟩).fin ∧
      IsUnit' (V3.smul a ⟨-p.x, -p.y, R - (1 + k) * p.z⟩) := by
  have hR := hd.curved
  obtain ⟨hdom, hroot⟩ := sheet_root hR h
  have hg : R - (1 + k) * p.z ≠ 0 := by intro h0; have := h.2; rw [h0] at this; simp at this
  generalize hq : Real.sqrt (1 - (p.x * p.x + p.y * p.y) * ((k + 1) / R / R)) = q at hroot
  have hN : d.surface.normal (.fin p.x) (.fin p.y) = (unitNormal (2 * p.x * (1 / (2 * R * q))) (2 * p.y * (1 / (2 * R * q)))).fin := by
    rcases hd.shape with ⟨-, hs⟩ | ⟨rfl, hs⟩
    · rw [hs]
      change radialNormal _ _ _ = _
      rw [radialNormal_fin (quadricDzdr_at hR hdom), hq]
    · rw [hs]
      change sphereNormal _ _ _ = _
      have hd' : p.x * p.x + p.y * p.y < R * R := by simpa [quadricDomain] using hdom
      rw [sphereNormal_fin hR hd']
      rw [show ((0 : ℝ) + 1) / R / R = 1 / R / R by norm_num] at hq
      rw [hq]
  have e : 2 * R * q = 2 * (R - (1 + k) * p.z) := by rw [← hroot]; ring
  rw [e] at hN
  generalize hgd : R - (1 + k) * p.z = g at *
  have hu : ∀ x y : ℝ, IsUnit' (unitNormal x y) := by
    intro x y
    have hp := slope_pos x y
    have hs := (Real.sqrt_pos.2 hp).ne'
    have hss := Real.mul_self_sqrt hp.le
    simp only [IsUnit', V3.dot, unitNormal]
    generalize Real.sqrt (1 + x * x + y * y) = r at hs hss
    field_simp
    linear_combination -hss
  have hp := slope_pos (2 * p.x * (1 / (2 * g))) (2 * p.y * (1 / (2 * g)))
  have hs := (Real.sqrt_pos.2 hp).ne'
  have hv : unitNormal (2 * p.x * (1 / (2 * g))) (2 * p.y * (1 / (2 * g))) =
      V3.smul (1 / Real.sqrt (1 + 2 * p.x * (1 / (2 * g)) * (2 * p.x * (1 / (2 * g))) + 2 * p.y * (1 / (2 * g)) * (2 * p.y * (1 / (2 * g)))) / g) ⟨-p.x, -p.y, g⟩ := by
    unfold unitNormal
    generalize Real.sqrt _ = r at hs
    ext <;> simp <;> field_simp
  refine ⟨_, ?_, by rw [hN, hv], by rw [← hv]; exact hu _ _⟩
  exact div_ne_zero (one_div_ne_zero hs) hg

theorem Snell.scale {n1 n2 a : ℝ} {m v u : V3 ℝ} (ha : a ≠ 0) (h : Snell n1 n2 m v u) : Snell n1 n2 (V3.smul a m) v u where
  pos1 := h.pos1
  pos2 := h.pos2
  speed1 := h.speed1
  speed2 := h.speed2
  sines := by
    have e : ∀ x : V3 ℝ, V3.cross x (V3.smul a m) = V3.smul a (V3.cross x m) := by intro x; ext <;> simp [V3.cross] <;> ring
    have e' : ∀ (b : ℝ) (x : V3 ℝ), V3.smul b (V3.smul a x) = V3.smul a (V3.smul b x) := by intro b x; ext <;> simp <;> ring
    rw [e, e, e', e', h.sines]
  through := by
    have e : V3.dot v (V3.smul a m) * V3.dot u (V3.smul a m) = a * a * (V3.dot v m * V3.dot u m) := by simp [V3.dot]; ring
    rw [e]
    exact mul_pos (mul_self_pos.2 ha) h.through

/-- What a conic face does to light that comes out alive. -/
theorem conic_step {d : Iface Dbl} {c : CoordSys ℝ} {R k : ℝ} {w : Dbl} {reverse : Bool} {n1 n2 : ℝ} (hd : ConicFace d c R k w reverse n1 n2) {niter : ℕ}
    {rv : RayVec Dbl} {i : ℕ} {P V : V3 ℝ} {t : ℝ} {b : Bool} (hin : LightAt rv i P V t w b) (h : Alive (d.trace niter reverse rv) i) :
    ∃ (dt : ℝ) (u : V3 ℝ),
      LightAt (d.trace niter reverse rv) i (P + V.smulR dt) (c.rot.mulVec u) (t + dt) w (b || clips d (c.toLocal (P + V.smulR dt))) ∧
      OnQuadric R k (c.toLocal (P + V.smulR dt)) ∧
      (0 < R * (R - (1 + k) * (c.toLocal (P + V.smulR dt)).z) → ∀ u', Snell n1 n2
        ⟨-(c.toLocal (P + V.smulR dt)).x, -(c.toLocal (P + V.smulR dt)).y, R - (1 + k) * (c.toLocal (P + V.smulR dt)).z⟩ (c.rot.tr.mulVec V) u' → u = u') := by
  obtain ⟨dt, u, h1, h2, h3⟩ := alive_step (by simp [hd.lens]) hd.framed hin h
  have hon : OnQuadric R k (c.toLocal (P + V.smulR dt)) := by
    have e : pointAt (c.toLocal P) (c.rot.tr.mulVec V) dt = c.toLocal (P + V.smulR dt) := by
      rw [← toLocal_step]; ext <;> simp [pointAt] <;> ring
    rw [← e]
    rcases hd.shape with ⟨hk, hs⟩ | ⟨rfl, hs⟩ <;> rw [hs] at h1
    · exact C20_quadric hk h1
    · have := C20_sphere h1
      unfold OnSphere at this
      unfold OnQuadric
      linear_combination this
  refine ⟨dt, u, h2, hon, fun hsheet u' hu' => ?_⟩
  obtain ⟨a, ha, hN, hunit⟩ := sheet_normal hd ⟨hon, hsheet⟩
  rcases h3 with ⟨hk', -⟩ | ⟨hk', -⟩ | ⟨-, h3⟩
  · simp [hd.lens] at hk'
  · simp [hd.lens] at hk'
  · have hsn := hu'.scale ha
    obtain ⟨g1, g2⟩ := refract_snell hunit hsn
    rw [hN, hd.index, refractDir_fin hsn.ne hunit hd.pos2, if_neg g1, g2] at h3
    simp only [Option.some.injEq, V3.fin_inj] at h3
    exact h3.symm

/-! ## Light along the axis -/

/-- The laws at a point of the conic of eccentricity `e` for light along the axis and light through the focus at `R / (1 - e)`. -/
theorem conic_snell {R e : ℝ} (hR : R ≠ 0) (he : 0 < e) (he1 : e ≠ 1) {p : V3 ℝ} (h : OnSheet R (-e ^ 2) p) {n m s : ℝ} (hm : 0 < m)
    (hn : n = e * m) (hs : s * s = 1) :
    R / (1 - e) - e * p.z ≠ 0 ∧
    Snell n m ⟨-p.x, -p.y, R - (1 + -e ^ 2) * p.z⟩ ⟨0, 0, s / n⟩
      (V3.smulR (⟨0, 0, R / (1 - e)⟩ - p) (s / ((R / (1 - e) - e * p.z) * m))) := by
  obtain ⟨h1, h2⟩ := h
  unfold OnQuadric at h1
  have he1' : 1 - e ≠ 0 := sub_ne_zero.2 (Ne.symm he1)
  have hep : 0 < 1 + e := by linarith
  have hn0 : 0 < n := by rw [hn]; positivity
  obtain ⟨f, hf⟩ : ∃ f, f = R / (1 - e) := ⟨_, rfl⟩
  have hRf : R = f * (1 - e) := by rw [hf]; field_simp
  rw [← hf]
  have hf0 : f ≠ 0 := by rintro rfl; apply hR; rw [hRf]; simp
  subst hRf
  have hdist : p.x ^ 2 + p.y ^ 2 + (f - p.z) ^ 2 = (f - e * p.z) ^ 2 := by linear_combination h1
  have hne : f - e * p.z ≠ 0 := by
    intro h0
    have : p.x ^ 2 + p.y ^ 2 + (f - p.z) ^ 2 = 0 := by rw [hdist, h0]; ring
    have hz : (f - p.z) ^ 2 = 0 := by nlinarith [sq_nonneg p.x, sq_nonneg p.y, sq_nonneg (f - p.z)]
    have hz' : f = p.z := by nlinarith [pow_eq_zero_iff (n := 2) (by norm_num) |>.1 hz]
    have : f * (1 - e) = 0 := by rw [← hz'] at h0; linarith
    exact hR this
  refine ⟨hne, hn0, hm, ?_, ?_, ?_, ?_⟩
  · have : V3.dot (⟨0, 0, s / n⟩ : V3 ℝ) ⟨0, 0, s / n⟩ * n ^ 2 = s * s := by simp only [V3.dot]; field_simp; ring
    rw [this, hs]
  · have e1 : V3.dot (V3.smulR (⟨0, 0, f⟩ - p) (s / ((f - e * p.z) * m))) (V3.smulR (⟨0, 0, f⟩ - p) (s / ((f - e * p.z) * m)))
        = (p.x ^ 2 + p.y ^ 2 + (f - p.z) ^ 2) * (s * s) / ((f - e * p.z) ^ 2 * m ^ 2) := by
      simp [V3.dot]; field_simp
    rw [e1, hdist, hs]; field_simp
  · subst hn
    ext <;> simp only [V3.cross, V3.smul_x, V3.smul_y, V3.smul_z, V3.smulR_x, V3.smulR_y, V3.smulR_z, V3.sub_x, V3.sub_y, V3.sub_z]
    · field_simp; ring
    · have h0 : f - p.z * e ≠ 0 := by rwa [mul_comm p.z]
      field_simp; ring
    · field_simp; ring
  · have e1 : V3.dot (V3.smulR (⟨0, 0, f⟩ - p) (s / ((f - e * p.z) * m))) ⟨-p.x, -p.y, f * (1 - e) - (1 + -e ^ 2) * p.z⟩ = s / m * (f * (1 - e)) := by
      have : V3.dot (V3.smulR (⟨0, 0, f⟩ - p) (s / ((f - e * p.z) * m))) ⟨-p.x, -p.y, f * (1 - e) - (1 + -e ^ 2) * p.z⟩ =
          (p.x ^ 2 + p.y ^ 2 + (f - p.z) * (f * (1 - e) - (1 + -e ^ 2) * p.z)) * (s / ((f - e * p.z) * m)) := by
        simp [V3.dot]; ring
      rw [this, show p.x ^ 2 + p.y ^ 2 + (f - p.z) * (f * (1 - e) - (1 + -e ^ 2) * p.z) = (f * (1 - e)) * (f - e * p.z) by linear_combination h1]
      field_simp
    rw [e1]
    have e2 : V3.dot ⟨0, 0, s / n⟩ ⟨-p.x, -p.y, f * (1 - e) - (1 + -e ^ 2) * p.z⟩ * (s / m * (f * (1 - e))) =
        s * s * (f * (1 - e) * (f * (1 - e) - (1 + -e ^ 2) * p.z)) / (n * m) := by
      simp [V3.dot]; field_simp
    rw [e2, hs, one_mul]
    positivity

/-- The sign of the motion along the axis. -/
theorem axis_sign {n : ℝ} (hn : 0 < n) {v : V3 ℝ} (hv : speed v = 1 / n) (hx : v.x = 0) (hy : v.y = 0) : ∃ s : ℝ, s * s = 1 ∧ v = ⟨0, 0, s / n⟩ := by
  have h : v.z * v.z = (1 / n) ^ 2 := by
    have : V3.dot v v = v.z * v.z := by simp [V3.dot, hx, hy]
    rw [← this, ← hv]; exact (Real.sq_sqrt (V3.normSq_nonneg v)).symm
  refine ⟨v.z * n, ?_, ?_⟩
  · have : v.z * n * (v.z * n) = v.z * v.z * n ^ 2 := by ring
    rw [this, h]; field_simp
  · ext
    · exact hx
    · exact hy
    · simp only; field_simp

theorem speed_of_index {m : ℝ} (hm : 0 < m) {u : V3 ℝ} (h : V3.dot u u * m ^ 2 = 1) : Real.sqrt (V3.dot u u) = 1 / m := by
  have : V3.dot u u = (1 / m) ^ 2 := by field_simp; exact h
  rw [this, Real.sqrt_sq (by positivity)]

theorem eq_toGlobal {c : CoordSys ℝ} (ho : c.rot.Orth) {Q p : V3 ℝ} (h : c.toLocal Q = p) : Q = c.toGlobal p := by
  rw [← h, CoordSys.toGlobal_toLocal ho]

theorem reach_point {s m g : ℝ} (hs : s * s = 1) (hm : 0 < m) (hg : g ≠ 0) (p q : V3 ℝ) :
    p + (V3.smulR (q - p) (s / (g * m))).smulR (s * m * g) = q := by
  have hk : s / (g * m) * (s * m * g) = 1 := by field_simp; linarith
  have : ∀ x : ℝ, x * (s / (g * m)) * (s * m * g) = x := by intro x; rw [mul_assoc, hk, mul_one]
  ext <;> simp [this]

theorem focus_dist {R e : ℝ} (he1 : e ≠ 1) {p : V3 ℝ} (h : OnQuadric R (-e ^ 2) p) :
    p.x ^ 2 + p.y ^ 2 + (R / (1 - e) - p.z) ^ 2 = (R / (1 - e) - e * p.z) ^ 2 := by
  have he1' : 1 - e ≠ 0 := sub_ne_zero.2 (Ne.symm he1)
  unfold OnQuadric at h
  obtain ⟨f, hf⟩ : ∃ f, f = R / (1 - e) := ⟨_, rfl⟩
  have hRf : R = f * (1 - e) := by rw [hf]; field_simp
  rw [← hf]
  rw [hRf] at h
  linear_combination h

theorem index_of_speed {m : ℝ} (hm : 0 < m) {u : V3 ℝ} (h : speed u = 1 / m) : V3.dot u u * m ^ 2 = 1 := by
  have : V3.dot u u = (1 / m) ^ 2 := by rw [← h]; exact (Real.sq_sqrt (V3.normSq_nonneg u)).symm
  rw [this]; field_simp

/-- **C122** (parallel light): light along the axis of a conic face of eccentricity `n1 / n2` goes through, or comes from, its focus at `R / (1 - e)`, and passes
it at a time that depends only on when it passed a plane across the axis. -/
theorem C122_focus {d : Iface Dbl} {c : CoordSys ℝ} {R e : ℝ} {w : Dbl} {reverse : Bool} {n1 n2 : ℝ} (hd : ConicFace d c R (-e ^ 2) w reverse n1 n2)
    (he : n1 = e * n2) (he1 : e ≠ 1) {niter : ℕ} {rv : RayVec Dbl} {i : ℕ} {P V : V3 ℝ} {t s : ℝ} {b : Bool} (hs : s = 1 ∨ s = -1)
    (hV : c.rot.tr.mulVec V = ⟨0, 0, s / n1⟩) (hin : LightAt rv i P V t w b) (h : Alive (d.trace niter reverse rv) i) :
    ∃ (P' U : V3 ℝ) (t' : ℝ) (b' : Bool), LightAt (d.trace niter reverse rv) i P' U t' w b' ∧
      (c.toLocal P').x = (c.toLocal P).x ∧ (c.toLocal P').y = (c.toLocal P).y ∧ OnQuadric R (-e ^ 2) (c.toLocal P') ∧
      (OnSheet R (-e ^ 2) (c.toLocal P') → speed U = 1 / n2 ∧
        P' + U.smulR (t + s * (n2 * (R / (1 - e)) - n1 * (c.toLocal P).z) - t') = c.toGlobal ⟨0, 0, R / (1 - e)⟩) := by
  have hss : s * s = 1 := by rcases hs with rfl | rfl <;> norm_num
  have hp1 := hd.pos1
  have hp2 := hd.pos2
  have he0 : 0 < e := by
    by_contra h0
    have := mul_nonpos_of_nonpos_of_nonneg (not_lt.1 h0) hp2.le
    linarith
  obtain ⟨dt, u, h1, h2, h3⟩ := conic_step hd hin h
  have hloc : c.toLocal (P + V.smulR dt) = c.toLocal P + (⟨0, 0, s / n1⟩ : V3 ℝ).smulR dt := by rw [← toLocal_step, hV]
  refine ⟨_, _, _, _, h1, by rw [hloc]; simp, by rw [hloc]; simp, h2, fun hsh => ?_⟩
  obtain ⟨hne, hsn⟩ := conic_snell hd.curved he0 he1 hsh (n := n1) (m := n2) (s := s) hp2 he hss
  have hu := h3 hsh.2 _ (hV ▸ hsn)
  refine ⟨?_, ?_⟩
  · rw [speed, hd.framed.1.dot_mulVec, hu]
    exact speed_of_index hp2 hsn.speed2
  · refine eq_toGlobal hd.framed.1 ?_
    rw [← toLocal_step, hd.framed.1.tr_mulVec, hu]
    have hdt : dt = s * n1 * ((c.toLocal (P + V.smulR dt)).z - (c.toLocal P).z) := by
      rw [hloc]
      simp only [V3.add_z, V3.smulR_z, add_sub_cancel_left]
      field_simp
      linear_combination -dt * hss
    generalize c.toLocal (P + V.smulR dt) = p at *
    have hτ : t + s * (n2 * (R / (1 - e)) - n1 * (c.toLocal P).z) - (t + dt) = s * n2 * (R / (1 - e) - e * p.z) := by
      rw [hdt, he]; ring
    rw [hτ]
    exact reach_point hss hp2 hne p _

/-- **C122** (light from a point): light through the focus of a conic face of eccentricity `n2 / n1` leaves parallel to the axis, and passes each plane
across it at a time that depends only on when it was in the focus. -/
theorem C122_collimate {d : Iface Dbl} {c : CoordSys ℝ} {R e : ℝ} {w : Dbl} {reverse : Bool} {n1 n2 : ℝ} (hd : ConicFace d c R (-e ^ 2) w reverse n1 n2)
    (he : n2 = e * n1) (he1 : e ≠ 1) {niter : ℕ} {rv : RayVec Dbl} {i : ℕ} {P V : V3 ℝ} {t T0 : ℝ} {b : Bool} (hV : speed V = 1 / n1)
    (hfoc : P + V.smulR (T0 - t) = c.toGlobal ⟨0, 0, R / (1 - e)⟩) (hin : LightAt rv i P V t w b) (h : Alive (d.trace niter reverse rv) i) :
    ∃ (P' U : V3 ℝ) (t' : ℝ) (b' : Bool), LightAt (d.trace niter reverse rv) i P' U t' w b' ∧ OnQuadric R (-e ^ 2) (c.toLocal P') ∧
      (OnSheet R (-e ^ 2) (c.toLocal P') → ∃ s : ℝ, (s = 1 ∨ s = -1) ∧ c.rot.tr.mulVec U = ⟨0, 0, s / n2⟩ ∧
        ∀ z, (c.toLocal (P' + U.smulR (T0 + s * (n2 * z - n1 * (R / (1 - e))) - t'))).z = z) := by
  have hp1 := hd.pos1
  have hp2 := hd.pos2
  have he0 : 0 < e := by
    by_contra h0
    have := mul_nonpos_of_nonpos_of_nonneg (not_lt.1 h0) hp1.le
    linarith
  obtain ⟨dt, u, h1, h2, h3⟩ := conic_step hd hin h
  refine ⟨_, _, _, _, h1, h2, fun hsh => ?_⟩
  have hdist := focus_dist he1 h2
  obtain ⟨hne, -⟩ := conic_snell hd.curved he0 he1 hsh (n := n2) (m := n1) (s := 1) hp1 he (by norm_num)
  have hline : c.toLocal (P + V.smulR dt) + (c.rot.tr.mulVec V).smulR (T0 - (t + dt)) = ⟨0, 0, R / (1 - e)⟩ := by
    rw [toLocal_step]
    have : P + V.smulR dt + V.smulR (T0 - (t + dt)) = P + V.smulR (T0 - t) := by ext <;> simp <;> ring
    rw [this, hfoc, CoordSys.toLocal_toGlobal hd.framed.1]
  have hvv : V3.dot (c.rot.tr.mulVec V) (c.rot.tr.mulVec V) * n1 ^ 2 = 1 := by
    rw [hd.framed.1.tr.dot_mulVec]; exact index_of_speed hp1 hV
  generalize c.rot.tr.mulVec V = v at *
  generalize hpd : c.toLocal (P + V.smulR dt) = p at *
  have hτd : T0 - (t + dt) = T0 - (t + dt) := rfl
  generalize hτ : T0 - (t + dt) = τ at hline
  generalize hf : R / (1 - e) = f at *
  have hx : v.x * τ = -p.x := by have := congrArg V3.x hline; simp at this; linarith
  have hy : v.y * τ = -p.y := by have := congrArg V3.y hline; simp at this; linarith
  have hz : v.z * τ = f - p.z := by have := congrArg V3.z hline; simp at this; linarith
  have hτ2 : τ ^ 2 = n1 ^ 2 * (f - e * p.z) ^ 2 := by
    rw [← hdist]
    have : V3.dot v v * τ ^ 2 = p.x ^ 2 + p.y ^ 2 + (f - p.z) ^ 2 := by
      rw [← hz]; simp only [V3.dot]; linear_combination (v.x * τ - p.x) * hx + (v.y * τ - p.y) * hy
    linear_combination n1 ^ 2 * this - τ ^ 2 * hvv
  obtain ⟨s, hsd⟩ : ∃ s, s = τ / (n1 * (f - e * p.z)) := ⟨_, rfl⟩
  have hτs : τ = s * n1 * (f - e * p.z) := by rw [hsd]; field_simp
  have hss : s * s = 1 := by
    rw [hsd, div_mul_div_comm, ← sq, hτ2]; field_simp
  have hs1 : s = 1 ∨ s = -1 := by
    have : (s - 1) * (s + 1) = 0 := by linear_combination hss
    rcases mul_eq_zero.1 this with h | h
    · exact Or.inl (by linarith)
    · exact Or.inr (by linarith)
  have hs0 : s ≠ 0 := by rintro rfl; norm_num at hss
  obtain ⟨-, hsn⟩ := conic_snell hd.curved he0 he1 hsh (n := n2) (m := n1) (s := -s) hp1 he (by linarith)
  rw [hf] at hsn
  have hv : v = -(V3.smulR (⟨0, 0, f⟩ - p) (-s / ((f - e * p.z) * n1))) := by
    have hk : ∀ a b : ℝ, a * τ = b → a = -(b * (-s / ((f - e * p.z) * n1))) := by
      intro a b hab
      rw [← hab, hτs]
      field_simp
      linear_combination -a * hss
    ext
    · simp only [V3.neg_x, V3.smulR_x, V3.sub_x]; exact hk _ _ (by rw [hx]; ring)
    · simp only [V3.neg_y, V3.smulR_y, V3.sub_y]; exact hk _ _ (by rw [hy]; ring)
    · simp only [V3.neg_z, V3.smulR_z, V3.sub_z]; exact hk _ _ hz
  have hu := h3 hsh.2 _ (hv ▸ hsn.reverse)
  have hu' : u = ⟨0, 0, s / n2⟩ := by rw [hu]; ext <;> simp [neg_div]
  refine ⟨s, hs1, by rw [hd.framed.1.tr_mulVec, hu'], fun z => ?_⟩
  rw [← toLocal_step, hd.framed.1.tr_mulVec, hu', hpd]
  have ht : T0 + s * (n2 * z - n1 * f) - (t + dt) = s * n2 * (z - p.z) := by
    have : T0 - (t + dt) = s * n1 * (f - e * p.z) := by rw [hτ, hτs]
    rw [he]; linear_combination this
  rw [ht]
  simp only [V3.add_z, V3.smulR_z]
  field_simp
  linear_combination (z - p.z) * hss

/-- **C122** (aplanatic points): light aimed at the point `n2 / n1` radii beyond the centre of a spherical face is aimed at the point `n1 / n2` radii beyond it
afterwards, and would be there at the same time. -/
theorem C122_aplanatic {d : Iface Dbl} {c : CoordSys ℝ} {R : ℝ} {w : Dbl} {reverse : Bool} {n1 n2 : ℝ} (hd : ConicFace d c R 0 w reverse n1 n2)
    {niter : ℕ} {rv : RayVec Dbl} {i : ℕ} {P V : V3 ℝ} {t T0 : ℝ} {b : Bool} (hV : speed V = 1 / n1)
    (hfoc : P + V.smulR (T0 - t) = c.toGlobal ⟨0, 0, R + R * (n2 / n1)⟩) (hin : LightAt rv i P V t w b) (h : Alive (d.trace niter reverse rv) i) :
    ∃ (P' U : V3 ℝ) (t' : ℝ) (b' : Bool), LightAt (d.trace niter reverse rv) i P' U t' w b' ∧ OnSphere R (c.toLocal P') ∧
      (0 < R * (R - (c.toLocal P').z) → speed U = 1 / n2 ∧ P' + U.smulR (T0 - t') = c.toGlobal ⟨0, 0, R + R * (n1 / n2)⟩) := by
  have hp1 := hd.pos1
  have hp2 := hd.pos2
  obtain ⟨dt, u, h1, h2, h3⟩ := conic_step hd hin h
  refine ⟨_, _, _, _, h1, ?_, fun hsh => ?_⟩
  · unfold OnQuadric at h2; unfold OnSphere; linear_combination h2
  have hline : c.toLocal (P + V.smulR dt) + (c.rot.tr.mulVec V).smulR (T0 - (t + dt)) = ⟨0, 0, R + R * (n2 / n1)⟩ := by
    rw [toLocal_step]
    have : P + V.smulR dt + V.smulR (T0 - (t + dt)) = P + V.smulR (T0 - t) := by ext <;> simp <;> ring
    rw [this, hfoc, CoordSys.toLocal_toGlobal hd.framed.1]
  have hvv : V3.dot (c.rot.tr.mulVec V) (c.rot.tr.mulVec V) * n1 ^ 2 = 1 := by
    rw [hd.framed.1.tr.dot_mulVec]; exact index_of_speed hp1 hV
  generalize hτ : T0 - (t + dt) = τ at *
  generalize hvd : c.rot.tr.mulVec V = v at *
  generalize hpd : c.toLocal (P + V.smulR dt) = p at *
  unfold OnQuadric at h2
  simp only [add_zero, one_mul] at h2 h3
  have hx : v.x * τ = -p.x := by have := congrArg V3.x hline; simp at this; linarith
  have hy : v.y * τ = -p.y := by have := congrArg V3.y hline; simp at this; linarith
  have hz : v.z * τ = R + R * (n2 / n1) - p.z := by have := congrArg V3.z hline; simp at this; linarith
  obtain ⟨a, ha⟩ : ∃ a, a = n2 / n1 := ⟨_, rfl⟩
  have ha0 : 0 < a := by rw [ha]; positivity
  have hn2 : n2 = a * n1 := by rw [ha]; field_simp
  have hinv : n1 / n2 = 1 / a := by rw [hn2]; field_simp
  rw [← ha] at hz
  rw [hinv]
  have hR2 : 0 < R ^ 2 := by have := hd.curved; positivity
  have hτ2 : τ ^ 2 = n1 ^ 2 * (R ^ 2 + 2 * a * (R * (R - p.z)) + a ^ 2 * R ^ 2) := by
    have : V3.dot v v * τ ^ 2 = p.x ^ 2 + p.y ^ 2 + (R + R * a - p.z) ^ 2 := by
      rw [← hz]; simp only [V3.dot]; linear_combination (v.x * τ - p.x) * hx + (v.y * τ - p.y) * hy
    linear_combination n1 ^ 2 * this - τ ^ 2 * hvv + n1 ^ 2 * h2
  have hτpos : 0 < τ ^ 2 := by rw [hτ2]; positivity
  have hτ0 : τ ≠ 0 := by rintro rfl; norm_num at hτpos
  have hv : v = V3.smulR (⟨0, 0, R + R * a⟩ - p) (1 / τ) := by
    ext <;> simp only [V3.smulR_x, V3.smulR_y, V3.smulR_z, V3.sub_x, V3.sub_y, V3.sub_z] <;> field_simp <;> linarith
  have hsn : Snell n1 n2 ⟨-p.x, -p.y, R - p.z⟩ v (V3.smulR (⟨0, 0, R + R * (1 / a)⟩ - p) (1 / τ)) := by
    refine ⟨hp1, hp2, hvv, ?_, ?_, ?_⟩
    · have : V3.dot (V3.smulR (⟨0, 0, R + R * (1 / a)⟩ - p) (1 / τ)) (V3.smulR (⟨0, 0, R + R * (1 / a)⟩ - p) (1 / τ)) =
          (p.x ^ 2 + p.y ^ 2 + (R + R * (1 / a) - p.z) ^ 2) / τ ^ 2 := by
        simp [V3.dot]; field_simp
      rw [this, h2, hτ2, hn2]
      have h0 : R ^ 2 + 2 * a * (R * (R - p.z)) + a ^ 2 * R ^ 2 ≠ 0 := by positivity
      rw [div_mul_eq_mul_div, div_eq_one_iff_eq (by positivity)]
      field_simp
      ring
    · rw [hv, hn2]
      ext <;> simp only [V3.cross, V3.smul_x, V3.smul_y, V3.smul_z, V3.smulR_x, V3.smulR_y, V3.smulR_z, V3.sub_x, V3.sub_y, V3.sub_z] <;> field_simp <;> ring
    · have e1 : ∀ q : ℝ, V3.dot (V3.smulR (⟨0, 0, R + R * q⟩ - p) (1 / τ)) ⟨-p.x, -p.y, R - p.z⟩ = (R ^ 2 + q * (R * (R - p.z))) / τ := by
        intro q
        have : V3.dot (V3.smulR (⟨0, 0, R + R * q⟩ - p) (1 / τ)) ⟨-p.x, -p.y, R - p.z⟩ = (p.x ^ 2 + p.y ^ 2 + (R + R * q - p.z) * (R - p.z)) / τ := by
          simp [V3.dot]; ring
        rw [this, h2]; congr 1; ring
      rw [hv, e1, e1, div_mul_div_comm, ← sq τ]
      positivity
  have hu := h3 (by simpa using hsh) _ hsn
  refine ⟨?_, ?_⟩
  · rw [speed, hd.framed.1.dot_mulVec, hu]
    exact speed_of_index hp2 hsn.speed2
  · refine eq_toGlobal hd.framed.1 ?_
    rw [← toLocal_step, hd.framed.1.tr_mulVec, hu, hpd]
    ext <;> simp [hτ0]

/-! ## The sheet is found -/

theorem light_unique {rv : RayVec Dbl} {i : ℕ} {P V P' V' : V3 ℝ} {t t' : ℝ} {w w' : Dbl} {b b' : Bool} (h : LightAt rv i P V t w b)
    (h' : LightAt rv i P' V' t' w' b') : P = P' ∧ V = V' ∧ t = t' ∧ w = w' ∧ b = b' := by
  obtain ⟨c, ray, ho, hc, hi, hr, hv, ht, hw, -, hb⟩ := h
  obtain ⟨c', ray', ho', hc', hi', hr', hv', ht', hw', -, hb'⟩ := h'
  obtain rfl : ray = ray' := Option.some.inj (hi.symm.trans hi')
  obtain rfl : c = c' := by
    have := hc.symm.trans hc'
    simp only [CoordSys.fin, CoordSys.mk.injEq, V3.fin_inj] at this
    obtain ⟨h1, h2⟩ := this
    rcases c with ⟨o, m⟩
    rcases c' with ⟨o', m'⟩
    simp only at h1 h2
    subst h1
    congr 1
    simpa [M3.fin, M3.map, M3.ext_iff] using h2
  refine ⟨?_, ?_, by simpa using ht.symm.trans ht', hw.symm.trans hw', hb.symm.trans hb'⟩
  · have := V3.fin_inj.1 (hr.symm.trans hr')
    rw [← CoordSys.toGlobal_toLocal ho P, this, CoordSys.toGlobal_toLocal ho]
  · have := V3.fin_inj.1 (hv.symm.trans hv')
    rw [← ho.mulVec_tr V, this, ho.mulVec_tr]

/-- The point of the sheet at a place, when there is one. -/
theorem sheet_point {R k : ℝ} (hR : R ≠ 0) (hk : 1 + k ≠ 0) {x y : ℝ} (h : (1 + k) * (x ^ 2 + y ^ 2) < R ^ 2) :
    ∃ z, OnSheet R k ⟨x, y, z⟩ ∧ ∀ z', OnQuadric R k ⟨x, y, z'⟩ → z' ≠ z → |z| < |z'| := by
  have hpos : 0 < 1 - (1 + k) * (x ^ 2 + y ^ 2) / R ^ 2 := by
    rw [sub_pos, div_lt_one (by positivity)]; exact h
  obtain ⟨q, hq, hqq⟩ : ∃ q : ℝ, 0 < q ∧ q ^ 2 = 1 - (1 + k) * (x ^ 2 + y ^ 2) / R ^ 2 := ⟨_, Real.sqrt_pos.2 hpos, Real.sq_sqrt hpos.le⟩
  have hqq' : R ^ 2 * q ^ 2 = R ^ 2 - (1 + k) * (x ^ 2 + y ^ 2) := by rw [hqq]; field_simp
  refine ⟨R * (1 - q) / (1 + k), ⟨?_, ?_⟩, fun z' hz' hne => ?_⟩
  · unfold OnQuadric
    field_simp
    linear_combination hqq'
  · have : R * (R - (1 + k) * (R * (1 - q) / (1 + k))) = R ^ 2 * q := by field_simp; ring
    simp only [this]
    positivity
  · unfold OnQuadric at hz'
    simp only at hz'
    have hz : z' = R * (1 + q) / (1 + k) := by
      have h1 : (z' * (1 + k) - R * (1 - q)) * (z' * (1 + k) - R * (1 + q)) = 0 := by linear_combination (1 + k) * hz' - hqq'
      rcases mul_eq_zero.1 h1 with h | h
      · exact absurd (by field_simp; linarith) hne
      · field_simp; linarith
    rw [hz, ← sq_lt_sq, div_pow, div_pow, div_lt_div_iff_of_pos_right (by positivity), mul_pow, mul_pow]
    have : 0 < R ^ 2 := by positivity
    nlinarith

/-- Light that meets the sheet passes it as Snell's law says. -/
theorem conic_meeting {d : Iface Dbl} {c : CoordSys ℝ} {R k : ℝ} {w : Dbl} {n1 n2 : ℝ} (hd : ConicFace d c R k w false n1 n2)
    (hfront : d.inMedium.getN w = .fin n1) {niter : ℕ} {P V u : V3 ℝ} {dt : ℝ}
    (hmeet : d.surface.timeToIntersect (c.toLocal P).fin (c.rot.tr.mulVec V).fin 0 niter = (true, .fin dt)) {p : V3 ℝ}
    (hland : c.toLocal (P + V.smulR dt) = p) (hz : OnSheet R k p) (hsn : Snell n1 n2 ⟨-p.x, -p.y, R - (1 + k) * p.z⟩ (c.rot.tr.mulVec V) u) :
    ∃ n, Meeting niter w d c n P V dt (c.rot.mulVec u) := by
  obtain ⟨a, ha, hN, hunit⟩ := sheet_normal hd hz
  exact ⟨_, {
    frame := hd.framed.2
    orth := hd.framed.1
    meets := hmeet
    normal := by rw [hland]; exact hN
    unit := hunit
    turns := .lens hd.lens hfront hd.index (by rw [hd.framed.1.tr_mulVec]; exact hsn.scale ha) }⟩

/-- **C122** (arrival): light along the axis within the rim of a conic face, from anywhere but on the conic, does meet the sheet and pass it. -/
theorem C122_arrives {d : Iface Dbl} {c : CoordSys ℝ} {R e : ℝ} {w : Dbl} {n1 n2 : ℝ} (hd : ConicFace d c R (-e ^ 2) w false n1 n2)
    (hq : d.surface = quadric (.fin R) (.fin (-e ^ 2))) (hfront : d.inMedium.getN w = .fin n1)
    (he : n1 = e * n2) (he1 : e ≠ 1) {niter : ℕ} {rv : RayVec Dbl} {i : ℕ} {P V : V3 ℝ} {t s : ℝ} {b : Bool} (hs : s = 1 ∨ s = -1)
    (hV : c.rot.tr.mulVec V = ⟨0, 0, s / n1⟩) (hrim : (1 - e ^ 2) * ((c.toLocal P).x ^ 2 + (c.toLocal P).y ^ 2) < R ^ 2)
    (hoff : ¬ OnQuadric R (-e ^ 2) (c.toLocal P)) (hin : LightAt rv i P V t w b) :
    ∃ (P' U : V3 ℝ) (t' : ℝ) (b' : Bool), LightAt (d.trace niter false rv) i P' U t' w b' ∧ OnSheet R (-e ^ 2) (c.toLocal P') ∧
      (c.toLocal P').x = (c.toLocal P).x ∧ (c.toLocal P').y = (c.toLocal P).y ∧ speed U = 1 / n2 ∧
      P' + U.smulR (t + s * (n2 * (R / (1 - e)) - n1 * (c.toLocal P).z) - t') = c.toGlobal ⟨0, 0, R / (1 - e)⟩ := by
  have hss : s * s = 1 := by rcases hs with rfl | rfl <;> norm_num
  have hs0 : s ≠ 0 := by rintro rfl; norm_num at hss
  have hp1 := hd.pos1
  have hp2 := hd.pos2
  have he0 : 0 < e := by
    by_contra h0
    have := mul_nonpos_of_nonpos_of_nonneg (not_lt.1 h0) hp2.le
    linarith
  have hk : (1 : ℝ) + -e ^ 2 ≠ 0 := by
    intro h0
    have : (1 - e) * (1 + e) = 0 := by linear_combination h0
    rcases mul_eq_zero.1 this with h | h
    · exact he1 (by linarith)
    · linarith
  obtain ⟨z, hz, hnear⟩ := sheet_point hd.curved hk (x := (c.toLocal P).x) (y := (c.toLocal P).y) (by rw [← sub_eq_add_neg]; exact hrim)
  obtain ⟨dt, hdt⟩ : ∃ dt, dt = s * n1 * (z - (c.toLocal P).z) := ⟨_, rfl⟩
  have hat : ∀ τ, pointAt (c.toLocal P) (c.rot.tr.mulVec V) τ = ⟨(c.toLocal P).x, (c.toLocal P).y, (c.toLocal P).z + τ * (s / n1)⟩ := by
    intro τ; rw [hV]; ext <;> simp [pointAt]
  have hzd : (c.toLocal P).z + dt * (s / n1) = z := by
    rw [hdt]; field_simp; linear_combination (z - (c.toLocal P).z) * hss
  have hland : c.toLocal (P + V.smulR dt) = ⟨(c.toLocal P).x, (c.toLocal P).y, z⟩ := by
    rw [← toLocal_step, hV]; ext <;> simp
    linarith [hzd]
  have hmeet : d.surface.timeToIntersect (c.toLocal P).fin (c.rot.tr.mulVec V).fin 0 niter = (true, .fin dt) := by
    rw [hq]
    refine C96_quadric (by rwa [add_comm]) ?_ ⟨?_, fun t' h h' => ?_⟩ (fun h => absurd h hoff)
    · rw [hV]
      have : (0 : ℝ) ^ 2 + 0 ^ 2 + (-e ^ 2 + 1) * (s / n1) ^ 2 = (1 + -e ^ 2) * (s / n1) ^ 2 := by ring
      simp only [this]
      have : s / n1 ≠ 0 := div_ne_zero hs0 hp1.ne'
      positivity
    · rw [hat, hzd]; exact hz.1
    · rw [hat] at h
      rw [hat, hat, hzd]
      refine hnear _ h fun h0 => h' ?_
      have h1 : (t' - dt) * (s / n1) = 0 := by linear_combination h0 - hzd
      rcases mul_eq_zero.1 h1 with h2 | h2
      · linarith
      · exact absurd h2 (div_ne_zero hs0 hp1.ne')
  obtain ⟨-, hsn⟩ := conic_snell hd.curved he0 he1 hz (n := n1) (m := n2) (s := s) hp2 he hss
  obtain ⟨_, hm⟩ := conic_meeting (niter := niter) hd hfront hmeet hland hz (by rw [hV]; exact hsn)
  have hl := cross_forward hm hin
  obtain ⟨P', U, t', b', g1, g2, g3, -, g4⟩ := C122_focus hd he he1 hs hV hin (light_alive hl)
  have hu := light_unique g1 hl
  have hsh : OnSheet R (-e ^ 2) (c.toLocal P') := by rw [hu.1, hland]; exact hz
  exact ⟨P', U, t', b', g1, hsh, g2, g3, g4 hsh⟩

/-- **C122** (lenses with one curved face): parallel light that falls along the axis through any stack of flat faces across it and clear interfaces, and then
through a conic face of eccentricity `n1 / n2`, goes through one point. -/
theorem C122_singlet {d : Iface Dbl} {c : CoordSys ℝ} {R e : ℝ} {w : Dbl} {reverse : Bool} {n0 n1 n2 : ℝ} (hd : ConicFace d c R (-e ^ 2) w reverse n1 n2)
    (he : n1 = e * n2) (he1 : e ≠ 1) (hn : 0 < n0) (o : Optic Dbl) (niter : ℕ) (hst : Stack w (c.rot.mulVec ⟨0, 0, 1⟩) reverse n0 (if reverse then (visits o).reverse else visits o) n1)
    {rv : RayVec Dbl} {i : ℕ} {P V : V3 ℝ} {t : ℝ} {b : Bool} (hV : speed V = 1 / n0) (hax : tangential V (c.rot.mulVec ⟨0, 0, 1⟩) = ⟨0, 0, 0⟩)
    (hin : LightAt rv i P V t w b) (h0 : Alive (o.trace niter reverse rv) i) (h : Alive (d.trace niter reverse (o.trace niter reverse rv)) i) :
    ∃ (P' U : V3 ℝ) (t' : ℝ) (b' : Bool), LightAt (d.trace niter reverse (o.trace niter reverse rv)) i P' U t' w b' ∧ OnQuadric R (-e ^ 2) (c.toLocal P') ∧
      (OnSheet R (-e ^ 2) (c.toLocal P') → speed U = 1 / n2 ∧ ∃ τ, P' + U.smulR τ = c.toGlobal ⟨0, 0, R / (1 - e)⟩) := by
  obtain ⟨Q, W, t1, b1, l1, hp⟩ := C121_stack hn o niter reverse hst hV hin h0
  have hW : tangential W (c.rot.mulVec ⟨0, 0, 1⟩) = ⟨0, 0, 0⟩ := by
    have := hp.along
    rw [hax] at this
    have h0 : n1 ^ 2 ≠ 0 := by have := hd.pos1; positivity
    ext
    · simpa [h0] using congrArg V3.x this
    · simpa [h0] using congrArg V3.y this
    · simpa [h0] using congrArg V3.z this
  have hWl : c.rot.tr.mulVec W = ⟨0, 0, V3.dot W (c.rot.mulVec ⟨0, 0, 1⟩)⟩ := by
    have : W = V3.smul (V3.dot W (c.rot.mulVec ⟨0, 0, 1⟩)) (c.rot.mulVec ⟨0, 0, 1⟩) := by
      ext
      · have := congrArg V3.x hW; simp [tangential] at this; simpa using sub_eq_zero.1 this
      · have := congrArg V3.y hW; simp [tangential] at this; simpa using sub_eq_zero.1 this
      · have := congrArg V3.z hW; simp [tangential] at this; simpa using sub_eq_zero.1 this
    have e1 : c.rot.tr.mulVec (V3.smul (V3.dot W (c.rot.mulVec ⟨0, 0, 1⟩)) (c.rot.mulVec ⟨0, 0, 1⟩)) =
        V3.smul (V3.dot W (c.rot.mulVec ⟨0, 0, 1⟩)) (c.rot.tr.mulVec (c.rot.mulVec ⟨0, 0, 1⟩)) := by
      ext <;> simp [M3.mulVec] <;> ring
    rw [hd.framed.1.tr_mulVec] at e1
    rw [← this] at e1
    rw [e1]; ext <;> simp
  have hsp : speed (c.rot.tr.mulVec W) = 1 / n1 := by
    rw [speed, hd.framed.1.tr.dot_mulVec]; exact hp.speed
  obtain ⟨s, hss, hs⟩ := axis_sign hd.pos1 hsp (by rw [hWl]) (by rw [hWl])
  have hs1 : s = 1 ∨ s = -1 := by
    have : (s - 1) * (s + 1) = 0 := by linear_combination hss
    rcases mul_eq_zero.1 this with h | h
    · exact Or.inl (by linarith)
    · exact Or.inr (by linarith)
  obtain ⟨P', U, t', b', g1, -, -, g2, g3⟩ := C122_focus hd he he1 hs1 hs l1 h
  exact ⟨P', U, t', b', g1, g2, fun hsh => ⟨(g3 hsh).1, _, (g3 hsh).2⟩⟩

/-! ## Non-vacuity -/

/-- A face at the origin. -/
noncomputable def demoFace (s : Surface Dbl) (n m : ℝ) : Iface Dbl :=
  { demoPane 0 n m with surface := s }

theorem demoFace_conic {R k n m : ℝ} (hR : R ≠ 0) (hk : k + 1 ≠ 0) (hn : 0 < n) (hm : 0 < m) :
    ConicFace (demoFace (quadric (.fin R) (.fin k)) n m) ⟨⟨0, 0, 0⟩, M3.one⟩ R k (.fin 1) false n m :=
  ⟨pane_framed 0 n m, rfl, Or.inl ⟨hk, rfl⟩, hR, hn, hm, rfl⟩

theorem demoFace_sphere {R n m : ℝ} (hR : R ≠ 0) (hn : 0 < n) (hm : 0 < m) :
    ConicFace (demoFace (sphere (.fin R)) n m) ⟨⟨0, 0, 0⟩, M3.one⟩ R 0 (.fin 1) false n m :=
  ⟨pane_framed 0 n m, rfl, Or.inr ⟨rfl, rfl⟩, hR, hn, hm, rfl⟩

/-- `C122_arrives`, and so `C122_focus`: light that falls on a face of glass of index 2. -/
example {rv : RayVec Dbl} {i : ℕ} (hin : LightAt rv i ⟨3 / 5, 0, 10⟩ ⟨0, 0, -1⟩ 0 (.fin 1) false) :
    ∃ P' U t' b', LightAt ((demoFace (quadric (.fin (-1)) (.fin (-(1 / 2) ^ 2))) 1 2).trace 5 false rv) i P' U t' (.fin 1) b' ∧
      ∃ τ, P' + U.smulR τ = ⟨0, 0, -2⟩ := by
  obtain ⟨P', U, t', b', h1, -, -, -, -, h2⟩ := C122_arrives (e := 1 / 2) (n1 := 1) (n2 := 2) (s := -1) (niter := 5)
    (demoFace_conic (R := -1) (by norm_num) (by norm_num) one_pos two_pos) rfl rfl (by norm_num) (by norm_num) (Or.inr rfl)
    (by rw [frame_tr]; ext <;> norm_num) (by rw [frame_toLocal]; norm_num) (by rw [frame_toLocal]; norm_num [OnQuadric]) hin
  refine ⟨P', U, t', b', h1, _, h2.trans ?_⟩
  ext <;> simp [CoordSys.toGlobal, M3.mulVec, M3.one]; norm_num

/-- `C122_collimate`: light from the far focus of an ellipsoid of glass of index 2. -/
example {rv : RayVec Dbl} {i : ℕ} (hin : LightAt rv i ⟨0, 0, 2⟩ ⟨3 / 10, 0, -2 / 5⟩ 0 (.fin 1) false) :
    ∃ P' U t' b', LightAt ((demoFace (quadric (.fin 1) (.fin (-(1 / 2) ^ 2))) 2 1).trace 5 false rv) i P' U t' (.fin 1) b' ∧
      OnSheet 1 (-(1 / 2) ^ 2) P' ∧ U.x = 0 ∧ U.y = 0 := by
  have hd := demoFace_conic (R := 1) (k := -(1 / 2) ^ 2) (n := 2) (m := 1) (by norm_num) (by norm_num) two_pos one_pos
  have hsh : OnSheet 1 (-(1 / 2) ^ 2) ⟨1, 0, 2 / 3⟩ := ⟨by norm_num [OnQuadric], by norm_num⟩
  have hland : (CoordSys.mk ⟨0, 0, 0⟩ M3.one).toLocal ((⟨0, 0, 2⟩ : V3 ℝ) + (⟨3 / 10, 0, -2 / 5⟩ : V3 ℝ).smulR (10 / 3)) = ⟨1, 0, 2 / 3⟩ := by
    rw [frame_toLocal]; ext <;> norm_num
  obtain ⟨_, hm⟩ := conic_meeting (niter := 5) (P := ⟨0, 0, 2⟩) (V := ⟨3 / 10, 0, -2 / 5⟩) (dt := 10 / 3) (u := ⟨0, 0, -1⟩) hd rfl (by
      rw [frame_tr, frame_toLocal]
      refine C96_quadric (by norm_num) (by norm_num) ⟨by norm_num [pointAt, OnQuadric], fun t' h h' => ?_⟩ (fun h => by norm_num [OnQuadric] at h)
      simp only [OnQuadric, pointAt] at h
      have h1 : (t' - 10 / 3) * (t' + 10 / 7) = 0 := by linear_combination h * (100 / 21)
      rcases mul_eq_zero.1 h1 with h2 | h2
      · exact absurd (by linarith) h'
      · obtain rfl : t' = -(10 / 7) := by linarith
        norm_num [offPlane, pointAt, abs_of_pos]) hland hsh (by
      rw [frame_tr]
      refine ⟨by norm_num, by norm_num, by norm_num [V3.dot], by norm_num [V3.dot], ?_, by norm_num [V3.dot]⟩
      ext <;> norm_num [V3.cross])
  have hl := cross_forward hm hin
  have hV : speed (⟨3 / 10, 0, -2 / 5⟩ : V3 ℝ) = 1 / 2 := speed_of_index two_pos (by norm_num [V3.dot])
  obtain ⟨P', U, t', b', g1, -, g2⟩ := C122_collimate (e := 1 / 2) (n1 := 2) (n2 := 1) (T0 := 0) hd (by norm_num) (by norm_num) hV
    (by ext <;> simp [CoordSys.toGlobal, M3.mulVec, M3.one]; norm_num) hin (light_alive hl)
  have hu := light_unique g1 hl
  have hs : OnSheet 1 (-(1 / 2) ^ 2) ((CoordSys.mk ⟨0, 0, 0⟩ M3.one).toLocal P') := by rw [hu.1, hland]; exact hsh
  obtain ⟨s, -, h3, -⟩ := g2 hs
  rw [frame_tr] at h3
  rw [frame_toLocal] at hs
  exact ⟨P', U, t', b', g1, by simpa using hs, by rw [h3], by rw [h3]⟩

/-- `C122_aplanatic`: light aimed at a point behind a spherical face. -/
example {rv : RayVec Dbl} {i : ℕ} (hin : LightAt rv i ⟨304 / 17, 0, 111 / 17⟩ ⟨-8 / 17, 0, -15 / 17⟩ 0 (.fin 1) false) :
    ∃ P' U t' b', LightAt ((demoFace (sphere (.fin (-10))) 1 (17 / 10)).trace 5 false rv) i P' U t' (.fin 1) b' ∧
      P' + U.smulR (38 - t') = ⟨0, 0, -10 - 100 / 17⟩ := by
  have hd := demoFace_sphere (R := -10) (n := 1) (m := 17 / 10) (by norm_num) one_pos (by norm_num)
  have hsh : OnSheet (-10) 0 ⟨168 / 17, 0, -144 / 17⟩ := ⟨by norm_num [OnQuadric], by norm_num⟩
  have hland : (CoordSys.mk ⟨0, 0, 0⟩ M3.one).toLocal ((⟨304 / 17, 0, 111 / 17⟩ : V3 ℝ) + (⟨-8 / 17, 0, -15 / 17⟩ : V3 ℝ).smulR 17) = ⟨168 / 17, 0, -144 / 17⟩ := by
    rw [frame_toLocal]; ext <;> norm_num
  obtain ⟨_, hm⟩ := conic_meeting (niter := 5) (P := ⟨304 / 17, 0, 111 / 17⟩) (V := ⟨-8 / 17, 0, -15 / 17⟩) (dt := 17) (u := ⟨-8 / 17, 0, -126 / 357⟩) hd rfl (by
      rw [frame_tr, frame_toLocal]
      refine C96_sphere ⟨by norm_num [pointAt, OnSphere], fun t' h h' => ?_⟩ (fun h => by norm_num [OnSphere] at h)
      simp only [OnSphere, pointAt] at h
      have h1 : (t' - 17) * (t' - 29) = 0 := by linear_combination h
      rcases mul_eq_zero.1 h1 with h2 | h2
      · exact absurd (by linarith) h'
      · obtain rfl : t' = 29 := by linarith
        norm_num [towards, pointAt]) hland hsh (by
      rw [frame_tr]
      refine ⟨by norm_num, by norm_num, by norm_num [V3.dot], by norm_num [V3.dot], ?_, by norm_num [V3.dot]⟩
      ext <;> norm_num [V3.cross])
  have hl := cross_forward hm hin
  have hV : speed (⟨-8 / 17, 0, -15 / 17⟩ : V3 ℝ) = 1 / 1 := speed_of_index one_pos (by norm_num [V3.dot])
  obtain ⟨P', U, t', b', g1, -, g2⟩ := C122_aplanatic (n1 := 1) (n2 := 17 / 10) (T0 := 38) hd hV
    (by ext <;> simp [CoordSys.toGlobal, M3.mulVec, M3.one] <;> norm_num) hin (light_alive hl)
  have hu := light_unique g1 hl
  refine ⟨P', U, t', b', g1, (g2 ?_).2.trans ?_⟩
  · rw [hu.1, hland]; norm_num
  · ext <;> simp [CoordSys.toGlobal, M3.mulVec, M3.one]; norm_num

/-- `C122_singlet`: a lens of index 2 with a flat front and a hyperbolic back. -/
noncomputable def demoFlatFront : Optic Dbl := demoComp "T" [.iface (demoPane 20 1 2)]

theorem demoFlatFront_visits : visits demoFlatFront = [demoPane 20 1 2] := by
  simp [demoFlatFront, demoComp, visits, visitsItems, Optic.skip, demoPane, demoMirror]

example {rv : RayVec Dbl} {i : ℕ} (hin : LightAt rv i ⟨1, 0, 30⟩ ⟨0, 0, -1⟩ 0 (.fin 1) false) :
    ∃ P' U t' b', LightAt ((demoFace (quadric (.fin 1) (.fin (-2 ^ 2))) 2 1).trace 5 false (demoFlatFront.trace 5 false rv)) i P' U t' (.fin 1) b' ∧
      ∃ τ, P' + U.smulR τ = ⟨0, 0, -1⟩ := by
  have hd := demoFace_conic (R := 1) (k := -2 ^ 2) (n := 2) (m := 1) (by norm_num) (by norm_num) two_pos one_pos
  have m1 : Meeting 5 (.fin 1) (demoPane 20 1 2) ⟨⟨0, 0, 20⟩, M3.one⟩ ⟨0, 0, 1⟩ ⟨1, 0, 30⟩ ⟨0, 0, -1⟩ 10 ⟨0, 0, -(1 / 2)⟩ := by
    refine plane_meeting rfl (pane_framed _ _ _) (by simp [frame_tr]) (by simp only [frame_tr, frame_toLocal]; norm_num) ?_
    simp only [frame_tr]
    refine .lens rfl (n1 := 1) (n2 := 2) rfl rfl ⟨by norm_num, by norm_num, by norm_num [V3.dot], by norm_num [V3.dot], ?_, by norm_num [V3.dot]⟩
    ext <;> norm_num [V3.cross]
  have l1 := cross_forward m1 hin
  have l1' : LightAt (demoFlatFront.trace 5 false rv) i ((⟨1, 0, 30⟩ : V3 ℝ) + (⟨0, 0, -1⟩ : V3 ℝ).smulR 10) ⟨0, 0, -(1 / 2)⟩ (0 + 10) (.fin 1) (false || clips (demoPane 20 1 2)
      ((CoordSys.mk ⟨0, 0, 20⟩ M3.one).toLocal ((⟨1, 0, 30⟩ : V3 ℝ) + (⟨0, 0, -1⟩ : V3 ℝ).smulR 10))) := by
    rw [trace_visits, demoFlatFront_visits]; exact l1
  obtain ⟨P1, U1, t1, b1, l2, hsh, -⟩ := C122_arrives (e := 2) (n1 := 2) (n2 := 1) (s := -1) (niter := 5) hd rfl rfl (by norm_num) (by norm_num) (Or.inr rfl)
    (by rw [frame_tr]; ext <;> norm_num) (by rw [frame_toLocal]; norm_num) (by rw [frame_toLocal]; norm_num [OnQuadric]) l1'
  have hst : Stack (.fin 1) ((M3.one : M3 ℝ).mulVec ⟨0, 0, 1⟩) false 1 (visits demoFlatFront) 2 := by
    rw [demoFlatFront_visits, show (M3.one : M3 ℝ).mulVec ⟨0, 0, 1⟩ = ⟨0, 0, 1⟩ by ext <;> simp [M3.mulVec, M3.one]]
    exact .face _ (pane_framed _ _ _) rfl (pane_flat _ _ _) (k := 2) (by norm_num) rfl .nil
  obtain ⟨P', U, t', b', g1, -, g2⟩ := C122_singlet (e := 2) hd (by norm_num) (by norm_num) one_pos demoFlatFront 5 hst
    (speed_of_index one_pos (by norm_num [V3.dot])) (by ext <;> simp [tangential, M3.mulVec, M3.one, V3.dot]) hin (light_alive l1') (light_alive l2)
  have hu := light_unique g1 l2
  obtain ⟨-, τ, hτ⟩ := g2 (by rw [hu.1]; exact hsh)
  refine ⟨P', U, t', b', g1, τ, hτ.trans ?_⟩
  ext <;> simp [CoordSys.toGlobal, M3.mulVec, M3.one]; norm_num

end Batoid.Props
