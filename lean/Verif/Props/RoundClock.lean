import Verif.Props.RoundFocus

/-!
# Property C129: clocks in arithmetic with rounding

Specification vocabulary: a ray that leaves `r` with velocity `v` when its clock shows `t0` is at `r + v (t1 - t0)` when it shows `t1`.
-/

namespace Batoid.Props
open Batoid

section c129
variable {u : ℝ} {rd : ℝ → ℝ} {R : ℝ}

/-- The error of clock and place after a way of computed length. -/
noncomputable def clockSlack (u : ℝ) (r v q : V3 ℝ) (t1 : ℝ) : ℝ := 7 * u * (nrm r + nrm (q - r)) + 2 * u * (|t1| * nrm v)

theorem clock_agrees (h : Rounds u rd) (hu : u ≤ 1 / 1000) {r v q : V3 ℝ} {t t0 t1 : ℝ}
    (hq : r.flt rd + (v.flt rd).smulR (Flt.fin rd t) = q.flt rd) (ht : rd (t0 + t) = t1) :
    nrm (q - (r + v.smulR (t1 - t0))) ≤ clockSlack u r v q t1 := by
  have hu0 := h.nonneg
  obtain ⟨k2, k3⟩ := landing_point h hu hq
  have r0 := nrm_nonneg r
  have q0 := nrm_nonneg (q - r)
  have v0 := nrm_nonneg v
  have k4 : nrm (q - (r + v.smulR t)) ≤ 7 * u * (nrm r + nrm (q - r)) := by
    refine k2.trans ?_
    have := mul_le_mul_of_nonneg_left k3 (show 0 ≤ 5 * u by positivity)
    have h1 : u * (u * nrm r) ≤ 1 / 1000 * (u * nrm r) := mul_le_mul_of_nonneg_right hu (by positivity)
    have := mul_nonneg hu0 r0
    have := mul_nonneg hu0 q0
    nlinarith
  have herr := h.err (t0 + t)
  rw [ht] at herr
  have k5 : |t0 + t| ≤ 2 * |t1| := by
    have a1 : |t0 + t| ≤ |t1| + |t1 - (t0 + t)| := by
      have := abs_sub_abs_le_abs_sub (t0 + t) t1
      rw [abs_sub_comm] at this
      linarith
    have a2 := mul_le_mul_of_nonneg_right hu (abs_nonneg (t0 + t))
    linarith [abs_nonneg (t0 + t)]
  have e : q - (r + v.smulR (t1 - t0)) = (q - (r + v.smulR t)) - v.smulR (t1 - (t0 + t)) := by ext <;> simp <;> ring
  rw [e, clockSlack]
  refine (nrm_sub _ _).trans (add_le_add k4 ?_)
  rw [nrm_smulR]
  calc |t1 - (t0 + t)| * nrm v ≤ u * |t0 + t| * nrm v := mul_le_mul_of_nonneg_right herr v0
    _ ≤ u * (2 * |t1|) * nrm v := mul_le_mul_of_nonneg_right (mul_le_mul_of_nonneg_left k5 hu0) v0
    _ = _ := by ring

/-- Any of the four functions moves a ray that survives it to where `intersect` moves it. -/
theorem intersect_clock {s : Surface (Flt rd)} {ct : CoordTransform (Flt rd)} {c : Option (Coating (Flt rd))} {niter : ℕ} {ray : Ray (Flt rd)}
    {r v q : V3 ℝ} {t0 t1 : ℝ} (hr : ct.forward ray.r = r.flt rd) (hv : ct.forwardVel ray.v = v.flt rd) (h0 : ray.t = Flt.fin rd t0)
    (hf : ray.failed = false) (hok : (ray.intersect s ct c niter).failed = false) (hq : (ray.intersect s ct c niter).r = q.flt rd)
    (h1 : (ray.intersect s ct c niter).t = Flt.fin rd t1) :
    ∃ t, r.flt rd + (v.flt rd).smulR (Flt.fin rd t) = q.flt rd ∧ rd (t0 + t) = t1 := by
  obtain ⟨t, ht, hp⟩ := landing_time hf hr hv hok hq
  refine ⟨t, hp, ?_⟩
  unfold Ray.intersect at h1
  simp only [hf, hr, hv, Bool.false_eq_true, if_false, ht, h0, Flt.add_fin, Flt.fin_inj] at h1
  exact h1

/-- `reflect` and `refract` move a ray that survives them to where `intersect` moves it, with the same clock. -/
theorem kernels_clock {F : Type} [Arith F] (s : Surface F) (ct : CoordTransform F) (m : Medium F) (co : Option (Coating F)) (niter : ℕ)
    (ray : Ray F) :
    ((ray.reflect s ct co niter).failed = false → ray.failed = false ∧ (ray.intersect s ct none niter).failed = false ∧
      (ray.reflect s ct co niter).r = (ray.intersect s ct none niter).r ∧ (ray.reflect s ct co niter).t = (ray.intersect s ct none niter).t) ∧
    ((ray.refract s ct m co niter).failed = false → ray.failed = false ∧ (ray.intersect s ct none niter).failed = false ∧
      (ray.refract s ct m co niter).r = (ray.intersect s ct none niter).r ∧ (ray.refract s ct m co niter).t = (ray.intersect s ct none niter).t) := by
  unfold Ray.reflect Ray.refract Ray.intersect
  cases hf : ray.failed
  · simp only [Bool.false_eq_true, if_false]
    generalize s.timeToIntersect (ct.forward ray.r) (ct.forwardVel ray.v) 0 niter = tt
    obtain ⟨ok, dt⟩ := tt
    cases ok
    · simp [Ray.markFailed]
    · dsimp only
      generalize Ray.refractDir (F := F) _ _ _ = x
      cases x <;> simp
  · simp [hf]

/-- **C129** (`intersect`).  Whatever the surface: where the ray is put and what its clock shows agree, and the clock has advanced by the
length of the way over the speed. -/
theorem C129_intersect (h : Rounds u rd) (hu : u ≤ 1 / 1000) (s : Surface (Flt rd)) (ct : CoordTransform (Flt rd))
    (co : Option (Coating (Flt rd))) (niter : ℕ) (ray : Ray (Flt rd)) (hf : ray.failed = false) {r v q : V3 ℝ} {t0 t1 : ℝ}
    (hr : ct.forward ray.r = r.flt rd) (hv : ct.forwardVel ray.v = v.flt rd) (h0 : ray.t = Flt.fin rd t0)
    (hok : (ray.intersect s ct co niter).failed = false) (hq : (ray.intersect s ct co niter).r = q.flt rd)
    (h1 : (ray.intersect s ct co niter).t = Flt.fin rd t1) :
    nrm (q - (r + v.smulR (t1 - t0))) ≤ clockSlack u r v q t1 ∧ |(|t1 - t0| * nrm v - nrm (q - r))| ≤ clockSlack u r v q t1 := by
  obtain ⟨t, hp, ht⟩ := intersect_clock hr hv h0 hf hok hq h1
  have k := clock_agrees h hu hp ht
  refine ⟨k, ?_⟩
  have e : q - (r + v.smulR (t1 - t0)) = (q - r) - v.smulR (t1 - t0) := by ext <;> simp <;> ring
  rw [e] at k
  have a1 := nrm_close (q - r) (v.smulR (t1 - t0))
  have a2 := nrm_close (v.smulR (t1 - t0)) (q - r)
  rw [nrm_sub_comm (v.smulR (t1 - t0)) (q - r)] at a2
  rw [nrm_smulR] at a1 a2
  rw [abs_le]
  constructor <;> linarith

/-- **C129** (`reflect`). -/
theorem C129_reflect (h : Rounds u rd) (hu : u ≤ 1 / 1000) (s : Surface (Flt rd)) (ct : CoordTransform (Flt rd))
    (co : Option (Coating (Flt rd))) (niter : ℕ) (ray : Ray (Flt rd)) {r v q : V3 ℝ} {t0 t1 : ℝ}
    (hr : ct.forward ray.r = r.flt rd) (hv : ct.forwardVel ray.v = v.flt rd) (h0 : ray.t = Flt.fin rd t0)
    (hok : (ray.reflect s ct co niter).failed = false) (hq : (ray.reflect s ct co niter).r = q.flt rd)
    (h1 : (ray.reflect s ct co niter).t = Flt.fin rd t1) :
    nrm (q - (r + v.smulR (t1 - t0))) ≤ clockSlack u r v q t1 ∧ |(|t1 - t0| * nrm v - nrm (q - r))| ≤ clockSlack u r v q t1 := by
  obtain ⟨a1, a2, a3, a4⟩ := (kernels_clock s ct (.const 1) co niter ray).1 hok
  exact C129_intersect h hu s ct none niter ray a1 hr hv h0 a2 (a3.symm.trans hq) (a4.symm.trans h1)

/-- **C129** (`refract`). -/
theorem C129_refract (h : Rounds u rd) (hu : u ≤ 1 / 1000) (s : Surface (Flt rd)) (ct : CoordTransform (Flt rd)) (m : Medium (Flt rd))
    (co : Option (Coating (Flt rd))) (niter : ℕ) (ray : Ray (Flt rd)) {r v q : V3 ℝ} {t0 t1 : ℝ}
    (hr : ct.forward ray.r = r.flt rd) (hv : ct.forwardVel ray.v = v.flt rd) (h0 : ray.t = Flt.fin rd t0)
    (hok : (ray.refract s ct m co niter).failed = false) (hq : (ray.refract s ct m co niter).r = q.flt rd)
    (h1 : (ray.refract s ct m co niter).t = Flt.fin rd t1) :
    nrm (q - (r + v.smulR (t1 - t0))) ≤ clockSlack u r v q t1 ∧ |(|t1 - t0| * nrm v - nrm (q - r))| ≤ clockSlack u r v q t1 := by
  obtain ⟨a1, a2, a3, a4⟩ := (kernels_clock s ct m co niter ray).2 hok
  exact C129_intersect h hu s ct none niter ray a1 hr hv h0 a2 (a3.symm.trans hq) (a4.symm.trans h1)

/-- A plane is met unless the ray goes along it. -/
theorem plane_clock (h : Rounds u rd) (ct : CoordTransform (Flt rd)) (c : Option (Coating (Flt rd))) (niter : ℕ)
    (ray : Ray (Flt rd)) (hf : ray.failed = false) {r v : V3 ℝ} {t0 : ℝ} (hr : ct.forward ray.r = r.flt rd)
    (hv : ct.forwardVel ray.v = v.flt rd) (h0 : ray.t = Flt.fin rd t0) (hz : v.z ≠ 0) :
    (ray.intersect Surface.plane ct c niter).failed = false ∧
      (ray.intersect Surface.plane ct c niter).t = Flt.fin rd (rd (t0 + rd (-r.z / v.z))) := by
  have ez : (Surface.plane (F := Flt rd)).timeToIntersect (r.flt rd) (v.flt rd) 0 niter = (true, Flt.fin rd (rd (-r.z / v.z))) := by
    show (if Arith.eq (Flt.fin rd v.z) 0 = true then _ else (true, -Flt.fin rd r.z / Flt.fin rd v.z)) = _
    rw [flt_zero h, Flt.eq_fin, Flt.neg_fin, Flt.div_fin hz]
    simp [hz]
  unfold Ray.intersect
  simp [hf, hr, hv, ez, h0]

/-- **C129** (parabolic mirrors).  A ray along the axis reaches the mirror when it has gone from its height to that of the mirror. -/
theorem C129_parabola (h : Rounds u rd) (hu : u ≤ 1 / 1000) (hR : R ≠ 0) (ct : CoordTransform (Flt rd)) (co : Option (Coating (Flt rd)))
    (niter : ℕ) (ray : Ray (Flt rd)) {r q : V3 ℝ} {s t0 t1 : ℝ} (hr : ct.forward ray.r = r.flt rd)
    (hv : ct.forwardVel ray.v = (⟨0, 0, s⟩ : V3 ℝ).flt rd) (h0 : ray.t = Flt.fin rd t0)
    (hok : (ray.reflect (.paraboloid (Flt.fin rd R)) ct co niter).failed = false)
    (hq : (ray.reflect (.paraboloid (Flt.fin rd R)) ct co niter).r = q.flt rd)
    (h1 : (ray.reflect (.paraboloid (Flt.fin rd R)) ct co niter).t = Flt.fin rd t1) :
    |(t1 - t0) * s - ((q.x ^ 2 + q.y ^ 2) / (2 * R) - r.z)| ≤
      clockSlack u r ⟨0, 0, s⟩ q t1 + 80 * u * ((nrm r + nrm (q - r)) ^ 2 / (2 * |R|) + (nrm r + nrm (q - r))) := by
  obtain ⟨a1, a2, a3, -⟩ := (kernels_clock (.paraboloid (Flt.fin rd R)) ct (.const 1) co niter ray).1 hok
  have k1 := (C129_reflect h hu _ ct co niter ray hr hv h0 hok hq h1).1
  have k2 := C118_paraboloid h hu hR ct none niter ray a1 hr hv a2 (a3.symm.trans hq)
  have k3 := (abs_coord_le (q - (r + (⟨0, 0, s⟩ : V3 ℝ).smulR (t1 - t0)))).2.2.trans k1
  simp only [V3.sub_z, V3.add_z, V3.smulR_z] at k3
  rw [abs_le] at k2 k3 ⊢
  constructor <;> linarith [k2.1, k2.2, k3.1, k3.2]

/-- **C129** (prime focus).  Parabolic mirror and plane detector through its focus: the clocks of all on-axis rays that start at the same
height with the same clock agree when they are recorded, up to roundings: they show the time to the height `-R / 2` of the directrix.
`C126_prime_focus` bounds `nrm p`. -/
theorem C129_prime_focus (h : Rounds u rd) (hu : u ≤ 1 / 1000) (hR : R ≠ 0) (ct ct' : CoordTransform (Flt rd))
    (co co' : Option (Coating (Flt rd))) (niter : ℕ) (ray : Ray (Flt rd)) {r q w r' w' p : V3 ℝ} {s a b t0 t1 t2 : ℝ} (hs : s ≠ 0)
    (hr : ct.forward ray.r = r.flt rd) (hv : ct.forwardVel ray.v = (⟨0, 0, s⟩ : V3 ℝ).flt rd) (h0 : ray.t = Flt.fin rd t0)
    (hok : (ray.reflect (.paraboloid (Flt.fin rd R)) ct co niter).failed = false)
    (hq : (ray.reflect (.paraboloid (Flt.fin rd R)) ct co niter).r = q.flt rd)
    (hw : (ray.reflect (.paraboloid (Flt.fin rd R)) ct co niter).v = w.flt rd)
    (h1 : (ray.reflect (.paraboloid (Flt.fin rd R)) ct co niter).t = Flt.fin rd t1)
    (hr' : ct'.forward (q.flt rd) = r'.flt rd) (hw' : ct'.forwardVel (w.flt rd) = w'.flt rd)
    (ha : nrm (r' - (q - ⟨0, 0, R / 2⟩)) ≤ a) (hb : nrm (w' - w) ≤ b * |s|) (hz : w' ≠ ⟨0, 0, 0⟩)
    (hok' : ((ray.reflect (.paraboloid (Flt.fin rd R)) ct co niter).intersect Surface.plane ct' co' niter).failed = false)
    (hp : ((ray.reflect (.paraboloid (Flt.fin rd R)) ct co niter).intersect Surface.plane ct' co' niter).r = p.flt rd)
    (h2 : ((ray.reflect (.paraboloid (Flt.fin rd R)) ct co niter).intersect Surface.plane ct' co' niter).t = Flt.fin rd t2) :
    |(t2 - t0) * s - (-(R / 2) - r.z)| ≤
      clockSlack u r ⟨0, 0, s⟩ q t1 + parabolaSlack u R r q +
        (clockSlack u r' w' p t2 + nrm p + (parabolaSlack u R r q + a + (q.x ^ 2 + q.y ^ 2 + R ^ 2) / (2 * |R|) * b)) * (|s| / nrm w') := by
  have hu0 := h.nonneg
  have m := C126_parabola h hu hR ct co niter ray hs hr hv hok hq hw
  have m' := C126_shift m ha hb
  have D0 : 0 ≤ q.x ^ 2 + q.y ^ 2 + R ^ 2 := by positivity
  have sp := abs_pos.2 hs
  have Rp := abs_pos.2 hR
  have wp : 0 < nrm w' := by
    have := ne_zero_sq hz
    have k := nrm_sq w'
    have := nrm_nonneg w'
    nlinarith
  have e : |-((q.x ^ 2 + q.y ^ 2 + R ^ 2) / (2 * (R * s)))| * (b * |s|) = (q.x ^ 2 + q.y ^ 2 + R ^ 2) / (2 * |R|) * b := by
    rw [abs_neg, abs_div, abs_of_nonneg D0, abs_mul, abs_mul, abs_two]; field_simp
  rw [e, show (⟨0, 0, R / 2⟩ - ⟨0, 0, R / 2⟩ : V3 ℝ) = ⟨0, 0, 0⟩ by ext <;> simp] at m'
  unfold Arrives at m'
  obtain ⟨T, hT⟩ : ∃ T, T = -((q.x ^ 2 + q.y ^ 2 + R ^ 2) / (2 * (R * s))) := ⟨_, rfl⟩
  rw [← hT] at m'
  have hTs : T * s = -((q.x ^ 2 + q.y ^ 2) / (2 * R)) - R / 2 := by rw [hT]; field_simp; ring
  have k1 := C129_parabola h hu hR ct co niter ray hr hv h0 hok hq h1
  have k2 := (C129_intersect h hu Surface.plane ct' co' niter _ hok (by rw [hq]; exact hr') (by rw [hw]; exact hw') h1 hok' hp h2).1
  have e3 : w'.smulR (t2 - t1 - T) = (p - (r' + w'.smulR T - ⟨0, 0, 0⟩)) - (p - (r' + w'.smulR (t2 - t1))) := by ext <;> simp <;> ring
  have k3 : |t2 - t1 - T| * nrm w' ≤ clockSlack u r' w' p t2 + nrm p +
      (parabolaSlack u R r q + a + (q.x ^ 2 + q.y ^ 2 + R ^ 2) / (2 * |R|) * b) := by
    rw [← nrm_smulR, e3]
    have b1 := nrm_sub (p - (r' + w'.smulR T - ⟨0, 0, 0⟩)) (p - (r' + w'.smulR (t2 - t1)))
    have b2 := nrm_sub p (r' + w'.smulR T - ⟨0, 0, 0⟩)
    unfold parabolaSlack
    linarith
  have k4 : |(t2 - t1 - T) * s| ≤ (clockSlack u r' w' p t2 + nrm p +
      (parabolaSlack u R r q + a + (q.x ^ 2 + q.y ^ 2 + R ^ 2) / (2 * |R|) * b)) * (|s| / nrm w') := by
    rw [abs_mul, show |t2 - t1 - T| * |s| = |t2 - t1 - T| * nrm w' * (|s| / nrm w') by field_simp]
    exact mul_le_mul_of_nonneg_right k3 (by positivity)
  have e4 : (t2 - t0) * s - (-(R / 2) - r.z) = ((t1 - t0) * s - ((q.x ^ 2 + q.y ^ 2) / (2 * R) - r.z)) + (t2 - t1 - T) * s := by
    linear_combination hTs
  rw [e4]
  refine (abs_add_le _ _).trans (add_le_add (k1.trans ?_) k4)
  have : 0 ≤ 574 * u * ((q.x ^ 2 + q.y ^ 2 + R ^ 2) / (2 * |R|)) := by positivity
  unfold parabolaSlack
  linarith

/-- **C129** (focus to focus).  A ray that left one focus of an ellipsoidal or hyperbolic mirror when its clock showed `t0 + τ`, up to `d`, has
optical path `2 |R| / |1 - e²|` to the other focus, whichever way it took. -/
theorem C129_conic {c : ℕ} {z : ℝ} (h : Rounds u rd) (h1 : rd 1 = 1) (hc : 1 ≤ c) (hcu : (1320 * c + 1000) * u ≤ 1) (hR : R ≠ 0) {e : ℝ}
    (e1 : 1 + e ≠ 0) (e2 : 1 - e ≠ 0) (ct : CoordTransform (Flt rd)) (co : Option (Coating (Flt rd))) (niter : ℕ) (ray : Ray (Flt rd))
    {r v q w : V3 ℝ} {t0 t1 : ℝ}
    (hr : ct.forward ray.r = r.flt rd) (hv : ct.forwardVel ray.v = v.flt rd) (h0 : ray.t = Flt.fin rd t0)
    (hok : (ray.reflect (.quadric (Flt.fin rd R) (Flt.fin rd (-e ^ 2))) ct co niter).failed = false)
    (hq : (ray.reflect (.quadric (Flt.fin rd R) (Flt.fin rd (-e ^ 2))) ct co niter).r = q.flt rd)
    (hw : (ray.reflect (.quadric (Flt.fin rd R) (Flt.fin rd (-e ^ 2))) ct co niter).v = w.flt rd)
    (ht : (ray.reflect (.quadric (Flt.fin rd R) (Flt.fin rd (-e ^ 2))) ct co niter).t = Flt.fin rd t1)
    (ho : OffRim c (-e ^ 2) R q.x q.y) (hz : OnConic (-e ^ 2) R q.x q.y z) (hs : 0 < R * (R - (1 + -e ^ 2) * q.z)) {τ d : ℝ}
    (hτ : Arrives r v τ ⟨0, 0, R / (1 + e)⟩ d) :
    ∃ t', Arrives q w t' ⟨0, 0, R / (1 - e)⟩
        (landSlack u c (-e ^ 2) R (nrm r + nrm (q - r)) + (1452 * c + 844) * u * |R / (1 - e) - e * z| +
          (1 + (1452 * c + 844) * u) * (|(R / (1 - e) - e * z) / (R / (1 + e) + e * z)| *
            (landSlack u c (-e ^ 2) R (nrm r + nrm (q - r)) + (d + 7 * u * (nrm r + nrm (q - r)))))) ∧
      |(|t1 - (t0 + τ) + t'| * nrm v - 2 * |R| / |1 - e ^ 2|)| ≤
        |2 * R / (1 - e ^ 2) / (R / (1 + e) + e * z)| * (landSlack u c (-e ^ 2) R (nrm r + nrm (q - r)) + 7 * u * (nrm r + nrm (q - r)) + d) +
          (7 * u * (nrm r + nrm (q - r)) + clockSlack u r v q t1) := by
  have hc' : (1 : ℝ) ≤ c := by exact_mod_cast hc
  have hu0 := h.nonneg
  have cu : 0 ≤ c * u := by positivity
  obtain ⟨a1, a2, a3, -⟩ := (kernels_clock (.quadric (Flt.fin rd R) (Flt.fin rd (-e ^ 2))) ct (.const 1) co niter ray).1 hok
  have κ1 : -e ^ 2 + 1 ≠ 0 := by
    have := mul_ne_zero e1 e2
    intro hh; apply this; linear_combination hh
  have k1 := height_near hR ho hz hs (C118_quadric h (by nlinarith) h1 R κ1 ct none niter ray a1 hr hv a2 (a3.symm.trans hq))
  rw [show (↑c + 1) / |R| * (210 * u * ((nrm r + nrm (q - r)) ^ 2 + |-e ^ 2 + 1| * (nrm r + nrm (q - r)) ^ 2 + R ^ 2 / |-e ^ 2 + 1|)) =
      landSlack u c (-e ^ 2) R (nrm r + nrm (q - r)) by unfold landSlack; ring, ← vertical q.x q.y] at k1
  obtain ⟨t, b1, b2⟩ := C126_conic h h1 hc hcu hR e1 e2 ct co niter ray hr hv hok hq hw ho hz hs hτ
  refine ⟨_, b2, ?_⟩
  have k2 := (C129_reflect h (by nlinarith) _ ct co niter ray hr hv h0 hok hq ht).1
  obtain ⟨z', n, hz', hn⟩ := conic_exists hR ho
  obtain rfl : z' = z := by
    have := height_near hR ho hz hz'.2 (E := 0) (by rw [abs_le]; constructor <;> linarith [hz'.1])
    rw [mul_zero] at this
    exact sub_eq_zero.1 (abs_nonpos_iff.1 this)
  have A0 := (mirror_conic e1 e2 hz hn).1
  have fd := focal_distance e1 hz
  obtain ⟨A, hA⟩ : ∃ A, A = R / (1 + e) + e * z' := ⟨_, rfl⟩
  have κ2 : 1 - e ^ 2 ≠ 0 := by intro hh; apply κ1; linarith
  have hAB : (R / (1 - e) - e * z') / A + 1 = 2 * R / (1 - e ^ 2) / A := by
    rw [← hA] at A0
    field_simp
    rw [hA]
    field_simp
    ring
  rw [← hA] at fd A0 ⊢
  generalize landSlack u c (-e ^ 2) R (nrm r + nrm (q - r)) = L at *
  generalize 7 * u * (nrm r + nrm (q - r)) = S at *
  unfold Arrives at hτ
  have n1 : |(|t - τ| * nrm v - |A|)| ≤ L + S + d := by
    have e5 : v.smulR (t - τ) - ((⟨q.x, q.y, z'⟩ : V3 ℝ) - ⟨0, 0, R / (1 + e)⟩) =
        ((⟨q.x, q.y, q.z⟩ : V3 ℝ) - ⟨q.x, q.y, z'⟩) - (q - (r + v.smulR t)) - (r + v.smulR τ - ⟨0, 0, R / (1 + e)⟩) := by ext <;> simp <;> ring
    have c1 := nrm_close (v.smulR (t - τ)) ((⟨q.x, q.y, z'⟩ : V3 ℝ) - ⟨0, 0, R / (1 + e)⟩)
    have c2 := nrm_close ((⟨q.x, q.y, z'⟩ : V3 ℝ) - ⟨0, 0, R / (1 + e)⟩) (v.smulR (t - τ))
    rw [nrm_sub_comm ((⟨q.x, q.y, z'⟩ : V3 ℝ) - ⟨0, 0, R / (1 + e)⟩)] at c2
    have c3 := nrm_sub (((⟨q.x, q.y, q.z⟩ : V3 ℝ) - ⟨q.x, q.y, z'⟩) - (q - (r + v.smulR t))) (r + v.smulR τ - ⟨0, 0, R / (1 + e)⟩)
    have c4 := nrm_sub ((⟨q.x, q.y, q.z⟩ : V3 ℝ) - ⟨q.x, q.y, z'⟩) (q - (r + v.smulR t))
    rw [← e5] at c3
    rw [nrm_smulR, fd] at c1 c2
    rw [abs_le]
    constructor <;> linarith
  have n2 : |t1 - t0 - t| * nrm v ≤ S + clockSlack u r v q t1 := by
    rw [← nrm_smulR]
    have e6 : v.smulR (t1 - t0 - t) = (q - (r + v.smulR t)) - (q - (r + v.smulR (t1 - t0))) := by ext <;> simp <;> ring
    rw [e6]
    exact (nrm_sub _ _).trans (add_le_add b1 k2)
  have e7 : t1 - (t0 + τ) + (R / (1 - e) - e * z') / A * (t - τ) = (2 * R / (1 - e ^ 2) / A) * (t - τ) + (t1 - t0 - t) := by
    rw [← hAB]; ring
  have n3 : |(|(2 * R / (1 - e ^ 2) / A) * (t - τ)| * nrm v - 2 * |R| / |1 - e ^ 2|)| ≤ |2 * R / (1 - e ^ 2) / A| * (L + S + d) := by
    have e8 : |(2 * R / (1 - e ^ 2) / A) * (t - τ)| * nrm v - 2 * |R| / |1 - e ^ 2| =
        |2 * R / (1 - e ^ 2) / A| * (|t - τ| * nrm v - |A|) := by
      have := abs_pos.2 A0
      rw [abs_mul, abs_div, abs_div, abs_mul, abs_two]
      field_simp
    rw [e8, abs_mul, abs_abs]
    exact mul_le_mul_of_nonneg_left n1 (abs_nonneg _)
  rw [e7]
  generalize (2 * R / (1 - e ^ 2) / A) * (t - τ) = X at *
  have m1 := mul_le_mul_of_nonneg_right (abs_add_le X (t1 - t0 - t)) (nrm_nonneg v)
  have m2 := mul_le_mul_of_nonneg_right (show |X| ≤ |X + (t1 - t0 - t)| + |t1 - t0 - t| by
    have := abs_sub_abs_le_abs_sub X (-(t1 - t0 - t)); rw [abs_neg, sub_neg_eq_add] at this; linarith) (nrm_nonneg v)
  rw [abs_le] at n3 ⊢
  constructor <;> linarith [n3.1, n3.2]

end c129

/-! ## Concrete cases, in double precision -/

section cases

/-- A paraboloid with radius of curvature 4 and a detector through its focus: the ray that starts at `(2, 0, -1)` along the axis with clock 0
is recorded with clock `-1`, that is `-R / 2 - z`, up to `10⁻¹⁰` (it goes back in time to the focus, as the light comes from below). -/
example : ∃ t2 : ℝ, (((bareRay ⟨2, 0, -1⟩ ⟨0, 0, 1⟩).reflect (.paraboloid (Flt.fin rd53 4)) hereT none 0).intersect Surface.plane (shiftT 2)
    none 0).t = Flt.fin rd53 t2 ∧ |t2 - -1| ≤ 1 / 10 ^ 10 := by
  have h0 := rd53_rounds.zero
  have e2 : (2 : Flt rd53) = Flt.fin rd53 2 := by exact_mod_cast lit53 (n := 2) (by norm_num)
  have e4 : (4 : Flt rd53) = Flt.fin rd53 4 := by exact_mod_cast lit53 (n := 4) (by norm_num)
  have e1 : (1 : Flt rd53) = Flt.fin rd53 1 := by exact_mod_cast lit53 (n := 1) (by norm_num)
  have i1 := rd53_one
  have i2 : rd53 2 = 2 := by exact_mod_cast rd53_nat 2 (by norm_num)
  have i4 : rd53 4 = 4 := by exact_mod_cast rd53_nat 4 (by norm_num)
  have i8 : rd53 8 = 8 := by exact_mod_cast rd53_nat 8 (by norm_num)
  have j1 : rd53 (-1) = -1 := by exact_mod_cast rd53_negNat 1 (by norm_num)
  have j2 : rd53 (-2) = -2 := by exact_mod_cast rd53_negNat 2 (by norm_num)
  have d2 : rd53 (1 / 2) = 1 / 2 := by have := rd53_dyadic 1 (-1) (by norm_num); norm_num at this ⊢; exact this
  have d4 : rd53 (1 / 4) = 1 / 4 := by have := rd53_dyadic 1 (-2) (by norm_num); norm_num [zpow_neg] at this ⊢; exact this
  have d8 : rd53 (1 / 8) = 1 / 8 := by have := rd53_dyadic 1 (-3) (by norm_num); norm_num [zpow_neg] at this ⊢; exact this
  have t2 : rd53 (3 / 2) = 3 / 2 := by have := rd53_dyadic 3 (-1) (by norm_num); norm_num [zpow_neg] at this ⊢; exact this
  have m2 : rd53 (-(3 / 2)) = -(3 / 2) := by have := rd53_dyadic (-3) (-1) (by norm_num); norm_num [zpow_neg] at this ⊢; exact this
  have ht : (Surface.paraboloid (Flt.fin rd53 4)).timeToIntersect (V3.flt rd53 ⟨2, 0, -1⟩) (V3.flt rd53 ⟨0, 0, 1⟩) 0 0 =
      (true, Flt.fin rd53 (3 / 2)) := by
    show Surface.paraboloidTime (Flt.fin rd53 4) (V3.flt rd53 ⟨2, 0, -1⟩) (V3.flt rd53 ⟨0, 0, 1⟩) 0 = _
    simp only [Surface.paraboloidTime, V3.flt, V3.map, e2, e4, e1, flt_zero rd53_rounds, Flt.mul_fin, Flt.add_fin, Flt.sub_fin,
      Flt.lt_fin, Flt.neg_fin, Flt.eq_fin, Flt.div_fin (two_ne_zero (α := ℝ)), Flt.div_fin (four_ne_zero (α := ℝ))]
    norm_num [h0, i1, i2, i4, i8, j1, j2, d2, d4, d8, t2, m2, Flt.div_fin]
  have f := hereT_forward 2 0 (-1) (by norm_num) (by norm_num) (by norm_num)
  have g := hereT_forward 0 0 1 (by norm_num) (by norm_num) (by norm_num)
  norm_num only [Int.cast_zero, Int.cast_neg, Int.cast_ofNat, Int.cast_one] at f g
  have rp : V3.flt rd53 ⟨2, 0, -1⟩ + (V3.flt rd53 ⟨0, 0, 1⟩).smulR (Flt.fin rd53 (3 / 2)) = V3.flt rd53 ⟨2, 0, 1 / 2⟩ := by
    ext <;> simp [V3.flt, V3.map, h0, i2, t2]
    norm_num [d2]
  have s5 : Real.sqrt 5 ^ 2 = 5 := Real.sq_sqrt (by norm_num)
  have sp : 0 < Real.sqrt 5 := Real.sqrt_pos.2 (by norm_num)
  have hz : OnConic (-1) 4 2 0 (1 / 2) := ⟨by norm_num, by norm_num⟩
  have n1 : nrm ⟨-1 / Real.sqrt 5, 0, 2 / Real.sqrt 5⟩ = 1 := by
    have := nrm_sq ⟨-1 / Real.sqrt 5, 0, 2 / Real.sqrt 5⟩
    simp only [div_pow, s5] at this
    have := nrm_nonneg ⟨-1 / Real.sqrt 5, 0, 2 / Real.sqrt 5⟩
    nlinarith
  have hn : ConicNormal (-1) 4 2 0 (1 / 2) ⟨-1 / Real.sqrt 5, 0, 2 / Real.sqrt 5⟩ :=
    ⟨⟨-1 / (2 * Real.sqrt 5), by ext <;> simp <;> field_simp; norm_num⟩, n1, by positivity⟩
  have nw := C125_paraboloid_normal rd53_rounds (by norm_num [zpow_neg]) hz hn
  obtain ⟨a1, a2, a3, a4, w, a5⟩ := bareRay_reflects f.1 g.2 ht rp nw
  obtain ⟨v, hv, hd⟩ := C125_reflect rd53_rounds (by norm_num [zpow_neg]) (C114_paraboloid rd53_rounds (by norm_num [zpow_neg]) 4)
    (by norm_num [zpow_neg]) hereT none 0 (bareRay ⟨2, 0, -1⟩ ⟨0, 0, 1⟩) a5 a3 (x := 2) (y := 0) (by rw [a4]; rfl) (by rw [a4]; rfl) nw n1
    (by norm_num [zpow_neg])
  obtain rfl : v = ⟨0, 0, 1⟩ := V3.flt_inj (hv.symm.trans a2)
  have em : mirrorImage ⟨-1 / Real.sqrt 5, 0, 2 / Real.sqrt 5⟩ ⟨0, 0, 1⟩ = ⟨4 / 5, 0, -(3 / 5)⟩ := by
    ext <;> simp [mirrorImage, V3.dot] <;> field_simp <;> norm_num
  have nv : nrm (⟨0, 0, 1⟩ : V3 ℝ) = 1 := by simp [nrm, V3.normSq, V3.dot]
  rw [em, nv] at hd
  have hd' : nrm (w - ⟨4 / 5, 0, -(3 / 5)⟩) ≤ 1 / 1000 := hd.trans (by norm_num [zpow_neg])
  have nm : nrm (⟨4 / 5, 0, -(3 / 5)⟩ : V3 ℝ) ≤ 1 := nrm_le (by norm_num) (by norm_num)
  have nw1 : nrm w ≤ 2 := by have := nrm_close w ⟨4 / 5, 0, -(3 / 5)⟩; linarith
  obtain ⟨w', b1, b2⟩ := shiftT_vel 2 w
  have r1 := shiftT_forward (x := 2) (y := 0) (z := 1 / 2) (k := 2) i2 h0 (by norm_num [m2])
  have dw : nrm (w' - ⟨4 / 5, 0, -(3 / 5)⟩) ≤ 1 / 100 := by
    have := nrm_via w' w ⟨4 / 5, 0, -(3 / 5)⟩
    linarith
  have wz : w'.z ≤ -(1 / 2) := by
    have := nrm_sq (w' - ⟨4 / 5, 0, -(3 / 5)⟩)
    have := nrm_nonneg (w' - ⟨4 / 5, 0, -(3 / 5)⟩)
    simp only [V3.sub_z] at *
    have := (abs_le_of_sq_le_sq' (a := w'.z - -(3 / 5)) (b := 1 / 100) 
      (by nlinarith [sq_nonneg (w' - ⟨4 / 5, 0, -(3 / 5)⟩).x, sq_nonneg (w' - ⟨4 / 5, 0, -(3 / 5)⟩).y]) (by norm_num)).2
    linarith
  have nw' : nrm w' ≤ 2 := by have := nrm_close w' ⟨4 / 5, 0, -(3 / 5)⟩; linarith
  obtain ⟨p, k1, k2⟩ := C126_prime_focus rd53_rounds (by norm_num [zpow_neg]) (by norm_num) hereT (shiftT 2) none none 0 _ one_ne_zero a1 a2 a3 a4 a5
    r1 b1 (a := 0) (b := 8 / 10 ^ 15) (nrm_le le_rfl (by norm_num)) (by rw [abs_one]; linarith) (by linarith)
  have q1 : nrm ((⟨2, 0, 1 / 2⟩ : V3 ℝ) - ⟨2, 0, -1⟩) = 3 / 2 := by rw [vertical]; norm_num
  have q2 : nrm (⟨2, 0, -1⟩ : V3 ℝ) ≤ 3 := nrm_le (by norm_num) (by norm_num)
  have q0 := nrm_nonneg (⟨2, 0, -1⟩ : V3 ℝ)
  have q3 : nrm (⟨2, 0, 1 / 2 - 2⟩ : V3 ℝ) ≤ 3 := nrm_le (by norm_num) (by norm_num)
  have q4 : nrm w' / |w'.z| ≤ 4 := by
    rw [abs_of_neg (by linarith), div_le_iff₀ (by linarith)]; linarith
  have q5 : 0 ≤ nrm w' / |w'.z| := div_nonneg (nrm_nonneg _) (abs_nonneg _)
  generalize nrm w' / |w'.z| = g' at *
  have q6 : 1 / 2 ≤ nrm w' := by have := (abs_coord_le w').2.2; rw [abs_of_neg (by linarith)] at this; linarith
  have PS : parabolaSlack (2 ^ (-53 : ℤ)) 4 ⟨2, 0, -1⟩ ⟨2, 0, 1 / 2⟩ ≤ 1 / 10 ^ 12 := by
    unfold parabolaSlack
    rw [q1]
    norm_num [zpow_neg]
    nlinarith
  have c1 : ((bareRay ⟨2, 0, -1⟩ ⟨0, 0, 1⟩).reflect (.paraboloid (Flt.fin rd53 4)) hereT none 0).t = Flt.fin rd53 (3 / 2) := by
    unfold Ray.reflect
    simp only [bareRay, f.1, g.2, ht, Bool.false_eq_true, if_false]
    rw [flt_zero rd53_rounds, Flt.add_fin, zero_add, t2]
  obtain ⟨c2, c3⟩ := plane_clock rd53_rounds (shiftT 2) none 0 _ a3 (by rw [a4]; exact r1) (by rw [a5]; exact b1) c1 (by linarith)
  refine ⟨_, c3, ?_⟩
  have key := C129_prime_focus rd53_rounds (by norm_num [zpow_neg]) (by norm_num) hereT (shiftT 2) none none 0 _ one_ne_zero a1 a2
    (t0 := 0) (by rw [← flt_zero rd53_rounds]; rfl) a3 a4 a5 c1 r1 b1 (a := 0) (b := 8 / 10 ^ 15) (nrm_le le_rfl (by norm_num))
    (by rw [abs_one]; linarith) (by intro hh; rw [hh] at wz; norm_num at wz) c2 k1 c3
  obtain ⟨T, hT⟩ : ∃ T, T = rd53 (3 / 2 + rd53 (-(⟨2, 0, 1 / 2 - 2⟩ : V3 ℝ).z / w'.z)) := ⟨_, rfl⟩
  rw [← hT] at key ⊢
  have T5 : |T| ≤ 10 := by
    have b1 : |-(⟨2, 0, 1 / 2 - 2⟩ : V3 ℝ).z / w'.z| ≤ 3 := by
      rw [abs_div, abs_of_neg (show w'.z < 0 by linarith), div_le_iff₀ (by linarith)]
      norm_num
      linarith
    have b2 := rd53_rounds.err (-(⟨2, 0, 1 / 2 - 2⟩ : V3 ℝ).z / w'.z)
    have b3 := rd53_rounds.err (3 / 2 + rd53 (-(⟨2, 0, 1 / 2 - 2⟩ : V3 ℝ).z / w'.z))
    rw [← hT] at b3
    generalize -(⟨2, 0, 1 / 2 - 2⟩ : V3 ℝ).z / w'.z = X at *
    have b4 : |rd53 X| ≤ 4 := by
      have := abs_sub_abs_le_abs_sub (rd53 X) X
      have k := b2.trans (mul_le_mul_of_nonneg_right (show (2 : ℝ) ^ (-53 : ℤ) ≤ 1 / 10 by norm_num [zpow_neg]) (abs_nonneg X))
      linarith only [this, k, b1]
    have b5 : |3 / 2 + rd53 X| ≤ 6 := by rw [abs_le] at b4 ⊢; constructor <;> linarith
    have := abs_sub_abs_le_abs_sub T (3 / 2 + rd53 X)
    have k := b3.trans (mul_le_mul_of_nonneg_right (show (2 : ℝ) ^ (-53 : ℤ) ≤ 1 / 10 by norm_num [zpow_neg]) (abs_nonneg (3 / 2 + rd53 X)))
    linarith only [this, k, b5]
  have np : nrm p ≤ 1 / 10 ^ 11 := by
    refine k2.trans ?_
    have p0 : 0 ≤ parabolaSlack (2 ^ (-53 : ℤ)) 4 ⟨2, 0, -1⟩ ⟨2, 0, 1 / 2⟩ := by unfold parabolaSlack; positivity
    generalize parabolaSlack (2 ^ (-53 : ℤ)) 4 ⟨2, 0, -1⟩ ⟨2, 0, 1 / 2⟩ = P at *
    have a1 : P + 0 + ((2 : ℝ) ^ 2 + 0 ^ 2 + 4 ^ 2) / (2 * |4|) * (8 / 10 ^ 15) + 5 * 2 ^ (-53 : ℤ) * |1 / 2 - 2| ≤ 2 / 10 ^ 12 := by
      have : (5 : ℝ) * 2 ^ (-53 : ℤ) * |1 / 2 - 2| ≤ 1 / 10 ^ 13 := by norm_num [zpow_neg, abs_of_neg]
      have : ((2 : ℝ) ^ 2 + 0 ^ 2 + 4 ^ 2) / (2 * |4|) * (8 / 10 ^ 15) ≤ 1 / 10 ^ 13 := by norm_num
      linarith only [PS, p0, ‹_ ≤ (1 : ℝ) / 10 ^ 13›, this, ‹(5 : ℝ) * 2 ^ (-53 : ℤ) * |1 / 2 - 2| ≤ 1 / 10 ^ 13›]
    have a2 := mul_le_mul a1 q4 q5 (by norm_num)
    have a3 : (2 : ℝ) ^ (-53 : ℤ) * nrm (⟨2, 0, 1 / 2 - 2⟩ : V3 ℝ) ≤ 2 ^ (-53 : ℤ) * 3 := mul_le_mul_of_nonneg_left q3 (by positivity)
    have a4 : (2 : ℝ) ^ (-53 : ℤ) * 3 ≤ 1 / 10 ^ 12 := by norm_num [zpow_neg]
    refine (add_le_add a2 a3).trans ?_
    linarith only [a4]
  have C1 : clockSlack (2 ^ (-53 : ℤ)) ⟨2, 0, -1⟩ ⟨0, 0, 1⟩ ⟨2, 0, 1 / 2⟩ (3 / 2) ≤ 1 / 10 ^ 12 := by
    unfold clockSlack
    rw [q1, nv]
    clear * - q2 q0
    generalize nrm (⟨2, 0, -1⟩ : V3 ℝ) = x at *
    norm_num [zpow_neg, abs_of_pos]
    linarith
  have C2 : clockSlack (2 ^ (-53 : ℤ)) ⟨2, 0, 1 / 2 - 2⟩ w' p T ≤ 1 / 10 ^ 12 := by
    unfold clockSlack
    have s1 : nrm (p - ⟨2, 0, 1 / 2 - 2⟩) ≤ 4 := by 
      have := nrm_sub p ⟨2, 0, 1 / 2 - 2⟩
      have : (1 : ℝ) / 10 ^ 11 ≤ 1 := by norm_num
      linarith only [this, ‹nrm (p - _) ≤ _›, np, q3]
    have s2 : |T| * nrm w' ≤ 10 * 2 := mul_le_mul T5 nw' (nrm_nonneg _) (by norm_num)
    clear * - s1 s2 q3
    generalize nrm (p - ⟨2, 0, 1 / 2 - 2⟩) = x at *
    generalize nrm (⟨2, 0, 1 / 2 - 2⟩ : V3 ℝ) = y at *
    generalize |T| * nrm w' = z at *
    norm_num [zpow_neg] at *
    linarith
  have p0 : 0 ≤ parabolaSlack (2 ^ (-53 : ℤ)) 4 ⟨2, 0, -1⟩ ⟨2, 0, 1 / 2⟩ := by unfold parabolaSlack; positivity
  have g2 : |(1 : ℝ)| / nrm w' ≤ 2 := by rw [abs_one, div_le_iff₀ (by linarith)]; linarith
  have g0 : 0 ≤ |(1 : ℝ)| / nrm w' := div_nonneg (abs_nonneg _) (nrm_nonneg _)
  generalize |(1 : ℝ)| / nrm w' = G at *
  generalize parabolaSlack (2 ^ (-53 : ℤ)) 4 ⟨2, 0, -1⟩ ⟨2, 0, 1 / 2⟩ = P at *
  generalize clockSlack (2 ^ (-53 : ℤ)) ⟨2, 0, -1⟩ ⟨0, 0, 1⟩ ⟨2, 0, 1 / 2⟩ (3 / 2) = A1 at *
  generalize clockSlack (2 ^ (-53 : ℤ)) ⟨2, 0, 1 / 2 - 2⟩ w' p T = A2 at *
  have np0 := nrm_nonneg p
  generalize nrm p = N at *
  rw [show (T - 0) * 1 - (-(4 / 2) - (⟨2, 0, -1⟩ : V3 ℝ).z) = T - -1 by norm_num] at key
  refine key.trans ?_
  have big : A2 + N + (P + 0 + ((2 : ℝ) ^ 2 + 0 ^ 2 + 4 ^ 2) / (2 * |4|) * (8 / 10 ^ 15)) ≤ 2 / 10 ^ 11 := by
    have : ((2 : ℝ) ^ 2 + 0 ^ 2 + 4 ^ 2) / (2 * |4|) * (8 / 10 ^ 15) ≤ 1 / 10 ^ 12 := by norm_num
    linarith only [this, C2, np, PS]
  have := mul_le_mul big g2 g0 (by norm_num)
  linarith only [this, C1, PS]

/-- The ray from the inner focus of the hyperboloid `x² + y² - 8 z² = 8 z` sideways: its paths from one focus and to the other differ by the
length 1 of the axis between the sheets, up to `10⁻¹⁰`. -/
example : ∃ t1 t' : ℝ, ∃ w : V3 ℝ,
    ((bareRay ⟨0, 0, 1⟩ ⟨1, 0, 0⟩).reflect (.quadric (Flt.fin rd53 4) (Flt.fin rd53 (-3 ^ 2))) hereT none 0).t = Flt.fin rd53 t1 ∧
    ((bareRay ⟨0, 0, 1⟩ ⟨1, 0, 0⟩).reflect (.quadric (Flt.fin rd53 4) (Flt.fin rd53 (-3 ^ 2))) hereT none 0).v = w.flt rd53 ∧
    Arrives ⟨-4, 0, 1⟩ w t' ⟨0, 0, -2⟩ (1 / 10 ^ 10) ∧ |(|t1 + t'| - 1)| ≤ 1 / 10 ^ 10 := by
  have h0 := rd53_rounds.zero
  have e2 : (2 : Flt rd53) = Flt.fin rd53 2 := by exact_mod_cast lit53 (n := 2) (by norm_num)
  have e4 : (4 : Flt rd53) = Flt.fin rd53 4 := by exact_mod_cast lit53 (n := 4) (by norm_num)
  have e1 : (1 : Flt rd53) = Flt.fin rd53 1 := by exact_mod_cast lit53 (n := 1) (by norm_num)
  have i : ∀ n : ℕ, n < 10000 → rd53 (n : ℝ) = n := fun n hn => rd53_nat n (by omega)
  have j : ∀ n : ℕ, n < 10000 → rd53 (-(n : ℝ)) = -n := fun n hn => rd53_negNat n (by omega)
  have i1 := rd53_one
  have i2 : rd53 2 = 2 := by exact_mod_cast i 2 (by norm_num)
  have i4 : rd53 4 = 4 := by exact_mod_cast i 4 (by norm_num)
  have i16 : rd53 16 = 16 := by exact_mod_cast i 16 (by norm_num)
  have j8 : rd53 (-8) = -8 := by exact_mod_cast j 8 (by norm_num)
  have j4 : rd53 (-4) = -4 := by exact_mod_cast j 4 (by norm_num)
  have j2 : rd53 (-2) = -2 := by exact_mod_cast j 2 (by norm_num)
  have j1 : rd53 (-1) = -1 := by exact_mod_cast j 1 (by norm_num)
  have d2 : rd53 (-(1 / 2)) = -(1 / 2) := by have := rd53_dyadic (-1) (-1) (by norm_num); norm_num at this ⊢; exact this
  have d8 : rd53 (-(1 / 8)) = -(1 / 8) := by have := rd53_dyadic (-1) (-3) (by norm_num); norm_num [zpow_neg] at this ⊢; exact this
  have d4 : rd53 (1 / 4) = 1 / 4 := by have := rd53_dyadic 1 (-2) (by norm_num); norm_num [zpow_neg] at this ⊢; exact this
  have dm4 : rd53 (-(1 / 4)) = -(1 / 4) := by have := rd53_dyadic (-1) (-2) (by norm_num); norm_num [zpow_neg] at this ⊢; exact this
  have d32 : rd53 (3 / 2) = 3 / 2 := by have := rd53_dyadic 3 (-1) (by norm_num); norm_num [zpow_neg] at this ⊢; exact this
  have d94 : rd53 (9 / 4) = 9 / 4 := by have := rd53_dyadic 9 (-2) (by norm_num); norm_num [zpow_neg] at this ⊢; exact this
  have p2 : rd53 (1 / 2) = 1 / 2 := by have := rd53_dyadic 1 (-1) (by norm_num); norm_num at this ⊢; exact this
  have ht : (Surface.quadric (Flt.fin rd53 4) (Flt.fin rd53 (-3 ^ 2))).timeToIntersect (V3.flt rd53 ⟨0, 0, 1⟩) (V3.flt rd53 ⟨1, 0, 0⟩) 0 0 =
      (true, Flt.fin rd53 (-4)) := by
    show Surface.quadricTime (Flt.fin rd53 4) (Flt.fin rd53 (-3 ^ 2)) (V3.flt rd53 ⟨0, 0, 1⟩) (V3.flt rd53 ⟨1, 0, 0⟩) 0 = _
    have k2 : rd53 (-3 ^ 2 + 1) = -8 := by norm_num [j8]
    have n8 : (-8 : ℝ) ≠ 0 := by norm_num
    simp only [Surface.quadricTime, Surface.rootPair, V3.flt, V3.map, e2, e4, e1, flt_zero rd53_rounds, Flt.mul_fin, Flt.add_fin, Flt.sub_fin,
      Flt.lt_fin, Flt.gt_fin, Flt.neg_fin, k2, Flt.div_fin n8]
    norm_num [h0, i1, i2, i4, i16, j1, j2, j4, j8, d2, d8, d4, dm4, d32, d94, p2, Flt.sqrt_fin, Flt.add_fin, Flt.div_fin, Flt.mul_fin,
      Flt.abs_fin, Flt.lt_fin, Flt.sub_fin]
  have f := hereT_forward 0 0 1 (by norm_num) (by norm_num) (by norm_num)
  have g := hereT_forward 1 0 0 (by norm_num) (by norm_num) (by norm_num)
  norm_num only [Int.cast_zero, Int.cast_neg, Int.cast_ofNat, Int.cast_one] at f g
  have rp : V3.flt rd53 ⟨0, 0, 1⟩ + (V3.flt rd53 ⟨1, 0, 0⟩).smulR (Flt.fin rd53 (-4)) = V3.flt rd53 ⟨-4, 0, 1⟩ := by
    ext <;> simp [V3.flt, V3.map, h0, j4, i1]
  have ho : OffRim 1 (-3 ^ 2) 4 (-4) 0 := by unfold OffRim; norm_num
  have hz : OnConic (-3 ^ 2) 4 (-4) 0 1 := ⟨by norm_num, by norm_num⟩
  obtain ⟨z, n, hz', hn⟩ := conic_exists (by norm_num) ho
  obtain ⟨a1, a2, a3, a4, w, a5⟩ := bareRay_reflects f.1 g.2 ht rp
    (C125_quadric_normal rd53_rounds rd53_one le_rfl (by norm_num [zpow_neg]) ho hz' hn)
  have c1 : ((bareRay ⟨0, 0, 1⟩ ⟨1, 0, 0⟩).reflect (.quadric (Flt.fin rd53 4) (Flt.fin rd53 (-3 ^ 2))) hereT none 0).t = Flt.fin rd53 (-4) := by
    unfold Ray.reflect
    simp only [bareRay, f.1, g.2, ht, Bool.false_eq_true, if_false]
    rw [flt_zero rd53_rounds, Flt.add_fin, zero_add, j4]
  obtain ⟨t', k, l⟩ := C129_conic rd53_rounds rd53_one (c := 1) le_rfl (by norm_num [zpow_neg]) (by norm_num) (e := 3) (by norm_num) (by norm_num)
    hereT none 0 _ a1 a2 (t0 := 0) (by rw [← flt_zero rd53_rounds]; rfl) a3 a4 a5 c1 ho hz (by norm_num) (τ := 0) (d := 0)
    (by unfold Arrives; refine nrm_le le_rfl ?_; norm_num)
  refine ⟨-4, t', w, c1, a5, ?_⟩
  have nv : nrm (⟨1, 0, 0⟩ : V3 ℝ) = 1 := by simp [nrm, V3.normSq, V3.dot]
  have b0 := nrm_nonneg (⟨0, 0, 1⟩ : V3 ℝ)
  have b1 : nrm (⟨0, 0, 1⟩ : V3 ℝ) ≤ 1 := nrm_le (by norm_num) (by norm_num)
  have b2 : nrm ((⟨-4, 0, 1⟩ : V3 ℝ) - ⟨0, 0, 1⟩) ≤ 4 := nrm_le (by norm_num) (by norm_num)
  have b3 := nrm_nonneg ((⟨-4, 0, 1⟩ : V3 ℝ) - ⟨0, 0, 1⟩)
  rw [nv] at l
  clear * - k l b0 b1 b2 b3 nv
  constructor
  · norm_num [Arrives] at k ⊢
    refine k.trans ?_
    norm_num [zpow_neg, landSlack]
    nlinarith
  · norm_num at l ⊢
    refine l.trans ?_
    norm_num [zpow_neg, landSlack, clockSlack, nv]
    nlinarith

end cases
end Batoid.Props
