import Verif.Kernels
import Verif.Props.Frames

/-!
# Properties C08-C11, C15, C19: reflection, refraction, propagation to a surface, screens

Stated on ideal doubles for an arbitrary surface: a `Hit` says that a live ray with finite data meets
the surface at a finite time, and names the point, velocity and normal there (in the frame of the surface).
-/

namespace Batoid.Props
open Batoid

/-- A live ray meets the surface: in the destination frame it starts at `r` with velocity `v`, the solver
reports time `dt`, and the surface normal at the meeting point is `n`. -/
structure Hit (s : Surface Dbl) (ct : CoordTransform Dbl) (niter : ℕ) (ray : Ray Dbl)
    (r v n : V3 ℝ) (dt : ℝ) : Prop where
  live : ray.failed = false
  pos : ct.forward ray.r = r.fin
  vel : ct.forwardVel ray.v = v.fin
  time : s.timeToIntersect r.fin v.fin 0 niter = (true, Dbl.fin dt)
  normal : s.normal (Dbl.fin (r + v.smulR dt).x) (Dbl.fin (r + v.smulR dt).y) = n.fin

/-- Unit vector. -/
def IsUnit' (n : V3 ℝ) : Prop := V3.dot n n = 1

/-- Speed. -/
noncomputable def speed (v : V3 ℝ) : ℝ := Real.sqrt (V3.dot v v)

/-- Component of `v` in the plane perpendicular to the unit vector `n`. -/
def tangential (v n : V3 ℝ) : V3 ℝ := v - V3.smul (V3.dot v n) n

theorem dot_self_nonneg (v : V3 ℝ) : 0 ≤ V3.dot v v := V3.normSq_nonneg v

theorem speed_pos {v : V3 ℝ} (h : v ≠ ⟨0, 0, 0⟩) : 0 < speed v := Real.sqrt_pos.mpr (V3.normSq_pos h)
theorem speed_nonneg (v : V3 ℝ) : 0 ≤ speed v := Real.sqrt_nonneg _
theorem speed_sq (v : V3 ℝ) : speed v * speed v = V3.dot v v := Real.mul_self_sqrt (dot_self_nonneg v)

theorem invSpeed_fin {v : V3 ℝ} (h : v ≠ ⟨0, 0, 0⟩) :
    Ray.invSpeed v.fin = Dbl.fin (1 / speed v) := by
  have h0 := dot_self_nonneg v
  have h1 : speed v ≠ 0 := (speed_pos h).ne'
  unfold speed at h1 ⊢
  simp [Ray.invSpeed, h0, h1]

/-! ## C08 -/

/-- The mirror image of a velocity in the plane perpendicular to `n`. -/
def mirror (n v : V3 ℝ) : V3 ℝ := v - V3.smul (2 * V3.dot v n) n

theorem reflect_hit {s : Surface Dbl} {ct : CoordTransform Dbl} {niter : ℕ} {ray : Ray Dbl}
    {r v n : V3 ℝ} {dt : ℝ} (h : Hit s ct niter ray r v n dt) (c : Option (Coating Dbl)) :
    (Ray.reflect s ct c niter ray).r = (r + v.smulR dt).fin ∧
    (Ray.reflect s ct c niter ray).v = (mirror n v).fin ∧
    (Ray.reflect s ct c niter ray).t = ray.t + Dbl.fin dt ∧
    (Ray.reflect s ct c niter ray).failed = false ∧
    (Ray.reflect s ct c niter ray).vignetted = ray.vignetted ∧
    (Ray.reflect s ct c niter ray).wavelength = ray.wavelength := by
  have hn := h.normal
  simp only [Ray.reflect, h.live, h.pos, h.vel, h.time]
  simp only [V3.fin_smulR, V3.fin_add, V3.fin_x, V3.fin_y, hn]
  simp [mirror]

/-- C08: law of reflection.  The reflected velocity keeps its tangential part, reverses its normal
part, has the same speed as the incident ray, and reflecting it again on the same normal restores the
incident velocity. -/
theorem C08_law_of_reflection {s : Surface Dbl} {ct : CoordTransform Dbl} {niter : ℕ} {ray : Ray Dbl}
    {r v n : V3 ℝ} {dt : ℝ} (h : Hit s ct niter ray r v n dt) (hn : IsUnit' n) (c : Option (Coating Dbl)) :
    ∃ u : V3 ℝ, (Ray.reflect s ct c niter ray).v = u.fin ∧
      (Ray.reflect s ct c niter ray).failed = false ∧
      speed u = speed v ∧
      tangential u n = tangential v n ∧
      V3.dot u n = -V3.dot v n ∧
      (∀ (s' : Surface Dbl) (ct' : CoordTransform Dbl) (niter' : ℕ) (ray' : Ray Dbl) (r' : V3 ℝ) (dt' : ℝ),
        Hit s' ct' niter' ray' r' u n dt' → (Ray.reflect s' ct' c niter' ray').v = v.fin) := by
  unfold IsUnit' at hn
  have h1 : V3.dot (mirror n v) n = -V3.dot v n := by
    have : V3.dot (mirror n v) n = V3.dot v n - 2 * V3.dot v n * V3.dot n n := by
      simp [mirror, V3.dot]; ring
    rw [this, hn]; ring
  have h2 : mirror n (mirror n v) = v := by
    have : mirror n (mirror n v) = mirror n v - V3.smul (2 * V3.dot (mirror n v) n) n := rfl
    rw [this, h1]; ext <;> simp [mirror]
  refine ⟨mirror n v, (reflect_hit h c).2.1, (reflect_hit h c).2.2.2.1, ?_, ?_, h1, ?_⟩
  · unfold speed; congr 1
    have : V3.dot (mirror n v) (mirror n v)
        = V3.dot v v - 4 * V3.dot v n * V3.dot v n * (1 - V3.dot n n) := by
      simp [mirror, V3.dot]; ring
    rw [this, hn]; ring
  · rw [tangential, h1, tangential]; ext <;> simp [mirror] <;> ring
  · intro s' ct' niter' ray' r' dt' h'
    rw [(reflect_hit h' c).2.1, h2]

/-- C08: reversibility on the whole state: a reflected ray sent back (velocity reversed, at the same
point) reflects into the reversed incident velocity. -/
theorem C08_reversible {n v : V3 ℝ} (hn : IsUnit' n)
    {s : Surface Dbl} {ct ct' : CoordTransform Dbl} {niter niter' : ℕ} {ray ray' : Ray Dbl} {r r' : V3 ℝ} {dt dt' : ℝ}
    (c c' : Option (Coating Dbl)) {u : V3 ℝ}
    (h : Hit s ct niter ray r v n dt) (hu : (Ray.reflect s ct c niter ray).v = u.fin)
    (h' : Hit s ct' niter' ray' r' (-u) n dt') :
    (Ray.reflect s ct' c' niter' ray').v = (-v).fin := by
  have e : u = mirror n v := by
    have := (reflect_hit h c).2.1
    rw [hu, V3.fin_inj] at this; exact this
  rw [(reflect_hit h' c').2.1, V3.fin_inj, e]
  unfold IsUnit' at hn
  have h1 : V3.dot (-(mirror n v)) n = V3.dot v n * (2 * V3.dot n n - 1) := by
    simp [mirror, V3.dot]; ring
  rw [hn] at h1
  rw [mirror, h1]
  ext <;> simp [mirror] <;> ring

/-! ## C09, C10 -/

/-- Spec-level orientation: the normal turned against the ray. -/
noncomputable def against (n v : V3 ℝ) : V3 ℝ := if 0 < V3.dot v n then -n else n

/-- Refracted velocity in plain real arithmetic (closed form of the code). -/
noncomputable def refractR (n2 : ℝ) (n v : V3 ℝ) : V3 ℝ :=
  let n1 := 1 / speed v
  let nv := v.smulR n1
  let m := against n v
  let al := V3.dot nv m
  let eta := n1 / n2
  let w := V3.smul eta nv - V3.smul (eta * al + Real.sqrt (1 - eta * eta * (1 - al * al))) m
  ⟨w.x / n2, w.y / n2, w.z / n2⟩

/-- `(n1/n2)^2 sin^2` of the angle of incidence, with `sin^2 = |v̂ × n|^2`. -/
noncomputable def snellSin2 (n2 : ℝ) (n v : V3 ℝ) : ℝ :=
  (1 / speed v / n2) ^ 2 * V3.normSq (V3.cross (v.smulR (1 / speed v)) n)

theorem unit_dir {v : V3 ℝ} (h : v ≠ ⟨0, 0, 0⟩) : V3.dot (v.smulR (1 / speed v)) (v.smulR (1 / speed v)) = 1 := by
  have hp := (speed_pos h).ne'
  have : V3.dot (v.smulR (1 / speed v)) (v.smulR (1 / speed v)) = V3.dot v v * (1 / speed v * (1 / speed v)) := by
    simp [V3.dot]; ring
  rw [this, ← speed_sq]; field_simp

theorem cross_normSq (a b : V3 ℝ) :
    V3.normSq (V3.cross a b) = V3.dot a a * V3.dot b b - V3.dot a b * V3.dot a b := by
  simp [V3.normSq, V3.dot]; ring

theorem against_unit {n v : V3 ℝ} (hn : IsUnit' n) : V3.dot (against n v) (against n v) = 1 := by
  unfold IsUnit' at hn
  unfold against
  split
  · rw [← hn]; simp [V3.dot]
  · exact hn

theorem against_dot_sq (n v u : V3 ℝ) :
    V3.dot u (against n v) * V3.dot u (against n v) = V3.dot u n * V3.dot u n := by
  unfold against
  split
  · simp [V3.dot]; ring
  · rfl

theorem sin2_eq {n2 : ℝ} {n v : V3 ℝ} (hv : v ≠ ⟨0, 0, 0⟩) (hn : IsUnit' n) :
    (1 / speed v / n2) * (1 / speed v / n2) *
      (1 - V3.dot (v.smulR (1 / speed v)) (against n v) * V3.dot (v.smulR (1 / speed v)) (against n v))
      = snellSin2 n2 n v := by
  unfold IsUnit' at hn
  rw [snellSin2, cross_normSq, unit_dir hv, hn, against_dot_sq]; ring

theorem dot_smulR_pos {v n : V3 ℝ} (hv : v ≠ ⟨0, 0, 0⟩) :
    0 < V3.dot (v.smulR (1 / speed v)) n ↔ 0 < V3.dot v n := by
  have hp := speed_pos hv
  have : V3.dot (v.smulR (1 / speed v)) n = V3.dot v n * (1 / speed v) := by simp [V3.dot]; ring
  rw [this]
  constructor
  · intro h; exact (pos_iff_pos_of_mul_pos h).2 (by positivity)
  · intro h; positivity

theorem orient_fin {v n : V3 ℝ} (hv : v ≠ ⟨0, 0, 0⟩) :
    Ray.orient n.fin (v.smulR (1 / speed v)).fin
      = ((against n v).fin, Dbl.fin (V3.dot (v.smulR (1 / speed v)) (against n v))) := by
  unfold Ray.orient
  by_cases h : 0 < V3.dot v n
  · have h' := (dot_smulR_pos hv).2 h
    simp only [V3.fin_dot, Dbl.zero_dbl, Dbl.gt_fin, h', decide_true, if_true, against, h]
    refine Prod.ext ?_ ?_
    · ext <;> simp
    · simp [V3.dot]; ring
  · have h' : ¬ 0 < V3.dot (v.smulR (1 / speed v)) n := fun hh => h ((dot_smulR_pos hv).1 hh)
    simp only [V3.fin_dot, Dbl.zero_dbl, Dbl.gt_fin, h', decide_false, Bool.false_eq_true, if_false, against, h]

/-- Refinement of the code's refraction to real arithmetic: total internal reflection exactly when
`(n1/n2)^2 sin^2 > 1`, otherwise the closed form. -/
theorem refractDir_fin {n2 : ℝ} {n v : V3 ℝ} (hv : v ≠ ⟨0, 0, 0⟩) (hn : IsUnit' n) (h2 : 0 < n2) :
    Ray.refractDir (Dbl.fin n2) n.fin v.fin
      = if 1 < snellSin2 n2 n v then none else some (refractR n2 n v).fin := by
  have hs := sin2_eq (n2 := n2) hv hn
  unfold Ray.refractDir
  rw [invSpeed_fin hv]
  simp only [V3.fin_smulR, orient_fin hv, Dbl.div_fin h2.ne', Dbl.mul_fin, Dbl.one_dbl, Dbl.sub_fin, Dbl.gt_fin, hs]
  by_cases h : 1 < snellSin2 n2 n v
  · simp [h]
  · have h' : 0 ≤ 1 - snellSin2 n2 n v := by linarith
    simp only [h, decide_false, Bool.false_eq_true, if_false, Dbl.sqrt_fin h', Dbl.add_fin, V3.fin_smul, V3.fin_sub,
      V3.fin_x, V3.fin_y, V3.fin_z, Dbl.div_fin h2.ne', V3.fin_mk]
    unfold refractR
    simp only [hs]

theorem refractR_dot {n2 : ℝ} {n v : V3 ℝ} (hn : IsUnit' n) (_h2 : 0 < n2) :
    V3.dot (refractR n2 n v) (against n v) =
      -Real.sqrt (1 - (1 / speed v / n2) * (1 / speed v / n2) *
        (1 - V3.dot (v.smulR (1 / speed v)) (against n v) * V3.dot (v.smulR (1 / speed v)) (against n v))) / n2 := by
  have hu := against_unit (v := v) hn
  unfold refractR
  simp only
  generalize Real.sqrt _ = q
  generalize against n v = m at hu ⊢
  generalize v.smulR (1 / speed v) = w
  generalize 1 / speed v / n2 = e
  have : V3.dot (⟨(V3.smul e w - V3.smul (e * V3.dot w m + q) m).x / n2,
      (V3.smul e w - V3.smul (e * V3.dot w m + q) m).y / n2,
      (V3.smul e w - V3.smul (e * V3.dot w m + q) m).z / n2⟩ : V3 ℝ) m
      = (e * V3.dot w m - (e * V3.dot w m + q) * V3.dot m m) / n2 := by
    simp [V3.dot]; ring
  rw [this, hu]; ring

theorem refractR_cross {n2 : ℝ} {n v : V3 ℝ} (hv : v ≠ ⟨0, 0, 0⟩) (h2 : 0 < n2) :
    V3.smul n2 (V3.cross ((refractR n2 n v).smulR n2) n)
      = V3.smul (1 / speed v) (V3.cross (v.smulR (1 / speed v)) n) := by
  have hp := (speed_pos hv).ne'
  unfold refractR
  simp only
  generalize Real.sqrt _ = q
  generalize hw : v.smulR (1 / speed v) = w
  generalize 1 / speed v = k
  unfold against
  split <;> ext <;> simp <;> field_simp <;> ring

theorem refractR_normSq {n2 : ℝ} {n v : V3 ℝ} (hv : v ≠ ⟨0, 0, 0⟩) (hn : IsUnit' n) (h2 : 0 < n2)
    (hs : snellSin2 n2 n v ≤ 1) : V3.dot (refractR n2 n v) (refractR n2 n v) = (1 / n2) * (1 / n2) := by
  have hu := against_unit (v := v) hn
  have hw := unit_dir hv
  have hq : Real.sqrt (1 - snellSin2 n2 n v) * Real.sqrt (1 - snellSin2 n2 n v) = 1 - snellSin2 n2 n v :=
    Real.mul_self_sqrt (by linarith)
  rw [← sin2_eq hv hn] at hq
  unfold refractR
  simp only
  generalize Real.sqrt _ = q at hq ⊢
  generalize against n v = m at hu hq ⊢
  generalize v.smulR (1 / speed v) = w at hw hq ⊢
  generalize 1 / speed v / n2 = e at hq ⊢
  have : V3.dot (⟨(V3.smul e w - V3.smul (e * V3.dot w m + q) m).x / n2,
      (V3.smul e w - V3.smul (e * V3.dot w m + q) m).y / n2,
      (V3.smul e w - V3.smul (e * V3.dot w m + q) m).z / n2⟩ : V3 ℝ)
      ⟨(V3.smul e w - V3.smul (e * V3.dot w m + q) m).x / n2,
      (V3.smul e w - V3.smul (e * V3.dot w m + q) m).y / n2,
      (V3.smul e w - V3.smul (e * V3.dot w m + q) m).z / n2⟩
      = (e * e * V3.dot w w - 2 * e * (e * V3.dot w m + q) * V3.dot w m
        + (e * V3.dot w m + q) * (e * V3.dot w m + q) * V3.dot m m) / (n2 * n2) := by
    simp [V3.dot]; ring
  rw [this, hu, hw]
  have h3 : (e * e * 1 - 2 * e * (e * V3.dot w m + q) * V3.dot w m
        + (e * V3.dot w m + q) * (e * V3.dot w m + q) * 1) = 1 := by linear_combination hq
  rw [h3]; field_simp

theorem refract_hit {s : Surface Dbl} {ct : CoordTransform Dbl} {niter : ℕ} {ray : Ray Dbl}
    {r v n : V3 ℝ} {dt n2 : ℝ} (h : Hit s ct niter ray r v n dt) (hv : v ≠ ⟨0, 0, 0⟩) (hn : IsUnit' n)
    (h2 : 0 < n2) (m2 : Medium Dbl) (hm : m2.getN ray.wavelength = Dbl.fin n2) (c : Option (Coating Dbl)) :
    (Ray.refract s ct m2 c niter ray).r = (r + v.smulR dt).fin ∧
    (Ray.refract s ct m2 c niter ray).t = ray.t + Dbl.fin dt ∧
    (Ray.refract s ct m2 c niter ray).wavelength = ray.wavelength ∧
    (if 1 < snellSin2 n2 n v then
        (Ray.refract s ct m2 c niter ray).failed = true ∧ (Ray.refract s ct m2 c niter ray).vignetted = true
      else (Ray.refract s ct m2 c niter ray).v = (refractR n2 n v).fin ∧
        (Ray.refract s ct m2 c niter ray).failed = false ∧
        (Ray.refract s ct m2 c niter ray).vignetted = ray.vignetted) := by
  have hnn := h.normal
  simp only [Ray.refract, h.live, h.pos, h.vel, h.time]
  simp only [V3.fin_smulR, V3.fin_add, V3.fin_x, V3.fin_y, hnn, hm, refractDir_fin hv hn h2]
  by_cases hs : 1 < snellSin2 n2 n v <;> simp [hs]

/-- C09: Snell's law.  Refracting a live ray (index `n1` = reciprocal of its speed) at a surface with
unit normal `n` into index `n2`: if `(n1/n2)^2 sin^2 ≤ 1` the ray stays alive, its new direction
`û = n2 u` is a unit vector with `n2 (û × n) = n1 (v̂ × n)`, and it leaves on the side it was heading to;
exactly when `(n1/n2)^2 sin^2 > 1` it is marked failed and vignetted. -/
theorem C09_snell {s : Surface Dbl} {ct : CoordTransform Dbl} {niter : ℕ} {ray : Ray Dbl}
    {r v n : V3 ℝ} {dt n2 : ℝ} (h : Hit s ct niter ray r v n dt) (hv : v ≠ ⟨0, 0, 0⟩) (hn : IsUnit' n)
    (h2 : 0 < n2) (m2 : Medium Dbl) (hm : m2.getN ray.wavelength = Dbl.fin n2) (c : Option (Coating Dbl)) :
    let n1 := 1 / speed v
    let vhat := v.smulR n1
    let sin2 := V3.normSq (V3.cross vhat n)
    let out := Ray.refract s ct m2 c niter ray
    (out.failed = true ↔ 1 < (n1 / n2) ^ 2 * sin2) ∧
    (1 < (n1 / n2) ^ 2 * sin2 → out.vignetted = true) ∧
    ((n1 / n2) ^ 2 * sin2 ≤ 1 → out.vignetted = ray.vignetted ∧ ∃ u : V3 ℝ, out.v = u.fin ∧
      IsUnit' (u.smulR n2) ∧
      V3.smul n2 (V3.cross (u.smulR n2) n) = V3.smul n1 (V3.cross vhat n) ∧
      (0 < V3.dot v n → 0 ≤ V3.dot u n) ∧ (V3.dot v n < 0 → V3.dot u n ≤ 0) ∧
      ((n1 / n2) ^ 2 * sin2 < 1 → V3.dot v n ≠ 0 → 0 < V3.dot u n * V3.dot v n)) := by
  intro n1 vhat sin2 out
  have hh := refract_hit h hv hn h2 m2 hm c
  have hsin : snellSin2 n2 n v = (n1 / n2) ^ 2 * sin2 := rfl
  rw [hsin] at hh
  obtain ⟨-, -, -, hh⟩ := hh
  by_cases hs : 1 < (n1 / n2) ^ 2 * sin2
  · simp only [hs, if_true] at hh
    exact ⟨⟨fun _ => hs, fun _ => hh.1⟩, fun _ => hh.2, fun h' => absurd hs (not_lt.mpr h')⟩
  · simp only [hs, if_false] at hh
    refine ⟨⟨fun hf => ?_, fun hf => absurd hf hs⟩, fun hf => absurd hf hs, fun h' => ⟨hh.2.2, refractR n2 n v, hh.1, ?_⟩⟩
    · rw [hh.2.1] at hf; cases hf
    have hdot := refractR_dot (v := v) hn h2
    rw [sin2_eq hv hn, hsin] at hdot
    refine ⟨?_, refractR_cross hv h2, ?_, ?_, ?_⟩
    · have := refractR_normSq hv hn h2 (by rw [hsin]; exact h')
      have e : V3.dot ((refractR n2 n v).smulR n2) ((refractR n2 n v).smulR n2)
          = V3.dot (refractR n2 n v) (refractR n2 n v) * (n2 * n2) := by simp [V3.dot]; ring
      rw [IsUnit', e, this]; field_simp
    · intro hd
      simp only [against, hd, if_true] at hdot
      have e : V3.dot (refractR n2 n v) (-n) = -V3.dot (refractR n2 n v) n := by simp [V3.dot]; ring
      rw [e] at hdot
      have : V3.dot (refractR n2 n v) n = Real.sqrt (1 - (n1 / n2) ^ 2 * sin2) / n2 := by
        field_simp at hdot ⊢; linarith
      rw [this]; positivity
    · intro hd
      simp only [against, not_lt.mpr hd.le, if_false] at hdot
      rw [hdot, neg_div]
      have : 0 ≤ Real.sqrt (1 - (n1 / n2) ^ 2 * sin2) / n2 := by positivity
      linarith
    · intro hlt hne
      have hpos : 0 < Real.sqrt (1 - (n1 / n2) ^ 2 * sin2) / n2 :=
        div_pos (Real.sqrt_pos.mpr (by linarith)) h2
      rcases lt_or_gt_of_ne hne with hd | hd
      · simp only [against, not_lt.mpr hd.le, if_false] at hdot
        rw [hdot, neg_div]
        exact mul_pos_of_neg_of_neg (by linarith) hd
      · simp only [against, hd, if_true] at hdot
        have e : V3.dot (refractR n2 n v) (-n) = -V3.dot (refractR n2 n v) n := by simp [V3.dot]; ring
        rw [e] at hdot
        have : V3.dot (refractR n2 n v) n = Real.sqrt (1 - (n1 / n2) ^ 2 * sin2) / n2 := by
          field_simp at hdot ⊢; linarith
        rw [this]; exact mul_pos hpos hd

/-- C10: a successfully refracted ray has speed exactly `1/n2`. -/
theorem C10_speed {s : Surface Dbl} {ct : CoordTransform Dbl} {niter : ℕ} {ray : Ray Dbl}
    {r v n : V3 ℝ} {dt n2 : ℝ} (h : Hit s ct niter ray r v n dt) (hv : v ≠ ⟨0, 0, 0⟩) (hn : IsUnit' n)
    (h2 : 0 < n2) (m2 : Medium Dbl) (hm : m2.getN ray.wavelength = Dbl.fin n2) (c : Option (Coating Dbl))
    (halive : (Ray.refract s ct m2 c niter ray).failed = false) :
    ∃ u : V3 ℝ, (Ray.refract s ct m2 c niter ray).v = u.fin ∧ speed u = 1 / n2 := by
  have hh := (refract_hit h hv hn h2 m2 hm c).2.2.2
  by_cases hs : 1 < snellSin2 n2 n v
  · simp only [hs, if_true] at hh
    rw [halive] at hh; exact absurd hh.1 (by simp)
  · simp only [hs, if_false] at hh
    refine ⟨_, hh.1, ?_⟩
    rw [speed, refractR_normSq hv hn h2 (not_lt.mp hs)]
    exact Real.sqrt_mul_self (by positivity)

theorem neg_ne_zero' {v : V3 ℝ} (hv : v ≠ ⟨0, 0, 0⟩) : -v ≠ ⟨0, 0, 0⟩ := by
  intro h; apply hv
  have hx := congrArg V3.x h; have hy := congrArg V3.y h; have hz := congrArg V3.z h
  simp at hx hy hz
  ext <;> simp [hx, hy, hz]

/-- Two unit vectors with the same cross product and the same dot product with a unit vector agree. -/
theorem eq_of_cross_dot {a b n : V3 ℝ} (hn : IsUnit' n) (hc : V3.cross a n = V3.cross b n)
    (hd : V3.dot a n = V3.dot b n) : a = b := by
  unfold IsUnit' at hn
  have hx := congrArg V3.x hc; have hy := congrArg V3.y hc; have hz := congrArg V3.z hc
  simp only [V3.cross_x, V3.cross_y, V3.cross_z] at hx hy hz
  simp only [V3.dot] at hd hn
  ext
  · linear_combination (-(a.x - b.x)) * hn + n.y * hz - n.z * hy + n.x * hd
  · linear_combination (-(a.y - b.y)) * hn + n.z * hx - n.x * hz + n.y * hd
  · linear_combination (-(a.z - b.z)) * hn + n.x * hy - n.y * hx + n.z * hd

/-- C10: reversibility.  Let a ray of speed `1/n1` be refracted into `n2` below the critical angle, with
outgoing velocity `u`.  A ray sent back along `-u` through the same normal from `n2` into `n1` comes out
alive with velocity `-v`. -/
theorem C10_reversible {s s' : Surface Dbl} {ct ct' : CoordTransform Dbl} {niter niter' : ℕ} {ray ray' : Ray Dbl}
    {r v n r' u : V3 ℝ} {dt dt' n1 n2 : ℝ} (h : Hit s ct niter ray r v n dt) (hv : v ≠ ⟨0, 0, 0⟩)
    (hn : IsUnit' n) (h2 : 0 < n2) (hn1 : n1 = 1 / speed v)
    (m1 m2 : Medium Dbl) (hm : m2.getN ray.wavelength = Dbl.fin n2) (hm1 : m1.getN ray'.wavelength = Dbl.fin n1)
    (c c' : Option (Coating Dbl)) (hlt : (n1 / n2) ^ 2 * V3.normSq (V3.cross (v.smulR n1) n) < 1)
    (hu : (Ray.refract s ct m2 c niter ray).v = u.fin)
    (h' : Hit s' ct' niter' ray' r' (-u) n dt') :
    (Ray.refract s' ct' m1 c' niter' ray').v = (-v).fin ∧
    (Ray.refract s' ct' m1 c' niter' ray').failed = false := by
  have hp := speed_pos hv
  have h1 : 0 < n1 := by rw [hn1]; positivity
  have hsin : snellSin2 n2 n v = (n1 / n2) ^ 2 * V3.normSq (V3.cross (v.smulR n1) n) := by rw [hn1]; rfl
  rw [← hsin] at hlt
  have hle : ¬ 1 < snellSin2 n2 n v := not_lt.mpr hlt.le
  have eu : u = refractR n2 n v := by
    have := (refract_hit h hv hn h2 m2 hm c).2.2.2
    simp only [hle, if_false] at this
    rw [hu, V3.fin_inj] at this; exact this.1
  have huu : V3.dot u u = (1 / n2) * (1 / n2) := by rw [eu]; exact refractR_normSq hv hn h2 hlt.le
  have hsu : speed u = 1 / n2 := by rw [speed, huu]; exact Real.sqrt_mul_self (by positivity)
  have hsnu : speed (-u) = 1 / n2 := by
    rw [← hsu]; unfold speed; congr 1; simp [V3.dot]
  have hune : u ≠ ⟨0, 0, 0⟩ := by
    intro h0; rw [h0] at hsu
    have : speed (⟨0, 0, 0⟩ : V3 ℝ) = 0 := by simp [speed, V3.dot]
    rw [this] at hsu
    have : 0 < 1 / n2 := by positivity
    linarith
  have hnune := neg_ne_zero' hune
  have hvv : v.smulR n1 = v.smulR (1 / speed v) := by rw [hn1]
  -- Snell in the forward direction
  have hcr : V3.smul n2 (V3.cross (u.smulR n2) n) = V3.smul n1 (V3.cross (v.smulR n1) n) := by
    rw [eu, hn1]; exact refractR_cross hv h2
  -- sin^2 of the backward ray
  have hunit : V3.dot (v.smulR n1) (v.smulR n1) = 1 := by rw [hvv]; exact unit_dir hv
  have hb : snellSin2 n1 n (-u) = V3.normSq (V3.cross (v.smulR n1) n) := by
    have e1 : (1 / speed (-u) / n1) ^ 2 = (n2 / n1) ^ 2 := by rw [hsnu]; field_simp
    have e2 : ((-u).smulR (1 / speed (-u))) = (-u).smulR n2 := by rw [hsnu]; field_simp
    rw [snellSin2, e1, e2]
    have e3 : V3.normSq (V3.cross ((-u).smulR n2) n) = V3.normSq (V3.cross (u.smulR n2) n) := by
      simp [V3.normSq, V3.dot]; ring
    have e4 : n2 ^ 2 * V3.normSq (V3.cross (u.smulR n2) n) = n1 ^ 2 * V3.normSq (V3.cross (v.smulR n1) n) := by
      have := congrArg V3.normSq hcr
      have e5 : ∀ (k : ℝ) (a : V3 ℝ), V3.normSq (V3.smul k a) = k ^ 2 * V3.normSq a := by
        intro k a; simp [V3.normSq, V3.dot]; ring
      rwa [e5, e5] at this
    rw [e3]
    have : (n2 / n1) ^ 2 * V3.normSq (V3.cross (u.smulR n2) n)
        = (n2 ^ 2 * V3.normSq (V3.cross (u.smulR n2) n)) / n1 ^ 2 := by field_simp
    rw [this, e4]; field_simp
  have hsq : V3.normSq (V3.cross (v.smulR n1) n) = 1 - V3.dot (v.smulR n1) n * V3.dot (v.smulR n1) n := by
    unfold IsUnit' at hn
    rw [cross_normSq, hunit, hn]; ring
  have hble : ¬ 1 < snellSin2 n1 n (-u) := by
    rw [hb, hsq]; nlinarith [mul_self_nonneg (V3.dot (v.smulR n1) n)]
  have hback := (refract_hit h' hnune hn h1 m1 hm1 c').2.2.2
  simp only [hble, if_false] at hback
  refine ⟨?_, hback.2.1⟩
  rw [hback.1, V3.fin_inj]
  -- compare by cross and dot products with n
  have hcross2 := refractR_cross (n := n) hnune h1
  have e2 : ((-u).smulR (1 / speed (-u))) = (-u).smulR n2 := by rw [hsnu]; field_simp
  have e3 : 1 / speed (-u) = n2 := by rw [hsnu]; field_simp
  rw [e2, e3] at hcross2
  apply eq_of_cross_dot hn
  · -- cross products
    have hx := congrArg V3.x hcross2; have hy := congrArg V3.y hcross2; have hz := congrArg V3.z hcross2
    have gx := congrArg V3.x hcr; have gy := congrArg V3.y hcr; have gz := congrArg V3.z hcr
    simp only [V3.smul_x, V3.smul_y, V3.smul_z, V3.cross_x, V3.cross_y, V3.cross_z, V3.smulR_x, V3.smulR_y,
      V3.smulR_z, V3.neg_x, V3.neg_y, V3.neg_z] at hx hy hz gx gy gz
    have hq : (n1 * n1) ≠ 0 := by positivity
    ext <;> simp only [V3.cross_x, V3.cross_y, V3.cross_z, V3.neg_x, V3.neg_y, V3.neg_z] <;>
      apply mul_left_cancel₀ hq
    · linear_combination hx - gx
    · linear_combination hy - gy
    · linear_combination hz - gz
  · -- dot products
    have hd1 := refractR_dot (n2 := n2) (v := v) hn h2
    rw [sin2_eq hv hn, ← eu] at hd1
    have hd2 := refractR_dot (n2 := n1) (v := -u) hn h1
    rw [sin2_eq hnune hn, hb, hsq] at hd2
    have hroot : Real.sqrt (1 - (1 - V3.dot (v.smulR n1) n * V3.dot (v.smulR n1) n)) = |V3.dot (v.smulR n1) n| := by
      rw [show 1 - (1 - V3.dot (v.smulR n1) n * V3.dot (v.smulR n1) n)
        = V3.dot (v.smulR n1) n * V3.dot (v.smulR n1) n by ring]
      exact Real.sqrt_mul_self_eq_abs _
    rw [hroot] at hd2
    have hk : V3.dot (v.smulR n1) n = n1 * V3.dot v n := by simp [V3.dot]; ring
    rw [hk, abs_mul, abs_of_pos h1] at hd2
    have hq : 0 < Real.sqrt (1 - snellSin2 n2 n v) / n2 := div_pos (Real.sqrt_pos.mpr (by linarith)) h2
    have hneg : ∀ a : V3 ℝ, V3.dot a (-n) = -V3.dot a n := by intro a; simp [V3.dot]; ring
    have hneg' : ∀ a : V3 ℝ, V3.dot (-a) n = -V3.dot a n := by intro a; simp [V3.dot]; ring
    by_cases hvn : 0 < V3.dot v n
    · have ha : against n v = -n := by simp [against, hvn]
      rw [ha, hneg, neg_div] at hd1
      have hun : 0 < V3.dot u n := by linarith
      have ha2 : against n (-u) = n := by
        have : ¬ 0 < V3.dot (-u) n := by rw [hneg']; linarith
        simp [against, this]
      rw [ha2, abs_of_pos hvn] at hd2
      rw [hd2, hneg']; field_simp
    · have ha : against n v = n := by simp [against, hvn]
      rw [ha, neg_div] at hd1
      have hun : V3.dot u n < 0 := by linarith
      have ha2 : against n (-u) = -n := by
        have : 0 < V3.dot (-u) n := by rw [hneg']; linarith
        simp [against, this]
      rw [ha2, hneg, abs_of_nonpos (not_lt.mp hvn)] at hd2
      rw [hneg']
      have : V3.dot (refractR n1 n (-u)) n = n1 * -V3.dot v n / n1 := by
        rw [neg_div] at hd2; linarith
      rw [this]; field_simp

/-- C10: with equal indices refraction does not change the velocity. -/
theorem C10_equal_index {s : Surface Dbl} {ct : CoordTransform Dbl} {niter : ℕ} {ray : Ray Dbl}
    {r v n : V3 ℝ} {dt n2 : ℝ} (h : Hit s ct niter ray r v n dt) (hv : v ≠ ⟨0, 0, 0⟩) (hn : IsUnit' n)
    (heq : n2 = 1 / speed v) (m2 : Medium Dbl) (hm : m2.getN ray.wavelength = Dbl.fin n2)
    (c : Option (Coating Dbl)) :
    (Ray.refract s ct m2 c niter ray).v = v.fin ∧ (Ray.refract s ct m2 c niter ray).failed = false := by
  have hp := speed_pos hv
  have h2 : 0 < n2 := by rw [heq]; positivity
  have hunit := unit_dir hv
  have hn' := hn
  unfold IsUnit' at hn'
  have hq : (1 / speed v / n2) = 1 := by rw [heq]; field_simp
  have hs : snellSin2 n2 n v = 1 - V3.dot (v.smulR (1 / speed v)) n * V3.dot (v.smulR (1 / speed v)) n := by
    rw [snellSin2, hq, cross_normSq, hunit, hn']; ring
  have hle : ¬ 1 < snellSin2 n2 n v := by
    rw [hs]; nlinarith [mul_self_nonneg (V3.dot (v.smulR (1 / speed v)) n)]
  have hh := (refract_hit h hv hn h2 m2 hm c).2.2.2
  simp only [hle, if_false] at hh
  refine ⟨?_, hh.2.1⟩
  rw [hh.1, V3.fin_inj]
  have hroot : Real.sqrt (1 - (1 / speed v / n2) * (1 / speed v / n2) *
      (1 - V3.dot (v.smulR (1 / speed v)) (against n v) * V3.dot (v.smulR (1 / speed v)) (against n v)))
      = -V3.dot (v.smulR (1 / speed v)) (against n v) := by
    rw [hq]
    rw [show (1 - 1 * 1 * (1 - V3.dot (v.smulR (1 / speed v)) (against n v) * V3.dot (v.smulR (1 / speed v)) (against n v)))
      = V3.dot (v.smulR (1 / speed v)) (against n v) * V3.dot (v.smulR (1 / speed v)) (against n v) by ring]
    rw [Real.sqrt_mul_self_eq_abs]
    apply abs_of_nonpos
    by_cases hd : 0 < V3.dot v n
    · have := (dot_smulR_pos (n := n) hv).2 hd
      have ha : against n v = -n := by simp [against, hd]
      rw [ha]
      have : V3.dot (v.smulR (1 / speed v)) (-n) = -V3.dot (v.smulR (1 / speed v)) n := by simp [V3.dot]; ring
      linarith
    · have ha : against n v = n := by simp [against, hd]
      rw [ha]
      by_contra hc
      exact hd ((dot_smulR_pos hv).1 (not_le.mp hc))
  unfold refractR
  simp only [hroot]
  rw [hq]
  ext <;> simp <;> rw [heq] <;> field_simp

/-! ## C11 and C14 -/

/-- Time differences on ideal doubles. -/
theorem time_diff (t dt : ℝ) : (Dbl.fin t + Dbl.fin dt) - Dbl.fin t = Dbl.fin dt := by simp

/-- The kernels that move a ray to a surface. -/
inductive SurfaceKernel where
  | intersect (c : Option (Coating Dbl))
  | reflect (c : Option (Coating Dbl))
  | refract (m : Medium Dbl) (c : Option (Coating Dbl))
  | splitRefracted (m : Medium Dbl) (c : Coating Dbl)
  | splitReflected (m : Medium Dbl) (c : Coating Dbl)

/-- What each kernel does to a ray. -/
noncomputable def SurfaceKernel.run (s : Surface Dbl) (ct : CoordTransform Dbl) (niter : ℕ) (ray : Ray Dbl) :
    SurfaceKernel → Ray Dbl
  | .intersect c => Ray.intersect s ct c niter ray
  | .reflect c => Ray.reflect s ct c niter ray
  | .refract m c => Ray.refract s ct m c niter ray
  | .splitRefracted m c => (Ray.rSplit s ct m c niter ray).1
  | .splitReflected m c => (Ray.rSplit s ct m c niter ray).2

/-- C11: after any of the surface kernels a ray that met the surface sits on its own line, at
`old position + old velocity * (new time - old time)` in the destination frame, with its wavelength. -/
theorem C11_along_line {s : Surface Dbl} {ct : CoordTransform Dbl} {niter : ℕ} {ray : Ray Dbl}
    {r v n : V3 ℝ} {dt t : ℝ} (h : Hit s ct niter ray r v n dt) (ht : ray.t = Dbl.fin t) (k : SurfaceKernel) :
    let out := k.run s ct niter ray
    out.r = ct.forward ray.r + (ct.forwardVel ray.v).smulR (out.t - ray.t) ∧
    out.t = Dbl.fin (t + dt) ∧ out.wavelength = ray.wavelength := by
  cases k <;>
    simp only [SurfaceKernel.run, Ray.intersect, Ray.reflect, Ray.refract, Ray.rSplit, h.live, h.pos, h.vel, h.time, ht,
      Bool.false_eq_true, if_false]
  case refract m c => cases Ray.refractDir (m.getN ray.wavelength) _ _ <;> simp
  case splitRefracted m c => cases Ray.refractDir (m.getN ray.wavelength) _ _ <;> simp
  all_goals simp

/-- C11: `intersect` leaves the velocity (in the destination frame) alone and the ray alive. -/
theorem C11_intersect_keeps_velocity {s : Surface Dbl} {ct : CoordTransform Dbl} {niter : ℕ} {ray : Ray Dbl}
    {r v n : V3 ℝ} {dt : ℝ} (h : Hit s ct niter ray r v n dt) (c : Option (Coating Dbl)) :
    (Ray.intersect s ct c niter ray).v = v.fin ∧ (Ray.intersect s ct c niter ray).failed = false ∧
    (Ray.intersect s ct c niter ray).vignetted = ray.vignetted := by
  simp only [Ray.intersect, h.live, h.pos, h.vel, h.time]
  simp

/-- C14 for rays that met the surface: their stored coordinates in the new frame describe the physical
point `old global position + old global velocity * elapsed time`.  Missing from the full statement: rays
already failed, or failing by missing the surface, keep coordinates of the old frame
(`C14_failed_ray_frame_violated`). -/
theorem C14_live_rays_partial {s : Surface Dbl} {a b : CoordSys ℝ} (ha : IsRotation a.rot) (hb : IsRotation b.rot)
    {niter : ℕ} {ray : Ray Dbl} {r0 v0 r v n : V3 ℝ} {dt t : ℝ}
    (hr0 : ray.r = r0.fin) (hv0 : ray.v = v0.fin) (ht : ray.t = Dbl.fin t)
    (h : Hit s (CoordTransform.make a.fin b.fin) niter ray r v n dt) (k : SurfaceKernel) :
    let out := k.run s (CoordTransform.make a.fin b.fin) niter ray
    b.fin.toGlobal out.r = (a.toGlobal r0 + (a.rot.mulVec v0).smulR dt).fin := by
  intro out
  have hl := C11_along_line h ht k
  have e1 : r = (CoordTransform.make a b).forward r0 := by
    have := h.pos; rw [hr0, CoordTransform.forward_fin, V3.fin_inj] at this; exact this.symm
  have e2 : v = (CoordTransform.make a b).forwardVel v0 := by
    have := h.vel; rw [hv0, CoordTransform.forwardVel_fin, V3.fin_inj] at this; exact this.symm
  have hr : out.r = (r + v.smulR dt).fin := by
    have h1 := hl.1
    have h2 := hl.2.1
    show (k.run s (CoordTransform.make a.fin b.fin) niter ray).r = _
    rw [h1, h2, ht, h.pos, h.vel]
    simp
  have key : b.toGlobal (r + v.smulR dt) = a.toGlobal r0 + (a.rot.mulVec v0).smulR dt := by
    have h3 : b.toGlobal r = a.toGlobal r0 := by
      rw [e1, CoordSys.forward_eq ha.orth, CoordSys.toGlobal_toLocal hb.orth]
    have h4 : b.rot.mulVec v = a.rot.mulVec v0 := by
      rw [e2, CoordSys.forwardVel_eq, hb.orth.mulVec_tr]
    have h5 : b.toGlobal (r + v.smulR dt) = b.toGlobal r + (b.rot.mulVec v).smulR dt := by
      simp only [CoordSys.toGlobal, M3.mulVec_add, M3.mulVec_smulR]
      ext <;> simp <;> ring
    rw [h5, h3, h4]
  rw [hr, ← key]
  simp [CoordSys.toGlobal, CoordSys.fin]

/-! ## C15, velocity and flux -/

/-- C15: the reflected output of `rSplit` has the velocity of `reflect`. -/
theorem C15_reflected_velocity {s : Surface Dbl} {ct : CoordTransform Dbl} {niter : ℕ} {ray : Ray Dbl}
    {r v n : V3 ℝ} {dt : ℝ} (h : Hit s ct niter ray r v n dt) (hv : v ≠ ⟨0, 0, 0⟩) (m2 : Medium Dbl)
    (c : Coating Dbl) (cr : Option (Coating Dbl)) :
    (Ray.rSplit s ct m2 c niter ray).2.v = (Ray.reflect s ct cr niter ray).v := by
  have hnn := h.normal
  have hp := (speed_pos hv).ne'
  rw [(reflect_hit h cr).2.1]
  simp only [Ray.rSplit, h.live, h.pos, h.vel, h.time]
  simp only [V3.fin_smulR, V3.fin_add, V3.fin_x, V3.fin_y, hnn, invSpeed_fin hv, orient_fin hv]
  have hne : (1 / speed v) ≠ 0 := by positivity
  have hk : V3.dot (v.smulR (1 / speed v)) (against n v) = V3.dot v (against n v) * (1 / speed v) := by
    simp [V3.dot]; ring
  simp only [Bool.false_eq_true, if_false, Dbl.ofNat_dbl', Dbl.mul_fin, V3.fin_z,
    Dbl.div_fin hne, Dbl.sub_fin, V3.fin_mk, V3.fin_inj, hk]
  have hkk : ∀ y : ℝ, 2 * (V3.dot v (against n v) * (1 / speed v)) * y / (1 / speed v)
      = 2 * V3.dot v (against n v) * y := by intro y; field_simp
  simp only [hkk]
  unfold against mirror
  split
  · have : V3.dot v (-n) = -V3.dot v n := by simp [V3.dot]; ring
    rw [this]; ext <;> simp
  · ext <;> simp

/-- C15: when the coating splits everything (`R + T = 1` at every angle) the two output fluxes add up to the
incoming flux. -/
theorem C15_flux_conserved {s : Surface Dbl} {ct : CoordTransform Dbl} {niter : ℕ} {ray : Ray Dbl}
    {r v n : V3 ℝ} {dt f : ℝ} (h : Hit s ct niter ray r v n dt) (hf : ray.flux = Dbl.fin f) (m2 : Medium Dbl)
    (R T : Dbl → Dbl → ℝ) (hRT : ∀ w a, R w a + T w a = 1) :
    let c : Coating Dbl := ⟨fun w a => Dbl.fin (R w a), fun w a => Dbl.fin (T w a)⟩
    ∃ f1 f2 : ℝ, (Ray.rSplit s ct m2 c niter ray).1.flux = Dbl.fin f1 ∧
      (Ray.rSplit s ct m2 c niter ray).2.flux = Dbl.fin f2 ∧ f1 + f2 = f := by
  simp only [Ray.rSplit, h.live, h.pos, h.vel, h.time, Coating.getCoefs, hf]
  simp only [Bool.false_eq_true, if_false, Dbl.mul_fin]
  set al := (Ray.orient (s.normal (r.fin + v.fin.smulR (Dbl.fin dt)).x (r.fin + v.fin.smulR (Dbl.fin dt)).y)
    (v.fin.smulR (Ray.invSpeed v.fin))).2
  refine ⟨f * T ray.wavelength al, f * R ray.wavelength al, ?_, rfl, ?_⟩
  · split <;> rfl
  · rw [← mul_add, add_comm, hRT]; ring

/-! ## C19 -/

/-- A gradient in the xy plane seen as a 3-vector. -/
def grad3 (g : ℝ × ℝ) : V3 ℝ := ⟨g.1, g.2, 0⟩

/-- Sign of the bending: plus for rays heading against the normal, minus for the others. -/
noncomputable def screenSign (n v : V3 ℝ) : ℝ := if V3.dot v n < 0 then 1 else -1

/-- New tangential direction required by the screen: the old one plus or minus the tangential part of
the gradient of the path difference. -/
noncomputable def bentTangent (n v : V3 ℝ) (g : ℝ × ℝ) : V3 ℝ :=
  tangential (v.smulR (1 / speed v)) n + V3.smul (screenSign n v) (tangential (grad3 g) n)

theorem sign_mul_self (n v : V3 ℝ) : screenSign n v * screenSign n v = 1 := by
  unfold screenSign; split <;> norm_num

/-- The code's tangent frame. -/
noncomputable def frameE1 (n : V3 ℝ) : V3 ℝ :=
  ⟨n.z / Real.sqrt (n.z * n.z + n.x * n.x), 0, -n.x / Real.sqrt (n.z * n.z + n.x * n.x)⟩

theorem frame_decomp {n : V3 ℝ} (hn : IsUnit' n) (hy : n.z * n.z + n.x * n.x ≠ 0) (a : V3 ℝ) :
    V3.smul (V3.dot a (frameE1 n)) (frameE1 n)
      + V3.smul (V3.dot a (V3.cross n (frameE1 n))) (V3.cross n (frameE1 n)) = tangential a n ∧
    V3.dot a (frameE1 n) * V3.dot a (frameE1 n)
      + V3.dot a (V3.cross n (frameE1 n)) * V3.dot a (V3.cross n (frameE1 n)) = V3.normSq (tangential a n) := by
  have he0 : 0 ≤ n.z * n.z + n.x * n.x := by nlinarith [mul_self_nonneg n.z, mul_self_nonneg n.x]
  have hep : 0 < Real.sqrt (n.z * n.z + n.x * n.x) := Real.sqrt_pos.mpr (lt_of_le_of_ne he0 (Ne.symm hy))
  have hee : Real.sqrt (n.z * n.z + n.x * n.x) * Real.sqrt (n.z * n.z + n.x * n.x) = n.z * n.z + n.x * n.x :=
    Real.mul_self_sqrt he0
  unfold IsUnit' at hn
  have hN := hn
  simp only [V3.dot] at hn
  have hfirst : V3.smul (V3.dot a (frameE1 n)) (frameE1 n)
      + V3.smul (V3.dot a (V3.cross n (frameE1 n))) (V3.cross n (frameE1 n)) = tangential a n := by
    unfold frameE1
    generalize Real.sqrt (n.z * n.z + n.x * n.x) = e at hep hee ⊢
    have hi : e⁻¹ * e⁻¹ * (n.z * n.z + n.x * n.x) = 1 := by rw [← hee]; field_simp
    have hy1 : n.y * n.y = 1 - (n.z * n.z + n.x * n.x) := by linarith
    simp only [div_eq_mul_inv]
    generalize e⁻¹ = i at hi ⊢
    ext <;> simp only [tangential, V3.dot, V3.add_x, V3.add_y, V3.add_z, V3.sub_x, V3.sub_y, V3.sub_z,
      V3.smul_x, V3.smul_y, V3.smul_z, V3.cross_x, V3.cross_y, V3.cross_z, mul_zero, sub_zero, zero_sub, add_zero, zero_add]
    · linear_combination (a.x * (1 - n.x*n.x) - a.z * n.x * n.z - a.y * n.y * n.x) * hi
        + (a.x * n.x * n.x + a.z * n.z * n.x) * (i * i) * hy1
    · linear_combination (-a.x*n.x*n.y - a.z*n.y*n.z + a.y*(n.z*n.z+n.x*n.x)) * hi + a.y * hn
    · linear_combination (a.z * (1 - n.z*n.z) - a.x * n.x * n.z - a.y * n.y * n.z) * hi
        + (a.x * n.x * n.z + a.z * n.z * n.z) * (i * i) * hy1
  refine ⟨hfirst, ?_⟩
  have h1 : V3.normSq (tangential a n) = V3.dot a (tangential a n) := by
    have : V3.normSq (tangential a n) = V3.dot a (tangential a n)
        - V3.dot a n * (V3.dot a n * (1 - V3.dot n n)) := by
      simp [tangential, V3.normSq, V3.dot]; ring
    rw [this, hN]; ring
  rw [h1, ← hfirst]
  simp [V3.dot]; ring

/-- The code's normal direction cosine: a square root that may be NaN. -/
noncomputable def screenCos (n v : V3 ℝ) (g : ℝ × ℝ) : Dbl :=
  if V3.dot v n < 0 then -Arith.sqrt (Dbl.fin (1 - V3.normSq (bentTangent n v g)))
  else Arith.sqrt (Dbl.fin (1 - V3.normSq (bentTangent n v g)))

/-- The code's bent velocity: tangential part in real arithmetic, normal part a possibly undefined root. -/
theorem screenDir_gen {n v : V3 ℝ} {g : ℝ × ℝ} (hv : v ≠ ⟨0, 0, 0⟩) (hn : IsUnit' n)
    (hy : n.z * n.z + n.x * n.x ≠ 0) :
    Ray.screenDir n.fin (Dbl.fin g.1, Dbl.fin g.2) v.fin
      = ⟨Dbl.fin (speed v * (bentTangent n v g).x) + screenCos n v g * Dbl.fin (speed v) * Dbl.fin n.x,
         Dbl.fin (speed v * (bentTangent n v g).y) + screenCos n v g * Dbl.fin (speed v) * Dbl.fin n.y,
         Dbl.fin (speed v * (bentTangent n v g).z) + screenCos n v g * Dbl.fin (speed v) * Dbl.fin n.z⟩ := by
  have hp := (speed_pos hv).ne'
  have hv0 := dot_self_nonneg v
  have he0 : 0 ≤ n.z * n.z + n.x * n.x := by nlinarith [mul_self_nonneg n.z, mul_self_nonneg n.x]
  have hep : 0 < Real.sqrt (n.z * n.z + n.x * n.x) := Real.sqrt_pos.mpr (lt_of_le_of_ne he0 (Ne.symm hy))
  have hsp : Real.sqrt (V3.dot v v) = speed v := rfl
  have hcos3 : v.x * (1 / speed v) * n.x + v.y * (1 / speed v) * n.y + v.z * (1 / speed v) * n.z
      = V3.dot v n / speed v := by
    simp [V3.dot]; field_simp
  have hlt : (V3.dot v n / speed v < 0) ↔ V3.dot v n < 0 := by
    have hk : 0 < speed v := speed_pos hv
    constructor
    · intro h; by_contra hc; exact absurd h (not_lt.mpr (div_nonneg (not_lt.mp hc) hk.le))
    · intro h; exact div_neg_of_neg_of_pos h hk
  set A : V3 ℝ := v.smulR (1 / speed v) + V3.smul (screenSign n v) (grad3 g) with hA
  have hAt : tangential A n = bentTangent n v g := by
    rw [hA, bentTangent]
    ext <;> simp [tangential, V3.dot] <;> ring
  obtain ⟨hd1, hd2⟩ := frame_decomp hn hy A
  rw [hAt] at hd1 hd2
  have hrt : 1 - V3.normSq (bentTangent n v g) = 1 - V3.dot A (frameE1 n) * V3.dot A (frameE1 n)
      - V3.dot A (V3.cross n (frameE1 n)) * V3.dot A (V3.cross n (frameE1 n)) := by linarith
  have hx := congrArg V3.x hd1; have hyy := congrArg V3.y hd1; have hz := congrArg V3.z hd1
  simp only [V3.add_x, V3.add_y, V3.add_z, V3.smul_x, V3.smul_y, V3.smul_z] at hx hyy hz
  have f1 : (frameE1 n).x = n.z / Real.sqrt (n.z * n.z + n.x * n.x) := rfl
  have f2 : (frameE1 n).y = 0 := rfl
  have f3 : (frameE1 n).z = -n.x / Real.sqrt (n.z * n.z + n.x * n.x) := rfl
  rw [f1] at hx; rw [f2] at hyy; rw [f3] at hz
  have e1eq : (⟨Dbl.fin (n.z / Real.sqrt (n.z * n.z + n.x * n.x)), Dbl.fin 0,
      Dbl.fin (-n.x / Real.sqrt (n.z * n.z + n.x * n.x))⟩ : V3 Dbl) = (frameE1 n).fin := rfl
  unfold Ray.screenDir
  simp only [V3.fin_dot, Dbl.sqrt_fin hv0, hsp, Dbl.one_dbl, Dbl.zero_dbl, Dbl.div_fin hp, V3.fin_x, V3.fin_y, V3.fin_z,
    Dbl.mul_fin, Dbl.add_fin, Dbl.sqrt_fin he0, Dbl.div_fin hep.ne', Dbl.neg_fin, e1eq, V3.fin_cross, Dbl.lt_fin,
    Dbl.sub_fin, hcos3, hlt]
  by_cases hd : V3.dot v n < 0
  · have hs : screenSign n v = 1 := by simp [screenSign, hd]
    have c1 : v.x * (1 / speed v) * (n.z / Real.sqrt (n.z * n.z + n.x * n.x)) + v.y * (1 / speed v) * 0
        + v.z * (1 / speed v) * (-n.x / Real.sqrt (n.z * n.z + n.x * n.x))
        + (g.1 * (n.z / Real.sqrt (n.z * n.z + n.x * n.x)) + g.2 * 0) = V3.dot A (frameE1 n) := by
      rw [hA, hs]; simp [V3.dot, grad3, frameE1]; ring
    have c2 : v.x * (1 / speed v) * (V3.cross n (frameE1 n)).x + v.y * (1 / speed v) * (V3.cross n (frameE1 n)).y
        + v.z * (1 / speed v) * (V3.cross n (frameE1 n)).z
        + (g.1 * (V3.cross n (frameE1 n)).x + g.2 * (V3.cross n (frameE1 n)).y)
        = V3.dot A (V3.cross n (frameE1 n)) := by
      rw [hA, hs]; simp [V3.dot, grad3]; ring
    simp only [hd, decide_true, if_true, c1, c2, Dbl.mul_fin, Dbl.sub_fin, Dbl.add_fin,
      screenCos, hrt, ← hx, ← hyy, ← hz]
    refine V3.ext ?_ ?_ ?_ <;> simp only [] <;> congr 2 <;> ring
  · have hs : screenSign n v = -1 := by simp [screenSign, hd]
    have c1 : v.x * (1 / speed v) * (n.z / Real.sqrt (n.z * n.z + n.x * n.x)) + v.y * (1 / speed v) * 0
        + v.z * (1 / speed v) * (-n.x / Real.sqrt (n.z * n.z + n.x * n.x))
        - (g.1 * (n.z / Real.sqrt (n.z * n.z + n.x * n.x)) + g.2 * 0) = V3.dot A (frameE1 n) := by
      rw [hA, hs]; simp [V3.dot, grad3, frameE1]; ring
    have c2 : v.x * (1 / speed v) * (V3.cross n (frameE1 n)).x + v.y * (1 / speed v) * (V3.cross n (frameE1 n)).y
        + v.z * (1 / speed v) * (V3.cross n (frameE1 n)).z
        - (g.1 * (V3.cross n (frameE1 n)).x + g.2 * (V3.cross n (frameE1 n)).y)
        = V3.dot A (V3.cross n (frameE1 n)) := by
      rw [hA, hs]; simp [V3.dot, grad3]; ring
    simp only [hd, decide_false, Bool.false_eq_true, if_false, c1, c2, Dbl.mul_fin, Dbl.sub_fin, Dbl.add_fin,
      screenCos, hrt, ← hx, ← hyy, ← hz]
    refine V3.ext ?_ ?_ ?_ <;> simp only [] <;> congr 2 <;> ring

/-- The code's bent velocity in closed form. -/
theorem screenDir_fin {n v : V3 ℝ} {g : ℝ × ℝ} (hv : v ≠ ⟨0, 0, 0⟩) (hn : IsUnit' n)
    (hy : n.z * n.z + n.x * n.x ≠ 0) (hex : V3.normSq (bentTangent n v g) ≤ 1) :
    Ray.screenDir n.fin (Dbl.fin g.1, Dbl.fin g.2) v.fin
      = (V3.smul (speed v) (bentTangent n v g
          - V3.smul (screenSign n v * Real.sqrt (1 - V3.normSq (bentTangent n v g))) n)).fin := by
  have h0 : 0 ≤ 1 - V3.normSq (bentTangent n v g) := by linarith
  rw [screenDir_gen hv hn hy]
  unfold screenCos screenSign
  by_cases hd : V3.dot v n < 0 <;>
    simp only [hd, if_true, if_false, Dbl.sqrt_fin h0, Dbl.neg_fin, Dbl.mul_fin, Dbl.add_fin, V3.fin_mk, V3.fin_inj] <;>
    ext <;> simp <;> ring

/-- Beyond the limit every component of the new velocity is NaN. -/
theorem screenDir_nan {n v : V3 ℝ} {g : ℝ × ℝ} (hv : v ≠ ⟨0, 0, 0⟩) (hn : IsUnit' n)
    (hy : n.z * n.z + n.x * n.x ≠ 0) (hex : 1 < V3.normSq (bentTangent n v g)) :
    Ray.screenDir n.fin (Dbl.fin g.1, Dbl.fin g.2) v.fin = ⟨Dbl.nan, Dbl.nan, Dbl.nan⟩ := by
  have h0 : ¬ 0 ≤ 1 - V3.normSq (bentTangent n v g) := by linarith
  rw [screenDir_gen hv hn hy]
  unfold screenCos
  have hs : Arith.sqrt (Dbl.fin (1 - V3.normSq (bentTangent n v g))) = Dbl.nan := Dbl.sqrt_fin_neg (not_le.mp h0)
  by_cases hd : V3.dot v n < 0 <;> simp [hd, hs]

theorem tangential_perp {n : V3 ℝ} (hn : IsUnit' n) (a : V3 ℝ) : V3.dot (tangential a n) n = 0 := by
  unfold IsUnit' at hn
  have : V3.dot (tangential a n) n = V3.dot a n * (1 - V3.dot n n) := by simp [tangential, V3.dot]; ring
  rw [this, hn]; ring

theorem bentTangent_perp {n : V3 ℝ} (hn : IsUnit' n) (v : V3 ℝ) (g : ℝ × ℝ) : V3.dot (bentTangent n v g) n = 0 := by
  have h1 := tangential_perp hn (v.smulR (1 / speed v))
  have h2 := tangential_perp hn (grad3 g)
  have : V3.dot (bentTangent n v g) n = V3.dot (tangential (v.smulR (1 / speed v)) n) n
      + screenSign n v * V3.dot (tangential (grad3 g) n) n := by
    simp [bentTangent, V3.dot]; ring
  rw [this, h1, h2]; ring

theorem refractScreen_hit {s screen : Surface Dbl} {ct : CoordTransform Dbl} {niter : ℕ} {ray : Ray Dbl}
    {r v n : V3 ℝ} {dt : ℝ} {g : ℝ × ℝ} (h : Hit s ct niter ray r v n dt)
    (hg : screen.grad (Dbl.fin (r + v.smulR dt).x) (Dbl.fin (r + v.smulR dt).y) = (Dbl.fin g.1, Dbl.fin g.2)) :
    Ray.refractScreen s ct screen niter ray =
      { ray with r := (r + v.smulR dt).fin, v := Ray.screenDir n.fin (Dbl.fin g.1, Dbl.fin g.2) v.fin,
                 t := ray.t + Dbl.fin dt + screen.sag (Dbl.fin (r + v.smulR dt).x) (Dbl.fin (r + v.smulR dt).y) } := by
  have hn := h.normal
  simp only [Ray.refractScreen, h.live, h.pos, h.vel, h.time]
  simp only [V3.fin_smulR, V3.fin_add, V3.fin_x, V3.fin_y, hn, hg, Bool.false_eq_true, if_false]

/-- C19: `refractScreen`.  For a live ray hitting a surface with unit normal `n` (not along the y axis), with
screen gradient `g` and a bent tangential direction of length at most one: the ray moves along its own line,
its time grows by the flight time plus the screen height, its speed is unchanged, its tangential direction
changes by exactly the tangential part of the gradient (added when heading against the normal, subtracted
otherwise), it stays on its side, and no flag changes. -/
theorem C19_refractScreen {s screen : Surface Dbl} {ct : CoordTransform Dbl} {niter : ℕ} {ray : Ray Dbl}
    {r v n : V3 ℝ} {dt t : ℝ} {g : ℝ × ℝ} {p : ℝ} (h : Hit s ct niter ray r v n dt) (ht : ray.t = Dbl.fin t)
    (hg : screen.grad (Dbl.fin (r + v.smulR dt).x) (Dbl.fin (r + v.smulR dt).y) = (Dbl.fin g.1, Dbl.fin g.2))
    (hp : screen.sag (Dbl.fin (r + v.smulR dt).x) (Dbl.fin (r + v.smulR dt).y) = Dbl.fin p)
    (hv : v ≠ ⟨0, 0, 0⟩) (hn : IsUnit' n) (hy : n.z ≠ 0 ∨ n.x ≠ 0) (hex : V3.normSq (bentTangent n v g) ≤ 1) :
    let out := Ray.refractScreen s ct screen niter ray
    out.r = (r + v.smulR dt).fin ∧ out.t = Dbl.fin (t + dt + p) ∧
    out.failed = false ∧ out.vignetted = ray.vignetted ∧ out.flux = ray.flux ∧ out.wavelength = ray.wavelength ∧
    ∃ u : V3 ℝ, out.v = u.fin ∧ speed u = speed v ∧
      tangential (u.smulR (1 / speed u)) n
        = tangential (v.smulR (1 / speed v)) n
          + V3.smul (if V3.dot v n < 0 then 1 else -1) (tangential (grad3 g) n) ∧
      (V3.dot v n < 0 → V3.dot u n ≤ 0) ∧ (0 ≤ V3.dot v n → 0 ≤ V3.dot u n) := by
  have hy' : n.z * n.z + n.x * n.x ≠ 0 := by
    rcases hy with hz | hx
    · have := mul_self_pos.mpr hz; nlinarith [mul_self_nonneg n.x]
    · have := mul_self_pos.mpr hx; nlinarith [mul_self_nonneg n.z]
  have hh := refractScreen_hit h hg
  intro out
  have ho : out = Ray.refractScreen s ct screen niter ray := rfl
  rw [hh, screenDir_fin hv hn hy' hex, hp, ht] at ho
  have hk := speed_pos hv
  set q := Real.sqrt (1 - V3.normSq (bentTangent n v g)) with hq
  have hq0 : 0 ≤ q := Real.sqrt_nonneg _
  have hqq : q * q = 1 - V3.normSq (bentTangent n v g) := Real.mul_self_sqrt (by linarith)
  have hperp := bentTangent_perp hn v g
  have hss := sign_mul_self n v
  have hn' := hn
  unfold IsUnit' at hn'
  set w := bentTangent n v g - V3.smul (screenSign n v * q) n with hw
  have hwn : V3.dot w n = -(screenSign n v * q) := by
    have : V3.dot w n = V3.dot (bentTangent n v g) n - screenSign n v * q * V3.dot n n := by
      rw [hw]; simp [V3.dot]; ring
    rw [this, hperp, hn']; ring
  have hww : V3.dot w w = 1 := by
    have : V3.dot w w = V3.normSq (bentTangent n v g) - 2 * (screenSign n v * q) * V3.dot (bentTangent n v g) n
        + (screenSign n v * screenSign n v) * (q * q) * V3.dot n n := by
      rw [hw]; simp [V3.dot, V3.normSq]; ring
    rw [this, hperp, hn', hss, hqq]; ring
  have hsu : speed (V3.smul (speed v) w) = speed v := by
    have : V3.dot (V3.smul (speed v) w) (V3.smul (speed v) w) = speed v * speed v * V3.dot w w := by
      simp [V3.dot]; ring
    conv_lhs => rw [speed]
    rw [this, hww, mul_one]; exact Real.sqrt_mul_self hk.le
  have hdir : (V3.smul (speed v) w).smulR (1 / speed (V3.smul (speed v) w)) = w := by
    rw [hsu]; ext <;> simp <;> field_simp
  have hun : V3.dot (V3.smul (speed v) w) n = -(speed v * screenSign n v * q) := by
    have : V3.dot (V3.smul (speed v) w) n = speed v * V3.dot w n := by simp [V3.dot]; ring
    rw [this, hwn]; ring
  refine ⟨by rw [ho], by rw [ho]; simp, by rw [ho]; exact h.live, by rw [ho], by rw [ho], by rw [ho],
    V3.smul (speed v) w, by rw [ho], hsu, ?_, ?_, ?_⟩
  · rw [hdir, tangential, hwn]
    have : bentTangent n v g = tangential (v.smulR (1 / speed v)) n
          + V3.smul (if V3.dot v n < 0 then 1 else -1) (tangential (grad3 g) n) := rfl
    rw [← this, hw]
    ext <;> simp
  · intro hd
    have : screenSign n v = 1 := by simp [screenSign, hd]
    rw [hun, this]
    have : 0 ≤ speed v * 1 * q := by positivity
    linarith
  · intro hd
    have : screenSign n v = -1 := by simp [screenSign, not_lt.mpr hd]
    rw [hun, this]
    have : 0 ≤ speed v * q := by positivity
    linarith

/-- C19: a screen with zero height and zero gradient does nothing but move the ray to the surface. -/
theorem C19_zero_screen {s screen : Surface Dbl} {ct : CoordTransform Dbl} {niter : ℕ} {ray : Ray Dbl}
    {r v n : V3 ℝ} {dt t : ℝ} (h : Hit s ct niter ray r v n dt) (ht : ray.t = Dbl.fin t)
    (hg : screen.grad (Dbl.fin (r + v.smulR dt).x) (Dbl.fin (r + v.smulR dt).y) = (Dbl.fin 0, Dbl.fin 0))
    (hp : screen.sag (Dbl.fin (r + v.smulR dt).x) (Dbl.fin (r + v.smulR dt).y) = Dbl.fin 0)
    (hv : v ≠ ⟨0, 0, 0⟩) (hn : IsUnit' n) (hy : n.z ≠ 0 ∨ n.x ≠ 0) :
    Ray.refractScreen s ct screen niter ray = Ray.intersect s ct none niter ray := by
  have hy' : n.z * n.z + n.x * n.x ≠ 0 := by
    rcases hy with hz | hx
    · have := mul_self_pos.mpr hz; nlinarith [mul_self_nonneg n.x]
    · have := mul_self_pos.mpr hx; nlinarith [mul_self_nonneg n.z]
  have hn' := hn
  unfold IsUnit' at hn'
  have hunit := unit_dir hv
  have hb : bentTangent n v (0, 0) = tangential (v.smulR (1 / speed v)) n := by
    ext <;> simp [bentTangent, tangential, grad3, V3.dot]
  have hnsq : V3.normSq (tangential (v.smulR (1 / speed v)) n)
      = 1 - V3.dot (v.smulR (1 / speed v)) n * V3.dot (v.smulR (1 / speed v)) n := by
    have : V3.normSq (tangential (v.smulR (1 / speed v)) n)
        = V3.dot (v.smulR (1 / speed v)) (v.smulR (1 / speed v))
          - V3.dot (v.smulR (1 / speed v)) n * V3.dot (v.smulR (1 / speed v)) n * (2 - V3.dot n n) := by
      simp [tangential, V3.normSq, V3.dot]; ring
    rw [this, hunit, hn']; ring
  have hex : V3.normSq (bentTangent n v (0, 0)) ≤ 1 := by
    rw [hb, hnsq]; nlinarith [mul_self_nonneg (V3.dot (v.smulR (1 / speed v)) n)]
  rw [refractScreen_hit (g := (0, 0)) h hg, screenDir_fin hv hn hy' hex, hp, ht]
  have hsq : Real.sqrt (1 - V3.normSq (bentTangent n v (0, 0))) = |V3.dot (v.smulR (1 / speed v)) n| := by
    rw [hb, hnsq, sub_sub_cancel, Real.sqrt_mul_self_eq_abs]
  have hsgn : screenSign n v * |V3.dot (v.smulR (1 / speed v)) n| = -V3.dot (v.smulR (1 / speed v)) n := by
    have hk : V3.dot (v.smulR (1 / speed v)) n = V3.dot v n / speed v := by simp [V3.dot]; field_simp
    have hsp := speed_pos hv
    by_cases hd : V3.dot v n < 0
    · have : V3.dot v n / speed v < 0 := div_neg_of_neg_of_pos hd hsp
      rw [hk, abs_of_neg this]; simp [screenSign, hd]
    · have : 0 ≤ V3.dot v n / speed v := div_nonneg (not_lt.mp hd) hsp.le
      rw [hk, abs_of_nonneg this]; simp [screenSign, hd]
  have hvel : V3.smul (speed v) (bentTangent n v (0, 0)
      - V3.smul (screenSign n v * Real.sqrt (1 - V3.normSq (bentTangent n v (0, 0)))) n) = v := by
    have hsp := (speed_pos hv).ne'
    rw [hsq, hsgn, hb]
    ext <;> simp [tangential] <;> field_simp
  rw [hvel]
  simp only [Ray.intersect, h.live, h.pos, h.vel, h.time, ht]
  simp

/-- C19, disagreement: when the required tangential direction is longer than one no outgoing direction exists,
but the code neither fails nor vignettes the ray: it stays live, with a velocity all of whose components are NaN.
(`refract` in the same situation marks the ray failed: `C09_snell`.) -/
theorem C19_over_bent_ray_stays_live_violated {s screen : Surface Dbl} {ct : CoordTransform Dbl} {niter : ℕ}
    {ray : Ray Dbl} {r v n : V3 ℝ} {dt : ℝ} {g : ℝ × ℝ} (h : Hit s ct niter ray r v n dt)
    (hg : screen.grad (Dbl.fin (r + v.smulR dt).x) (Dbl.fin (r + v.smulR dt).y) = (Dbl.fin g.1, Dbl.fin g.2))
    (hv : v ≠ ⟨0, 0, 0⟩) (hn : IsUnit' n) (hy : n.z ≠ 0 ∨ n.x ≠ 0) (hex : 1 < V3.normSq (bentTangent n v g)) :
    (Ray.refractScreen s ct screen niter ray).v = ⟨Dbl.nan, Dbl.nan, Dbl.nan⟩ ∧
    (Ray.refractScreen s ct screen niter ray).failed = false ∧
    (Ray.refractScreen s ct screen niter ray).vignetted = ray.vignetted := by
  have hy' : n.z * n.z + n.x * n.x ≠ 0 := by
    rcases hy with hz | hx
    · have := mul_self_pos.mpr hz; nlinarith [mul_self_nonneg n.x]
    · have := mul_self_pos.mpr hx; nlinarith [mul_self_nonneg n.z]
  rw [refractScreen_hit h hg, screenDir_nan hv hn hy' hex]
  exact ⟨rfl, h.live, rfl⟩

/-! ## Non-vacuity

A ray in glass-like index one (or 3/2) coming down obliquely onto a plane, meeting it at time 5. -/

/-- A live ray with velocity `v` starting at `(1, 2, 4)`. -/
noncomputable def demoRay (v : V3 ℝ) : Ray Dbl :=
  { r := (⟨1, 2, 4⟩ : V3 ℝ).fin, v := v.fin, t := .fin 7, wavelength := .fin 1,
    flux := .fin 1, vignetted := false, failed := false }

theorem demo_hit {v : V3 ℝ} (hv : v.z ≠ 0) :
    Hit Surface.plane (CoordTransform.make (CoordSys.std ℝ).fin (CoordSys.std ℝ).fin)
      5 (demoRay v) ⟨1, 2, 4⟩ v ⟨0, 0, 1⟩ (-4 / v.z) where
  live := rfl
  pos := by
    simp only [demoRay, CoordTransform.forward_fin, V3.fin_inj]
    simp [CoordTransform.forward, CoordTransform.make, CoordSys.std, M3.mulVec, M3.mul, M3.tr]
  vel := by
    simp only [demoRay, CoordTransform.forwardVel_fin, V3.fin_inj]
    simp [CoordTransform.forwardVel, CoordTransform.make, CoordSys.std, M3.mulVec, M3.mul, M3.tr]
  time := by simp [Surface.plane, hv, Dbl.div_fin hv]
  normal := by simp [Surface.plane, V3.fin]

theorem demo_unit : IsUnit' ⟨0, 0, 1⟩ := by simp [IsUnit', V3.dot]

/-- Index of the demo ray's medium: speed 1 for direction `(3/5, 0, -4/5)`. -/
theorem demo_speed : speed ⟨3 / 5, 0, -4 / 5⟩ = 1 := by
  have : V3.dot (⟨3 / 5, 0, -4 / 5⟩ : V3 ℝ) ⟨3 / 5, 0, -4 / 5⟩ = 1 := by simp [V3.dot]; norm_num
  rw [speed, this, Real.sqrt_one]

example : ∃ u : V3 ℝ, (Ray.reflect Surface.plane (CoordTransform.make (CoordSys.std ℝ).fin (CoordSys.std ℝ).fin) none 5
    (demoRay ⟨3 / 5, 0, -4 / 5⟩)).v = u.fin ∧ speed u = 1 := by
  obtain ⟨u, h1, -, h2, -⟩ := C08_law_of_reflection (demo_hit (v := ⟨3 / 5, 0, -4 / 5⟩) (by norm_num)) demo_unit none
  exact ⟨u, h1, by rw [h2, demo_speed]⟩

/-- Air to glass: the refracting branch of C09, C10 is reachable. -/
example : (Ray.refract Surface.plane (CoordTransform.make (CoordSys.std ℝ).fin (CoordSys.std ℝ).fin)
    (Medium.const (Dbl.fin (3 / 2))) none 5 (demoRay ⟨3 / 5, 0, -4 / 5⟩)).failed = false := by
  have h := (C09_snell (demo_hit (v := ⟨3 / 5, 0, -4 / 5⟩) (by norm_num)) (by simp) demo_unit
    (n2 := 3 / 2) (by norm_num) (Medium.const (Dbl.fin (3 / 2))) rfl none).1
  rw [demo_speed] at h
  rw [Bool.eq_false_iff, ne_eq, h]
  simp [V3.normSq, V3.dot]; norm_num

/-- Glass (index 3/2) to air at `sin = 4/5`: total internal reflection is reachable. -/
example : (Ray.refract Surface.plane (CoordTransform.make (CoordSys.std ℝ).fin (CoordSys.std ℝ).fin)
    (Medium.const (Dbl.fin 1)) none 5 (demoRay ⟨8 / 15, 0, -6 / 15⟩)).failed = true := by
  have hs : speed ⟨8 / 15, 0, -6 / 15⟩ = 2 / 3 := by
    have : V3.dot (⟨8 / 15, 0, -6 / 15⟩ : V3 ℝ) ⟨8 / 15, 0, -6 / 15⟩ = 2 / 3 * (2 / 3) := by simp [V3.dot]; norm_num
    rw [speed, this]; exact Real.sqrt_mul_self (by norm_num)
  have h := (C09_snell (demo_hit (v := ⟨8 / 15, 0, -6 / 15⟩) (by norm_num)) (by simp) demo_unit
    (n2 := 1) (by norm_num) (Medium.const (Dbl.fin 1)) rfl none).1
  rw [hs] at h
  rw [h]
  simp [V3.normSq, V3.dot]; norm_num

/-- The hypotheses of C19 are met by the plane screen. -/
example : Ray.refractScreen Surface.plane (CoordTransform.make (CoordSys.std ℝ).fin (CoordSys.std ℝ).fin) Surface.plane 5
      (demoRay ⟨3 / 5, 0, -4 / 5⟩)
    = Ray.intersect Surface.plane (CoordTransform.make (CoordSys.std ℝ).fin (CoordSys.std ℝ).fin) none 5
      (demoRay ⟨3 / 5, 0, -4 / 5⟩) :=
  C19_zero_screen (t := 7) (demo_hit (v := ⟨3 / 5, 0, -4 / 5⟩) (by norm_num)) rfl
    (by simp [Surface.grad, Surface.plane]) (by simp [Surface.plane]) (by simp) demo_unit (by simp)

/-- An over-bent direction exists: gradient `(2, 0)` on a flat surface, ray along `-z`. -/
example : 1 < V3.normSq (bentTangent ⟨0, 0, 1⟩ ⟨0, 0, -1⟩ (2, 0)) := by
  simp [bentTangent, tangential, grad3, screenSign, V3.normSq, V3.dot]; norm_num

end Batoid.Props
