import Verif.Props.Select
import Verif.Props.Trace

/-!
# Property C97: light paths are reversible

A ray that has come through an optic is sent back from any point of its outgoing line, with the opposite velocity, through the optic traced
in reverse.  It passes every interface at the same point, comes out along the incoming line with the opposite velocity, and
takes the same time.

The specification speaks of global positions and velocities (`LightAt`), of the laws of reflection and of Snell (`Turns`), and of the
course of the light through a list of interfaces (`Course`).
-/

namespace Batoid.Props
open Batoid Batoid.Surface

/-! ## Specification -/

/-- Ray `i` of the vector is alive, at the global position `P` with the global velocity `V` at time `t`; `b` tells whether it is
vignetted, `w` is its wavelength. -/
def LightAt (rv : RayVec Dbl) (i : ℕ) (P V : V3 ℝ) (t : ℝ) (w : Dbl) (b : Bool) : Prop :=
  ∃ (cs : CoordSys ℝ) (ray : Ray Dbl), cs.rot.Orth ∧ rv.coordSys = cs.fin ∧ rv.rays[i]? = some ray ∧
    ray.r = (cs.toLocal P).fin ∧ ray.v = (cs.rot.tr.mulVec V).fin ∧ ray.t = .fin t ∧ ray.wavelength = w ∧
    ray.failed = false ∧ ray.vignetted = b

/-- Snell's law: with speeds `1 / n1` and `1 / n2`, `n sin` of the angle to the normal is conserved, in the same plane, and the
light goes through to the other side. -/
structure Snell (n1 n2 : ℝ) (n v u : V3 ℝ) : Prop where
  pos1 : 0 < n1
  pos2 : 0 < n2
  speed1 : V3.dot v v * n1 ^ 2 = 1
  speed2 : V3.dot u u * n2 ^ 2 = 1
  sines : V3.smul (n2 ^ 2) (V3.cross u n) = V3.smul (n1 ^ 2) (V3.cross v n)
  through : 0 < V3.dot v n * V3.dot u n

/-- The laws by which an interface turns the velocity `v` into `u` where its normal is `n`. -/
inductive Turns (d : Iface Dbl) (w : Dbl) (n v u : V3 ℝ) : Prop
  | straight (hk : d.kind = .plain ∨ d.kind = .detector ∨ d.kind = .baffle) (h : u = v)
  | mirror (hk : d.kind = .mirror) (ht : tangential u n = tangential v n) (hd : V3.dot u n = -V3.dot v n)
  | lens (hk : d.kind = .refractive) {n1 n2 : ℝ} (h1 : d.inMedium.getN w = .fin n1) (h2 : d.outMedium.getN w = .fin n2)
      (h : Snell n1 n2 n v u)

/-- The light goes from `P` with velocity `V` to the interface, which it meets after the time `dt`, and leaves it with velocity `U`. -/
structure Meeting (niter : ℕ) (w : Dbl) (d : Iface Dbl) (c : CoordSys ℝ) (n P V : V3 ℝ) (dt : ℝ) (U : V3 ℝ) : Prop where
  frame : d.coordSys = c.fin
  orth : c.rot.Orth
  meets : d.surface.timeToIntersect (c.toLocal P).fin (c.rot.tr.mulVec V).fin 0 niter = (true, .fin dt)
  normal : d.surface.normal (.fin (c.toLocal (P + V.smulR dt)).x) (.fin (c.toLocal (P + V.smulR dt)).y) = n.fin
  unit : IsUnit' n
  turns : Turns d w n (c.rot.tr.mulVec V) (c.rot.tr.mulVec U)

/-- Seen from the place reached in the time `s` after the meeting, looking back, the interface is met at the same point. -/
structure Crossing (niter : ℕ) (w : Dbl) (d : Iface Dbl) (c : CoordSys ℝ) (n P V : V3 ℝ) (dt : ℝ) (U : V3 ℝ) (s : ℝ) : Prop
    extends Meeting niter w d c n P V dt U where
  back : d.surface.timeToIntersect (c.toLocal (P + V.smulR dt + U.smulR s)).fin (c.rot.tr.mulVec (-U)).fin 0 niter = (true, .fin s)

/-- The point lies in the obscuration of the interface. -/
noncomputable def clips (d : Iface Dbl) (p : V3 ℝ) : Bool :=
  match d.obscuration with
  | none => false
  | some o => o.contains (.fin p.x) (.fin p.y)

/-- The course of light through interfaces, from `P` with velocity `V` at time `t` to `P'` with `V'` at `t'` on the last one.  `s` is the
duration of the first leg, `σ` the time to the place from which it will be sent back; `clip` tells whether it
passes an obscuration. -/
inductive Course (niter : ℕ) (w : Dbl) (P' V' : V3 ℝ) (t' σ : ℝ) : List (Iface Dbl) → V3 ℝ → V3 ℝ → ℝ → ℝ → Bool → Prop
  | done : Course niter w P' V' t' σ [] P' V' t' σ false
  | cross {d : Iface Dbl} {ds : List (Iface Dbl)} {c : CoordSys ℝ} {n P V U : V3 ℝ} {t dt s : ℝ} {clip : Bool}
      (h : Crossing niter w d c n P V dt U s) (rest : Course niter w P' V' t' σ ds (P + V.smulR dt) U (t + dt) s clip) :
      Course niter w P' V' t' σ (d :: ds) P V t dt (clips d (c.toLocal (P + V.smulR dt)) || clip)

/-! ## The laws are symmetric -/

theorem Snell.reverse {n1 n2 : ℝ} {n v u : V3 ℝ} (h : Snell n1 n2 n v u) : Snell n2 n1 n (-u) (-v) where
  pos1 := h.pos2
  pos2 := h.pos1
  speed1 := by rw [← h.speed2]; simp [V3.dot]
  speed2 := by rw [← h.speed1]; simp [V3.dot]
  sines := by
    have hx := congrArg V3.x h.sines; have hy := congrArg V3.y h.sines; have hz := congrArg V3.z h.sines
    simp [V3.cross] at hx hy hz
    ext <;> simp [V3.cross] <;> linarith
  through := by
    have := h.through
    have e : V3.dot (-u) n * V3.dot (-v) n = V3.dot v n * V3.dot u n := by simp [V3.dot]; ring
    rw [e]; exact this

theorem Snell.ne {n1 n2 : ℝ} {n v u : V3 ℝ} (h : Snell n1 n2 n v u) : v ≠ ⟨0, 0, 0⟩ := by
  rintro rfl
  have := h.speed1
  simp [V3.dot] at this

theorem Snell.speed_eq {n1 n2 : ℝ} {n v u : V3 ℝ} (h : Snell n1 n2 n v u) : 1 / speed v = n1 := by
  have h1 := h.pos1
  have : V3.dot v v = (1 / n1) ^ 2 := by
    have := h.speed1
    field_simp; exact this
  rw [speed, this, Real.sqrt_sq (by positivity)]
  field_simp

/-- A vector from its cross and dot products with a unit vector. -/
theorem decompose {n u : V3 ℝ} (hn : IsUnit' n) : u = V3.cross n (V3.cross u n) + V3.smul (V3.dot u n) n := by
  unfold IsUnit' at hn
  simp only [V3.dot] at hn
  ext <;> simp [V3.cross, V3.dot]
  · linear_combination (-u.x) * hn
  · linear_combination (-u.y) * hn
  · linear_combination (-u.z) * hn

/-- Snell's law has one solution. -/
theorem Snell.unique {n1 n2 : ℝ} {n v u u' : V3 ℝ} (hn : IsUnit' n) (h : Snell n1 n2 n v u) (h' : Snell n1 n2 n v u') : u = u' := by
  have h2 : n2 ^ 2 ≠ 0 := by have := h.pos2; positivity
  have hc : V3.cross u n = V3.cross u' n := by
    have := h.sines.trans h'.sines.symm
    have hx := congrArg V3.x this; have hy := congrArg V3.y this; have hz := congrArg V3.z this
    simp only [V3.smul_x, V3.smul_y, V3.smul_z] at hx hy hz
    ext
    · exact mul_left_cancel₀ h2 hx
    · exact mul_left_cancel₀ h2 hy
    · exact mul_left_cancel₀ h2 hz
  have hq : V3.dot u u = V3.dot u' u' := mul_right_cancel₀ h2 (h.speed2.trans h'.speed2.symm)
  have hsq : V3.dot u n * V3.dot u n = V3.dot u' n * V3.dot u' n := by
    have e := cross_normSq u n
    have e' := cross_normSq u' n
    unfold IsUnit' at hn
    rw [hn] at e e'
    rw [hc] at e
    linarith
  have hd : V3.dot u n = V3.dot u' n := by
    rcases mul_self_eq_mul_self_iff.1 hsq with h1 | h1
    · exact h1
    · exfalso
      have ha := h.through
      have hb := h'.through
      rw [h1] at ha
      nlinarith
  rw [decompose hn (u := u), decompose hn (u := u'), hc, hd]

/-- The code obeys Snell's law. -/
theorem refract_snell {n1 n2 : ℝ} {n v u : V3 ℝ} (hn : IsUnit' n) (h : Snell n1 n2 n v u) :
    ¬ 1 < snellSin2 n2 n v ∧ refractR n2 n v = u := by
  have hv := h.ne
  have hs := h.speed_eq
  have hp1 := h.pos1
  have hp2 := h.pos2
  have hlt : snellSin2 n2 n v < 1 := by
    unfold snellSin2
    rw [hs]
    have e : V3.normSq (V3.cross (v.smulR n1) n) = n1 ^ 2 * V3.normSq (V3.cross v n) := by
      simp [V3.normSq, V3.cross, V3.dot]; ring
    have e1 : V3.normSq (V3.smul (n1 ^ 2) (V3.cross v n)) = n1 ^ 4 * V3.normSq (V3.cross v n) := by
      simp [V3.normSq, V3.dot]; ring
    have e2 : V3.normSq (V3.smul (n2 ^ 2) (V3.cross u n)) = n2 ^ 4 * V3.normSq (V3.cross u n) := by
      simp [V3.normSq, V3.dot]; ring
    rw [← h.sines, e2] at e1
    have e3 := cross_normSq u n
    unfold IsUnit' at hn
    rw [hn] at e3
    have e4 : V3.normSq (V3.cross u n) * n2 ^ 2 = 1 - V3.dot u n * V3.dot u n * n2 ^ 2 := by
      rw [e3]; linear_combination h.speed2
    have h0 : V3.dot u n ≠ 0 := by
      intro h0
      have := h.through
      rw [h0, mul_zero] at this
      exact lt_irrefl _ this
    have h0' : 0 < V3.dot u n * V3.dot u n := mul_self_pos.2 h0
    rw [e]
    have e5 : (n1 / n2) ^ 2 * (n1 ^ 2 * V3.normSq (V3.cross v n)) = V3.normSq (V3.cross u n) * n2 ^ 2 := by
      field_simp; linear_combination -e1
    rw [e5, e4]
    have : 0 < V3.dot u n * V3.dot u n * n2 ^ 2 := by positivity
    linarith
  refine ⟨not_lt.2 hlt.le, ?_⟩
  refine Snell.unique hn ⟨h.pos1, h.pos2, h.speed1, ?_, ?_, ?_⟩ h
  · rw [refractR_normSq hv hn hp2 hlt.le]; field_simp
  · have := refractR_cross (n := n) hv hp2
    rw [hs] at this
    have hx := congrArg V3.x this; have hy := congrArg V3.y this; have hz := congrArg V3.z this
    simp [V3.cross] at hx hy hz
    ext <;> simp [V3.cross]
    · linear_combination hx
    · linear_combination hy
    · linear_combination hz
  · have hdot := refractR_dot (v := v) hn hp2
    rw [sin2_eq hv hn] at hdot
    have hpos : 0 < Real.sqrt (1 - snellSin2 n2 n v) / n2 := div_pos (Real.sqrt_pos.mpr (by linarith)) hp2
    have hne : V3.dot v n ≠ 0 := by
      intro h0
      have := h.through
      rw [h0, zero_mul] at this
      exact lt_irrefl _ this
    rcases lt_or_gt_of_ne hne with hd | hd
    · simp only [against, not_lt.mpr hd.le, if_false] at hdot
      rw [hdot, neg_div]
      exact mul_pos_of_neg_of_neg hd (by linarith)
    · simp only [against, hd, if_true] at hdot
      have e : V3.dot (refractR n2 n v) (-n) = -V3.dot (refractR n2 n v) n := by simp [V3.dot]; ring
      rw [e] at hdot
      have : V3.dot (refractR n2 n v) n = Real.sqrt (1 - snellSin2 n2 n v) / n2 := by
        field_simp at hdot ⊢; linarith
      rw [this]; exact mul_pos hd hpos

theorem mirror_unique {n v u : V3 ℝ} (ht : tangential u n = tangential v n) (hd : V3.dot u n = -V3.dot v n) : mirror n v = u := by
  have hx := congrArg V3.x ht; have hy := congrArg V3.y ht; have hz := congrArg V3.z ht
  simp [tangential] at hx hy hz
  rw [hd] at hx hy hz
  ext <;> simp [mirror] <;> linarith

/-! ## One interface -/

theorem mirror_back {n v u : V3 ℝ} (ht : tangential u n = tangential v n)
    (hd : V3.dot u n = -V3.dot v n) : mirror n (-u) = -v := by
  refine mirror_unique ?_ ?_
  · have hx := congrArg V3.x ht; have hy := congrArg V3.y ht; have hz := congrArg V3.z ht
    simp [tangential, V3.dot] at hx hy hz
    ext <;> simp [tangential, V3.dot] <;> linarith
  · have e1 : V3.dot (-v) n = -V3.dot v n := by simp [V3.dot]; ring
    have e2 : V3.dot (-u) n = -V3.dot u n := by simp [V3.dot]; ring
    rw [e1, e2, hd]; ring

/-- The kernel of an interface obeys the laws, forward. -/
theorem onRay_forward {d : Iface Dbl} {niter : ℕ} {ct : CoordTransform Dbl} {ray : Ray Dbl} {r v u n : V3 ℝ} {dt : ℝ}
    (h : Hit d.surface ct niter ray r v n dt) (hn : IsUnit' n) (ht : Turns d ray.wavelength n v u) :
    (Iface.onRay d niter false ct ray).r = (r + v.smulR dt).fin ∧ (Iface.onRay d niter false ct ray).v = u.fin ∧
    (Iface.onRay d niter false ct ray).t = ray.t + .fin dt ∧ (Iface.onRay d niter false ct ray).failed = false ∧
    (Iface.onRay d niter false ct ray).vignetted = ray.vignetted ∧
    (Iface.onRay d niter false ct ray).wavelength = ray.wavelength := by
  cases ht with
  | straight hk hu =>
    subst hu
    have h1 := C11_intersect_keeps_velocity h none
    have : Iface.onRay d niter false ct ray = Ray.intersect d.surface ct none niter ray := by
      unfold Iface.onRay; rcases hk with hk | hk | hk <;> rw [hk]
    rw [this]
    refine ⟨?_, h1.1, ?_, h1.2.1, h1.2.2, ?_⟩ <;> simp only [Ray.intersect, h.live, h.pos, h.vel, h.time, Bool.false_eq_true, if_false] <;> simp
  | mirror hk ht hd =>
    have h1 := reflect_hit h none
    have : Iface.onRay d niter false ct ray = Ray.reflect d.surface ct none niter ray := by
      unfold Iface.onRay; rw [hk]
    rw [this]
    exact ⟨h1.1, by rw [h1.2.1, mirror_unique ht hd], h1.2.2.1, h1.2.2.2.1, h1.2.2.2.2.1, h1.2.2.2.2.2⟩
  | lens hk h1 h2 hs =>
    have h3 := refract_hit h hs.ne hn hs.pos2 d.outMedium h2 none
    obtain ⟨h4, h5⟩ := refract_snell hn hs
    rw [if_neg h4, h5] at h3
    have : Iface.onRay d niter false ct ray = Ray.refract d.surface ct d.outMedium none niter ray := by
      unfold Iface.onRay; rw [hk]; rfl
    rw [this]
    exact ⟨h3.1, h3.2.2.2.1, h3.2.1, h3.2.2.2.2.1, h3.2.2.2.2.2, h3.2.2.1⟩

/-- The kernel of an interface obeys the laws, in reverse. -/
theorem onRay_reverse {d : Iface Dbl} {niter : ℕ} {ct : CoordTransform Dbl} {ray : Ray Dbl} {r v u n : V3 ℝ} {dt : ℝ}
    (h : Hit d.surface ct niter ray r (-u) n dt) (hn : IsUnit' n) (ht : Turns d ray.wavelength n v u) :
    (Iface.onRay d niter true ct ray).r = (r + (-u).smulR dt).fin ∧ (Iface.onRay d niter true ct ray).v = (-v).fin ∧
    (Iface.onRay d niter true ct ray).t = ray.t + .fin dt ∧ (Iface.onRay d niter true ct ray).failed = false ∧
    (Iface.onRay d niter true ct ray).vignetted = ray.vignetted ∧
    (Iface.onRay d niter true ct ray).wavelength = ray.wavelength := by
  cases ht with
  | straight hk hu =>
    subst hu
    have h1 := C11_intersect_keeps_velocity h none
    have : Iface.onRay d niter true ct ray = Ray.intersect d.surface ct none niter ray := by
      unfold Iface.onRay; rcases hk with hk | hk | hk <;> rw [hk]
    rw [this]
    refine ⟨?_, h1.1, ?_, h1.2.1, h1.2.2, ?_⟩ <;> simp only [Ray.intersect, h.live, h.pos, h.vel, h.time, Bool.false_eq_true, if_false] <;> simp
  | mirror hk ht hd =>
    have h1 := reflect_hit h none
    have : Iface.onRay d niter true ct ray = Ray.reflect d.surface ct none niter ray := by
      unfold Iface.onRay; rw [hk]
    rw [this]
    exact ⟨h1.1, by rw [h1.2.1, mirror_back ht hd], h1.2.2.1, h1.2.2.2.1, h1.2.2.2.2.1, h1.2.2.2.2.2⟩
  | lens hk h1 h2 hs =>
    have hs' := hs.reverse
    have h3 := refract_hit h hs'.ne hn hs.pos1 d.inMedium h1 none
    obtain ⟨h4, h5⟩ := refract_snell hn hs'
    rw [if_neg h4, h5] at h3
    have : Iface.onRay d niter true ct ray = Ray.refract d.surface ct d.inMedium none niter ray := by
      unfold Iface.onRay; rw [hk]; rfl
    rw [this]
    exact ⟨h3.1, h3.2.2.2.1, h3.2.1, h3.2.2.2.2.1, h3.2.2.2.2.2, h3.2.2.1⟩

theorem toLocal_step (c : CoordSys ℝ) (P V : V3 ℝ) (t : ℝ) :
    c.toLocal P + (c.rot.tr.mulVec V).smulR t = c.toLocal (P + V.smulR t) := by
  simp only [CoordSys.toLocal]
  rw [← M3.mulVec_smulR, ← M3.mulVec_add]
  congr 1
  ext <;> simp <;> ring

theorem mulVec_neg' (m : M3 ℝ) (v : V3 ℝ) : m.mulVec (-v) = -m.mulVec v := by
  ext <;> simp [M3.mulVec, V3.dot] <;> ring

/-- The obscuration, for a ray whose kernel result is at `p`. -/
theorem trace_light {d : Iface Dbl} {niter : ℕ} {reverse : Bool} {rv : RayVec Dbl} {i : ℕ} {ray : Ray Dbl} {c : CoordSys ℝ} {Q U : V3 ℝ} {t : ℝ}
    {w : Dbl} {b : Bool} (hi : rv.rays[i]? = some ray) (hc : d.coordSys = c.fin) (ho : c.rot.Orth)
    (h1 : (Iface.onRay d niter reverse (CoordTransform.make rv.coordSys d.coordSys) ray).r = (c.toLocal Q).fin)
    (h2 : (Iface.onRay d niter reverse (CoordTransform.make rv.coordSys d.coordSys) ray).v = (c.rot.tr.mulVec U).fin)
    (h3 : (Iface.onRay d niter reverse (CoordTransform.make rv.coordSys d.coordSys) ray).t = .fin t)
    (h4 : (Iface.onRay d niter reverse (CoordTransform.make rv.coordSys d.coordSys) ray).failed = false)
    (h5 : (Iface.onRay d niter reverse (CoordTransform.make rv.coordSys d.coordSys) ray).vignetted = b)
    (h6 : (Iface.onRay d niter reverse (CoordTransform.make rv.coordSys d.coordSys) ray).wavelength = w) :
    LightAt (d.trace niter reverse rv) i Q U t w (b || clips d (c.toLocal Q)) := by
  obtain ⟨out, g1, g2, g3⟩ := trace_ray d niter reverse rv i ray hi
  refine ⟨c, out, ho, by rw [(C18_trace_frame_and_order d niter reverse rv).1, hc], g1, ?_, ?_, ?_, ?_, ?_, ?_⟩
  · rw [g2]; exact h1
  · rw [g2]; exact h2
  · rw [g2]; exact h3
  · rw [g2]; exact h6
  · rw [g2]; exact h4
  · rw [h1, h5] at g3
    have e : (b || clips d (c.toLocal Q)) = true ↔ b = true ∨ ∃ o, d.obscuration = some o ∧ o.contains (c.toLocal Q).fin.x (c.toLocal Q).fin.y = true := by
      rw [Bool.or_eq_true]
      unfold clips
      cases d.obscuration <;> simp
    rw [← e] at g3
    exact Bool.eq_iff_iff.2 g3

/-- C97 for one interface, forward. -/
theorem cross_forward {niter : ℕ} {w : Dbl} {d : Iface Dbl} {c : CoordSys ℝ} {n P V U : V3 ℝ} {dt t : ℝ} {b : Bool} {rv : RayVec Dbl} {i : ℕ}
    (h : Meeting niter w d c n P V dt U) (hin : LightAt rv i P V t w b) :
    LightAt (d.trace niter false rv) i (P + V.smulR dt) U (t + dt) w (b || clips d (c.toLocal (P + V.smulR dt))) := by
  obtain ⟨cs, ray, ho, hcs, hi, hr, hv, ht, hw, hf, hb⟩ := hin
  have hit : Hit d.surface (CoordTransform.make rv.coordSys d.coordSys) niter ray (c.toLocal P) (c.rot.tr.mulVec V) n dt := by
    refine ⟨hf, ?_, ?_, h.meets, ?_⟩
    · rw [hcs, h.frame, hr, CoordTransform.forward_fin, CoordSys.forward_eq ho, CoordSys.toGlobal_toLocal ho]
    · rw [hcs, h.frame, hv, CoordTransform.forwardVel_fin, CoordSys.forwardVel_eq, ho.mulVec_tr]
    · rw [toLocal_step]; exact h.normal
  obtain ⟨g1, g2, g3, g4, g5, g6⟩ := onRay_forward hit h.unit (hw ▸ h.turns)
  refine trace_light hi h.frame h.orth ?_ g2 ?_ g4 (g5.trans hb) (g6.trans hw)
  · rw [g1, toLocal_step]
  · rw [g3, ht, Dbl.add_fin]

/-- C97 for one interface, in reverse. -/
theorem cross_reverse {niter : ℕ} {w : Dbl} {d : Iface Dbl} {c : CoordSys ℝ} {n P V U : V3 ℝ} {dt s t : ℝ} {b : Bool} {rv : RayVec Dbl} {i : ℕ}
    (h : Crossing niter w d c n P V dt U s) (hin : LightAt rv i (P + V.smulR dt + U.smulR s) (-U) t w b) :
    LightAt (d.trace niter true rv) i (P + V.smulR dt) (-V) (t + s) w (b || clips d (c.toLocal (P + V.smulR dt))) := by
  obtain ⟨cs, ray, ho, hcs, hi, hr, hv, ht, hw, hf, hb⟩ := hin
  have hback : P + V.smulR dt + U.smulR s + (-U).smulR s = P + V.smulR dt := by
    ext <;> simp
  have hit : Hit d.surface (CoordTransform.make rv.coordSys d.coordSys) niter ray (c.toLocal (P + V.smulR dt + U.smulR s))
      (-(c.rot.tr.mulVec U)) n s := by
    refine ⟨hf, ?_, ?_, ?_, ?_⟩
    · rw [hcs, h.frame, hr, CoordTransform.forward_fin, CoordSys.forward_eq ho, CoordSys.toGlobal_toLocal ho]
    · rw [hcs, h.frame, hv, CoordTransform.forwardVel_fin, CoordSys.forwardVel_eq, ho.mulVec_tr, mulVec_neg']
    · rw [← mulVec_neg']; exact h.back
    · rw [← mulVec_neg', toLocal_step, hback]; exact h.normal
  obtain ⟨g1, g2, g3, g4, g5, g6⟩ := onRay_reverse hit h.unit (hw ▸ h.turns)
  refine trace_light hi h.frame h.orth ?_ (by rw [g2, mulVec_neg']) ?_ g4 (g5.trans hb) (g6.trans hw)
  · rw [g1, ← mulVec_neg', toLocal_step, hback]
  · rw [g3, ht, Dbl.add_fin]

/-! ## A list of interfaces -/

theorem course_forward {niter : ℕ} {w : Dbl} {P' V' : V3 ℝ} {t' σ : ℝ} {ds : List (Iface Dbl)} {P V : V3 ℝ} {t s : ℝ} {clip : Bool}
    (h : Course niter w P' V' t' σ ds P V t s clip) : ∀ {rv : RayVec Dbl} {i : ℕ} {b : Bool}, LightAt rv i P V t w b →
    LightAt (ds.foldl (fun rv d => d.trace niter false rv) rv) i P' V' t' w (b || clip) := by
  induction h with
  | done => intro rv i b h; simpa using h
  | cross h rest ih =>
    intro rv i b hin
    have := ih (cross_forward h.toMeeting hin)
    simpa [Bool.or_assoc] using this

theorem course_reverse {niter : ℕ} {w : Dbl} {P' V' : V3 ℝ} {t' σ : ℝ} {ds : List (Iface Dbl)} {P V : V3 ℝ} {t s : ℝ} {clip : Bool}
    (h : Course niter w P' V' t' σ ds P V t s clip) {rv : RayVec Dbl} {i : ℕ} {b : Bool} {T : ℝ}
    (hin : LightAt rv i (P' + V'.smulR σ) (-V') T w b) :
    LightAt (ds.reverse.foldl (fun rv d => d.trace niter true rv) rv) i (P + V.smulR s) (-V) (T + (σ + t' - t) - s) w (b || clip) := by
  induction h with
  | done =>
    have e : T + (σ + t' - t') - σ = T := by ring
    rw [e]; simpa using hin
  | @cross d ds c n P V U t dt s clip h rest ih =>
    rw [List.reverse_cons, List.foldl_append]
    have := cross_reverse h ih
    have e : T + (σ + t' - (t + dt)) - s + s = T + (σ + t' - t) - dt := by ring
    rw [e] at this
    simpa [Bool.or_comm, Bool.or_left_comm, Bool.or_assoc] using this

/-! ## C97 -/

/-- C97: light paths are reversible.  Light goes through an optic, from `P` with velocity `V` at time `t` to `P'` with `V'` at `t'`.  Sent back at
time `T` from a point of the outgoing line, it reaches the point of the first interface where it came in, has the opposite of the velocity
it came with, and so is back at `P` after exactly the time `(t' - t) + σ`. -/
theorem C97_reversible {o : Optic Dbl} {niter : ℕ} {w : Dbl} {P V P' V' : V3 ℝ} {t s t' σ T : ℝ} {clip b b' : Bool} {rv rv' : RayVec Dbl} {i j : ℕ}
    (h : Course niter w P' V' t' σ (visits o) P V t s clip) (hin : LightAt rv i P V t w b)
    (hback : LightAt rv' j (P' + V'.smulR σ) (-V') T w b') :
    LightAt (o.trace niter false rv) i P' V' t' w (b || clip) ∧
    LightAt (o.trace niter true rv') j (P + V.smulR s) (-V) (T + (σ + t' - t) - s) w (b' || clip) := by
  rw [trace_visits, trace_visits_rev]
  exact ⟨course_forward h hin, course_reverse h hback⟩

theorem course_append {niter : ℕ} {w : Dbl} {P' V' : V3 ℝ} {t' σ : ℝ} : ∀ (as bs : List (Iface Dbl)) {P V : V3 ℝ} {t s : ℝ} {clip : Bool},
    Course niter w P' V' t' σ (as ++ bs) P V t s clip →
    ∃ X Y tm sm c1 c2, Course niter w X Y tm sm as P V t s c1 ∧ Course niter w P' V' t' σ bs X Y tm sm c2
  | [], bs, P, V, t, s, clip, h => ⟨P, V, t, s, false, clip, .done, h⟩
  | a :: as, bs, P, V, t, s, clip, h => by
    cases h with
    | cross h rest =>
      obtain ⟨X, Y, tm, sm, c1, c2, h1, h2⟩ := course_append as bs rest
      exact ⟨X, Y, tm, sm, _, c2, .cross h h1, h2⟩

/-- C97: on the way back the light passes every interface at the point where it passed it on the way out, at a time as long before the end as it
was after the start, and goes on with the opposite of the velocity with which it had come. -/
theorem C97_same_points {o : Optic Dbl} {niter : ℕ} {w : Dbl} {P V P' V' : V3 ℝ} {t s t' σ T : ℝ} {clip b b' : Bool} {rv rv' : RayVec Dbl} {i j : ℕ}
    (h : Course niter w P' V' t' σ (visits o) P V t s clip) (hin : LightAt rv i P V t w b)
    (hback : LightAt rv' j (P' + V'.smulR σ) (-V') T w b') {before after : List (Iface Dbl)} {d : Iface Dbl}
    (hd : visits o = before ++ d :: after) :
    ∃ (X Vin Vout : V3 ℝ) (tx dt : ℝ) (b1 b2 b3 : Bool),
      LightAt (before.foldl (fun rv d => d.trace niter false rv) rv) i (X + Vin.smulR (-dt)) Vin (tx - dt) w b1 ∧
      LightAt ((before ++ [d]).foldl (fun rv d => d.trace niter false rv) rv) i X Vout tx w b2 ∧
      LightAt ((d :: after).reverse.foldl (fun rv d => d.trace niter true rv) rv') j X (-Vin) (T + (σ + t' - tx)) w b3 := by
  rw [hd] at h
  obtain ⟨X0, Y0, t0, s0, c1, c2, h1, h2⟩ := course_append before (d :: after) h
  have hrev := course_reverse h2 hback
  have hf0 := course_forward h1 hin
  cases h2 with
  | @cross _ _ c n _ _ U _ _ sm clip hc rest =>
    have hf := cross_forward hc.toMeeting hf0
    refine ⟨X0 + Y0.smulR s0, Y0, U, t0 + s0, s0, b || c1, (b || c1) || clips d (c.toLocal (X0 + Y0.smulR s0)),
      b' || (clips d (c.toLocal (X0 + Y0.smulR s0)) || clip), ?_, ?_, ?_⟩
    · have e : X0 + Y0.smulR s0 + Y0.smulR (-s0) = X0 := by ext <;> simp
      rw [e, add_sub_cancel_right]; exact hf0
    · rw [List.foldl_append]; exact hf
    · have e : T + (σ + t' - t0) - s0 = T + (σ + t' - (t0 + s0)) := by ring
      rw [e] at hrev
      exact hrev

/-- C97: looking back at a surface with a formula for the meeting point.  It is enough that, of all meeting points of the outgoing line, the
one where the light left is the nearest in the sense of C96. -/
theorem C97_back {d : Iface Dbl} {S : V3 ℝ → Prop} {h : V3 ℝ → ℝ} {start : V3 ℝ → V3 ℝ → ℝ → Prop} (hs : Solved d.surface S h start)
    {c : CoordSys ℝ} {Q U : V3 ℝ} {s : ℝ} (hn : Nearest S h (c.toLocal Q) (c.rot.tr.mulVec U) 0)
    (hstart : start (c.toLocal (Q + U.smulR s)) (c.rot.tr.mulVec (-U)) s) (niter : ℕ) :
    d.surface.timeToIntersect (c.toLocal (Q + U.smulR s)).fin (c.rot.tr.mulVec (-U)).fin 0 niter = (true, .fin s) := by
  have e1 : c.toLocal (Q + U.smulR s) = pointAt (c.toLocal Q) (c.rot.tr.mulVec U) s := by
    rw [← toLocal_step]; ext <;> simp [pointAt] <;> ring
  have e2 : c.rot.tr.mulVec (-U) = (c.rot.tr.mulVec U).smulR (-1) := by
    rw [mulVec_neg']; ext <;> simp
  have h1 := hn.reparam s (k := -1) (by norm_num)
  rw [← e1, ← e2] at h1
  have e3 : (0 - s) / -1 = s := by ring
  rw [e3] at h1
  exact C96_nearest hs h1 hstart 0 niter

/-! ### Where it fails: phase screens -/

/-- Light bent by less than a right angle goes through the screen. -/
theorem bent_through {n v u : V3 ℝ} {g : ℝ × ℝ} (hn : IsUnit' n) (hv : v ≠ ⟨0, 0, 0⟩) (hlt : V3.normSq (bentTangent n v g) < 1)
    (hs : speed u = speed v) (ht : tangential (u.smulR (1 / speed u)) n = bentTangent n v g) : V3.dot u n ≠ 0 := by
  intro h0
  have hp := speed_pos hv
  have hu : u ≠ ⟨0, 0, 0⟩ := by
    rintro rfl
    have : speed (⟨0, 0, 0⟩ : V3 ℝ) = 0 := by simp [speed, V3.dot]
    rw [this] at hs; linarith
  have h1 : V3.dot (u.smulR (1 / speed u)) n = 0 := by
    have : V3.dot (u.smulR (1 / speed u)) n = V3.dot u n * (1 / speed u) := by simp [V3.dot]; ring
    rw [this, h0, zero_mul]
  have h2 : tangential (u.smulR (1 / speed u)) n = u.smulR (1 / speed u) := by
    rw [tangential, h1]; ext <;> simp
  rw [← ht, h2] at hlt
  have h3 := unit_dir hu
  have : V3.normSq (u.smulR (1 / speed u)) = 1 := h3
  linarith

/-- C97 fails for every `OPDScreen` with a gradient along its surface: light bent by it and sent back from the same point is bent to the same side again,
so it never comes back with the opposite of the velocity it came with. -/
theorem C97_screen_violated {s screen : Surface Dbl} {ct ct' : CoordTransform Dbl} {niter niter' : ℕ} {ray ray' : Ray Dbl}
    {r v n r' u : V3 ℝ} {dt dt' t t' : ℝ} {g : ℝ × ℝ} {p : ℝ} (h : Hit s ct niter ray r v n dt) (ht : ray.t = Dbl.fin t)
    (hg : screen.grad (Dbl.fin (r + v.smulR dt).x) (Dbl.fin (r + v.smulR dt).y) = (Dbl.fin g.1, Dbl.fin g.2))
    (hp : screen.sag (Dbl.fin (r + v.smulR dt).x) (Dbl.fin (r + v.smulR dt).y) = Dbl.fin p)
    (hv : v ≠ ⟨0, 0, 0⟩) (hn : IsUnit' n) (hy : n.z ≠ 0 ∨ n.x ≠ 0) (hlt : V3.normSq (bentTangent n v g) < 1)
    (hu : (Ray.refractScreen s ct screen niter ray).v = u.fin) (h' : Hit s ct' niter' ray' r' (-u) n dt') (ht' : ray'.t = Dbl.fin t')
    (hsame : r' + (-u).smulR dt' = r + v.smulR dt) (hslope : tangential (grad3 g) n ≠ ⟨0, 0, 0⟩) :
    (Ray.refractScreen s ct' screen niter' ray').v ≠ (-v).fin := by
  intro hback
  obtain ⟨-, -, -, -, -, -, u', h1, h2, h3, -, -⟩ := C19_refractScreen h ht hg hp hv hn hy hlt.le
  rw [hu, V3.fin_inj] at h1
  subst h1
  have hp0 := speed_pos hv
  have hune : u ≠ ⟨0, 0, 0⟩ := by
    rintro rfl
    have : speed (⟨0, 0, 0⟩ : V3 ℝ) = 0 := by simp [speed, V3.dot]
    rw [this] at h2; linarith
  have hthr := bent_through hn hv hlt h2 h3
  have hneg : ∀ w : V3 ℝ, speed (-w) = speed w := fun w => by unfold speed; congr 1; simp [V3.dot]
  have hnv := neg_ne_zero' hune
  rw [← hsame] at hg hp
  by_cases hex : V3.normSq (bentTangent n (-u) g) ≤ 1
  · obtain ⟨-, -, -, -, -, -, u', g1, g2, g3, -, -⟩ := C19_refractScreen h' ht' hg hp hnv hn hy hex
    rw [hback, V3.fin_inj] at g1
    subst g1
    -- the signs of the two passes are opposite
    have hsgn : (if V3.dot (-u) n < 0 then (1 : ℝ) else -1) = -(if V3.dot v n < 0 then (1 : ℝ) else -1) := by
      have e : V3.dot (-u) n = -V3.dot u n := by simp [V3.dot]; ring
      have c := (C19_refractScreen h ht (by rw [← hsame]; exact hg) (by rw [← hsame]; exact hp) hv hn hy hlt.le).2.2.2.2.2.2
      obtain ⟨u2, c1, -, -, c2, c3⟩ := c
      rw [hu, V3.fin_inj] at c1
      subst c1
      rw [e]
      by_cases hd : V3.dot v n < 0
      · have := lt_of_le_of_ne (c2 hd) hthr
        rw [if_pos hd, if_neg (by linarith)]
      · have := lt_of_le_of_ne (c3 (not_lt.1 hd)) (Ne.symm hthr)
        rw [if_neg hd, if_pos (by linarith), neg_neg]
    rw [hsgn] at g3
    have e1 : tangential ((-v).smulR (1 / speed (-v))) n = V3.smul (-1) (tangential (v.smulR (1 / speed v)) n) := by
      rw [hneg]; ext <;> simp [tangential, V3.dot] <;> ring
    have e2 : tangential ((-u).smulR (1 / speed (-u))) n = V3.smul (-1) (tangential (u.smulR (1 / speed u)) n) := by
      rw [hneg]; ext <;> simp [tangential, V3.dot] <;> ring
    rw [e1, e2, h3] at g3
    generalize (if V3.dot v n < 0 then (1 : ℝ) else -1) = σ, (show (if V3.dot v n < 0 then (1 : ℝ) else -1) ≠ 0 by split <;> norm_num) = hσ at g3
    have hx := congrArg V3.x g3; have hyy := congrArg V3.y g3; have hz := congrArg V3.z g3
    simp only [V3.smul_x, V3.smul_y, V3.smul_z, V3.add_x, V3.add_y, V3.add_z] at hx hyy hz
    apply hslope
    have k : ∀ a : ℝ, σ * a = 0 → a = 0 := fun a ha => (mul_eq_zero.1 ha).resolve_left hσ
    ext
    · exact k _ (by linarith)
    · exact k _ (by linarith)
    · exact k _ (by linarith)
  · have := (C19_over_bent_ray_stays_live_violated h' hg hnv hn hy (not_le.1 hex)).1
    rw [hback] at this
    have := congrArg V3.x this
    simp [V3.fin] at this

/-! ### Concrete cases -/

/-- A window, a parabolic mirror behind it (filled with glass up to the window) and a detector in its focus. -/
noncomputable def demoWindow : Iface Dbl :=
  { demoMirror with kind := .refractive, name := "W".toList, obscuration := none, coordSys := (CoordSys.mk ⟨0, 0, 10⟩ M3.one).fin, outMedium := ⟨fun _ => Dbl.fin (3 / 2)⟩ }

noncomputable def demoBowl : Iface Dbl :=
  { demoMirror with surface := Surface.paraboloid (.fin 4), obscuration := none, inMedium := ⟨fun _ => Dbl.fin (3 / 2)⟩, outMedium := ⟨fun _ => Dbl.fin (3 / 2)⟩ }

noncomputable def demoCamera : Optic Dbl := demoComp "T" [.iface demoWindow, .iface demoBowl, .iface (demoFlat "D" 2)]

theorem frame_toLocal (z : ℝ) (P : V3 ℝ) : (CoordSys.mk ⟨0, 0, z⟩ M3.one).toLocal P = ⟨P.x, P.y, P.z - z⟩ := by
  ext <;> simp [CoordSys.toLocal, M3.one, M3.mulVec, M3.tr, V3.dot]

theorem frame_tr (V : V3 ℝ) : (M3.one : M3 ℝ).tr.mulVec V = V := by
  ext <;> simp [M3.one, M3.mulVec, M3.tr, V3.dot]

theorem window_crossing : Crossing 5 (.fin 1) demoWindow ⟨⟨0, 0, 10⟩, M3.one⟩ ⟨0, 0, 1⟩ ⟨3, 0, 20⟩ ⟨0, 0, -1⟩ 10 ⟨0, 0, -2 / 3⟩ (213 / 16) where
  frame := rfl
  orth := M3.orth_one
  meets := by
    simp only [frame_toLocal, frame_tr]
    refine C96_plane ⟨by norm_num [OnPlane, pointAt], fun t' h h' => ?_⟩
    simp only [OnPlane, pointAt] at h; exact absurd (by linarith) h'
  normal := by simp [demoWindow, demoMirror, Surface.plane, V3.fin]
  unit := demo_unit
  turns := by
    simp only [frame_tr]
    refine .lens rfl (n1 := 1) (n2 := 3 / 2) rfl rfl ⟨by norm_num, by norm_num, by norm_num [V3.dot], by norm_num [V3.dot], ?_, by norm_num [V3.dot]⟩
    ext <;> simp [V3.cross]
  back := by
    refine C97_back (d := demoWindow) (.plane) (c := ⟨⟨0, 0, 10⟩, M3.one⟩) ⟨?_, fun t' h h' => ?_⟩ trivial 5
    · simp only [frame_toLocal, frame_tr]; norm_num [OnPlane, pointAt]
    · simp only [frame_toLocal, frame_tr, OnPlane, pointAt, V3.add_z, V3.smulR_z] at h
      exact absurd (by linarith) h'

theorem bowl_crossing : Crossing 5 (.fin 1) demoBowl ⟨⟨0, 0, 0⟩, M3.one⟩ ⟨-3 / 5, 0, 4 / 5⟩ ⟨3, 0, 10⟩ ⟨0, 0, -2 / 3⟩ (213 / 16)
    ⟨-16 / 25, 0, 14 / 75⟩ (75 / 16) where
  frame := by
    show (CoordSys.std ℝ).fin = _
    congr 1
  orth := M3.orth_one
  meets := by
    simp only [frame_toLocal, frame_tr]
    refine C96_paraboloid (R := 4) (by norm_num) ⟨by norm_num [OnParaboloid, pointAt], fun t' h h' => ?_⟩ (fun h => by norm_num [OnParaboloid] at h)
    simp only [OnParaboloid, pointAt] at h; exact absurd (by linarith) h'
  normal := by
    have h4 : (4 : ℝ) ≠ 0 := by norm_num
    have hs : Real.sqrt (1 + 3 * 3 * (1 / 4) * (1 / 4)) = 5 / 4 := by
      rw [show (1 : ℝ) + 3 * 3 * (1 / 4) * (1 / 4) = (5 / 4) ^ 2 by norm_num]; exact Real.sqrt_sq (by norm_num)
    have h0 : (0 : ℝ) ≤ 1 + 3 * 3 * (1 / 4) * (1 / 4) := by norm_num
    have h5 : (5 / 4 : ℝ) ≠ 0 := by norm_num
    simp only [frame_toLocal, demoBowl, Surface.paraboloid, Surface.paraboloidNormal, V3.add_x, V3.add_y, V3.smulR_x, V3.smulR_y, zero_mul,
      add_zero, Dbl.zero_dbl, Dbl.one_dbl, Dbl.eq_fin, h4, decide_false, Bool.false_eq_true, if_false, Dbl.mul_fin, Dbl.add_fin, Dbl.neg_fin,
      Dbl.div_fin h4, mul_zero, Dbl.sqrt_fin h0, hs, Dbl.div_fin h5]
    refine V3.ext ?_ ?_ ?_ <;> simp only [V3.fin, Dbl.fin_inj] <;> norm_num
  unit := by norm_num [IsUnit', V3.dot]
  turns := by
    simp only [frame_tr]
    refine .mirror rfl ?_ (by norm_num [V3.dot])
    ext <;> norm_num [tangential, V3.dot]
  back := by
    refine C97_back (d := demoBowl) (.paraboloid (R := 4) (by norm_num)) (c := ⟨⟨0, 0, 0⟩, M3.one⟩) ⟨?_, fun t' h h' => ?_⟩ ?_ 5
    · simp only [frame_toLocal, frame_tr]; norm_num [OnParaboloid, pointAt]
    · simp only [frame_toLocal, frame_tr, OnParaboloid, pointAt, V3.add_x, V3.add_y, V3.add_z, V3.smulR_x, V3.smulR_y, V3.smulR_z] at h
      have h1 : t' * (t' * (256 / 625) - 16 / 3) = 0 := by linear_combination -h
      have h2 : t' * (256 / 625) - 16 / 3 = 0 := (mul_eq_zero.1 h1).resolve_left h'
      simp only [frame_toLocal, frame_tr, towards, pointAt, V3.add_z, V3.smulR_z]
      linarith
    · intro h
      simp only [frame_toLocal, OnParaboloid, V3.add_x, V3.add_y, V3.add_z, V3.smulR_x, V3.smulR_y, V3.smulR_z] at h
      norm_num at h

theorem camera_crossing : Crossing 5 (.fin 1) (demoFlat "D" 2) ⟨⟨0, 0, 2⟩, M3.one⟩ ⟨0, 0, 1⟩ ⟨3, 0, 9 / 8⟩ ⟨-16 / 25, 0, 14 / 75⟩ (75 / 16)
    ⟨-16 / 25, 0, 14 / 75⟩ 1 where
  frame := rfl
  orth := M3.orth_one
  meets := by
    simp only [frame_toLocal, frame_tr]
    refine C96_plane ⟨by norm_num [OnPlane, pointAt], fun t' h h' => ?_⟩
    simp only [OnPlane, pointAt] at h; exact absurd (by linarith) h'
  normal := by simp [demoFlat, demoMirror, Surface.plane, V3.fin]
  unit := demo_unit
  turns := .straight (Or.inr (Or.inl rfl)) rfl
  back := by
    refine C97_back (d := demoFlat "D" 2) (.plane) (c := ⟨⟨0, 0, 2⟩, M3.one⟩) ⟨?_, fun t' h h' => ?_⟩ trivial 5
    · simp only [frame_toLocal, frame_tr]; norm_num [OnPlane, pointAt]
    · simp only [frame_toLocal, frame_tr, OnPlane, pointAt, V3.add_z, V3.smulR_z] at h
      exact absurd (by linarith) h'

/-- Light from infinity to the focus, and the way back. -/
example : ∃ clip, Course 5 (.fin 1) ⟨0, 0, 2⟩ ⟨-16 / 25, 0, 14 / 75⟩ 28 1 (visits demoCamera) ⟨3, 0, 20⟩ ⟨0, 0, -1⟩ 0 10 clip := by
  have hv : visits demoCamera = [demoWindow, demoBowl, demoFlat "D" 2] := by
    simp [demoCamera, demoComp, visits, visitsItems, Optic.skip, demoWindow, demoBowl, demoFlat, demoMirror]
  rw [hv]
  have e1 : (⟨3, 0, 20⟩ : V3 ℝ) + (⟨0, 0, -1⟩ : V3 ℝ).smulR 10 = ⟨3, 0, 10⟩ := by ext <;> norm_num
  have e2 : (⟨3, 0, 10⟩ : V3 ℝ) + (⟨0, 0, -2 / 3⟩ : V3 ℝ).smulR (213 / 16) = ⟨3, 0, 9 / 8⟩ := by ext <;> norm_num
  have e3 : (⟨3, 0, 9 / 8⟩ : V3 ℝ) + (⟨-16 / 25, 0, 14 / 75⟩ : V3 ℝ).smulR (75 / 16) = ⟨0, 0, 2⟩ := by ext <;> norm_num
  have c3 : Course 5 (.fin 1) ⟨0, 0, 2⟩ ⟨-16 / 25, 0, 14 / 75⟩ 28 1 [] ⟨0, 0, 2⟩ ⟨-16 / 25, 0, 14 / 75⟩ 28 1 false := .done
  have k3 := camera_crossing
  have k2 := bowl_crossing
  have k1 := window_crossing
  have e : (0 : ℝ) + 10 + 213 / 16 + 75 / 16 = 28 := by norm_num
  rw [← e3, ← e] at c3
  have c2 := Course.cross k3 c3
  rw [← e2] at c2
  have c1 := Course.cross k2 c2
  rw [← e1] at c1
  have c0 := Course.cross k1 c1
  rw [e1, e2, e3, e] at c0
  exact ⟨_, c0⟩

/-- The hypotheses of `C97_screen_violated`: a ray straight down on a flat screen whose phase is tilted. -/
example : ∃ (u : V3 ℝ) (ray' : Ray Dbl), (Ray.refractScreen Surface.plane (CoordTransform.make (CoordSys.std ℝ).fin (CoordSys.std ℝ).fin)
      (Surface.tilted (.fin (3 / 5)) (.fin 0)) 5 (demoRay ⟨0, 0, -1⟩)).v = u.fin ∧ ray'.v = (-u).fin ∧
    (Ray.refractScreen Surface.plane (CoordTransform.make (CoordSys.std ℝ).fin (CoordSys.std ℝ).fin)
      (Surface.tilted (.fin (3 / 5)) (.fin 0)) 5 ray').v ≠ (-⟨0, 0, -1⟩ : V3 ℝ).fin := by
  have hs : Real.sqrt (1 - 3 / 5 * (3 / 5) - 0 * 0) = 4 / 5 := by
    rw [show (1 : ℝ) - 3 / 5 * (3 / 5) - 0 * 0 = (4 / 5) ^ 2 by norm_num]; exact Real.sqrt_sq (by norm_num)
  have h0 : (0 : ℝ) ≤ 1 - 3 / 5 * (3 / 5) - 0 * 0 := by norm_num
  have h45 : (4 / 5 : ℝ) ≠ 0 := by norm_num
  have hg : ∀ x y : Dbl, (Surface.tilted (Dbl.fin (3 / 5)) (Dbl.fin 0)).grad x y = (Dbl.fin (3 / 4), Dbl.fin 0) := by
    intro x y
    simp only [Surface.grad, Surface.tilted, Dbl.one_dbl, Dbl.mul_fin, Dbl.sub_fin, Dbl.sqrt_fin h0, hs, Dbl.neg_fin, Dbl.div_fin h45]
    simp; norm_num
  have hne : (⟨0, 0, -1⟩ : V3 ℝ) ≠ ⟨0, 0, 0⟩ := by simp
  have hlt : V3.normSq (bentTangent ⟨0, 0, 1⟩ ⟨0, 0, -1⟩ (3 / 4, 0)) < 1 := by
    simp [bentTangent, tangential, grad3, screenSign, V3.normSq, V3.dot]; norm_num
  have hit := demo_hit (v := ⟨0, 0, -1⟩) (by norm_num)
  have hp : (Surface.tilted (Dbl.fin (3 / 5)) (Dbl.fin 0)).sag (Dbl.fin ((⟨1, 2, 4⟩ : V3 ℝ) + (⟨0, 0, -1⟩ : V3 ℝ).smulR (-4 / -1)).x)
      (Dbl.fin ((⟨1, 2, 4⟩ : V3 ℝ) + (⟨0, 0, -1⟩ : V3 ℝ).smulR (-4 / -1)).y) = Dbl.fin (3 / 5) := by
    simp [Surface.tilted]
  obtain ⟨-, -, -, -, -, -, u, h1, h2, h3, -, -⟩ := C19_refractScreen hit (t := 7) rfl (g := (3 / 4, 0)) (hg _ _) hp hne demo_unit (Or.inl one_ne_zero) hlt.le
  have hthr := bent_through demo_unit hne hlt h2 h3
  have huz : (-u).z ≠ 0 := by
    simpa [V3.dot] using hthr
  refine ⟨u, { demoRay (-u) with r := (⟨1, 2, 0⟩ : V3 ℝ).fin }, h1, rfl, ?_⟩
  refine C97_screen_violated hit (t := 7) rfl (g := (3 / 4, 0)) (hg _ _) hp hne demo_unit (Or.inl one_ne_zero) hlt h1
    (r' := ⟨1, 2, 0⟩) (dt' := 0) (t' := 7) ⟨rfl, ?_, ?_, ?_, by simp [Surface.plane, V3.fin]⟩ rfl ?_ ?_
  · rw [CoordTransform.forward_fin, V3.fin_inj]
    simp [CoordTransform.forward, CoordTransform.make, CoordSys.std, M3.mulVec, M3.mul, M3.tr]
  · simp only [demoRay, CoordTransform.forwardVel_fin, V3.fin_inj]
    ext <;> simp [CoordTransform.forwardVel, CoordTransform.make, CoordSys.std, M3.mulVec, M3.mul, M3.tr]
  · simp only [Surface.plane, V3.fin_z, Dbl.zero_dbl, Dbl.eq_fin, huz, decide_false, Bool.false_eq_true, if_false, Dbl.neg_fin, Dbl.div_fin huz]
    simp
  · ext <;> simp
  · intro h
    have := congrArg V3.x h
    norm_num [tangential, grad3, V3.dot] at this

end Batoid.Props
