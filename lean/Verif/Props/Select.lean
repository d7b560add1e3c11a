import Verif.Props.Intersect

/-!
# Property C96: which of the meeting points is found

A line usually meets a conic surface twice.  The specification is `Nearest`: among the points of the line on the surface, one is
strictly lower than all others in a height `h` above the plane through the vertex.  That notion knows neither where on the
line the ray starts nor which way it goes, so neither does the point that the code finds.
-/

namespace Batoid.Props
open Batoid Batoid.Surface

/-! ## Specification -/

/-- At time `t` the line is on the surface `S`, and every other meeting point is strictly higher in the sense of `h`. -/
def Nearest (S : V3 ℝ → Prop) (h : V3 ℝ → ℝ) (r v : V3 ℝ) (t : ℝ) : Prop :=
  S (pointAt r v t) ∧ ∀ t', S (pointAt r v t') → t' ≠ t → h (pointAt r v t) < h (pointAt r v t')

/-- Height above the vertex, measured towards the centre of curvature. -/
def towards (R : ℝ) (p : V3 ℝ) : ℝ := p.z * R

/-- Distance from the plane through the vertex. -/
def offPlane (p : V3 ℝ) : ℝ := |p.z|

/-- Another ray on the same line: it starts at the point of time `s` and has `k` times the velocity (reversed for `k < 0`). -/
theorem pointAt_reparam (r v : V3 ℝ) (s k t : ℝ) : pointAt (pointAt r v s) (v.smulR k) t = pointAt r v (s + k * t) := by
  ext <;> simp only [pointAt, V3.smulR_x, V3.smulR_y, V3.smulR_z] <;> ring

/-- `Nearest` is a property of the line. -/
theorem Nearest.reparam {S : V3 ℝ → Prop} {h : V3 ℝ → ℝ} {r v : V3 ℝ} {t : ℝ} (H : Nearest S h r v t) (s : ℝ) {k : ℝ} (hk : k ≠ 0) :
    Nearest S h (pointAt r v s) (v.smulR k) ((t - s) / k) := by
  have e : s + k * ((t - s) / k) = t := by field_simp; ring
  refine ⟨by rw [pointAt_reparam, e]; exact H.1, fun t' h1 h2 => ?_⟩
  rw [pointAt_reparam] at h1 ⊢
  rw [pointAt_reparam, e]
  refine H.2 _ h1 fun h3 => h2 ?_
  rw [← h3]; field_simp; ring

/-! ## C96 -/

/-- C96: a plane. -/
theorem C96_plane {r v : V3 ℝ} {dt : Dbl} {niter : ℕ} {t : ℝ} (H : Nearest OnPlane (fun _ => 0) r v t) :
    (plane (F := Dbl)).timeToIntersect r.fin v.fin dt niter = (true, .fin t) := by
  have hz : v.z ≠ 0 := by
    intro h0
    have h1 := H.1
    have := H.2 (t + 1) (by simpa [OnPlane, pointAt, h0] using h1) (by simp)
    exact lt_irrefl _ this
  have h1 := H.1
  simp only [OnPlane, pointAt] at h1
  simp only [plane, V3.fin_z, Dbl.zero_dbl, Dbl.eq_fin, decide_eq_true_eq, hz, if_false, Dbl.neg_fin, Dbl.div_fin hz,
    Prod.mk.injEq, true_and, Dbl.fin_inj]
  field_simp; linarith

/-- C96: a tilted plane. -/
theorem C96_tilted {tanx tany : ℝ} {r v : V3 ℝ} {dt : Dbl} {niter : ℕ} {t : ℝ} (H : Nearest (OnTilted tanx tany) (fun _ => 0) r v t) :
    (tilted (Dbl.fin tanx) (Dbl.fin tany)).timeToIntersect r.fin v.fin dt niter = (true, .fin t) := by
  have h1 := H.1
  simp only [OnTilted, pointAt] at h1
  have hz : v.x * tanx + v.y * tany - v.z ≠ 0 := by
    intro h0
    have := H.2 (t + 1) (by simp only [OnTilted, pointAt]; linear_combination h1 - h0) (by simp)
    exact lt_irrefl _ this
  simp only [tilted, V3.fin_x, V3.fin_y, V3.fin_z, Dbl.zero_dbl, Dbl.mul_fin, Dbl.add_fin, Dbl.sub_fin, Dbl.eq_fin,
    decide_eq_true_eq, hz, if_false, Dbl.div_fin hz, Prod.mk.injEq, true_and, Dbl.fin_inj]
  rw [div_eq_iff hz]; linear_combination h1

/-- Of the two roots the one chosen by the sign of `v.z * R` is the nearest. -/
theorem pick_nearest {S : V3 ℝ → Prop} {R : ℝ} {r v : V3 ℝ} {t t1 t2 : ℝ} (H : Nearest S (towards R) r v t)
    (h1 : S (pointAt r v t1)) (h2 : S (pointAt r v t2)) (ht : t = t1 ∨ t = t2) :
    (if v.z * R < 0 then max t1 t2 else min t1 t2) = t := by
  have key : ∀ t', S (pointAt r v t') → t' ≠ t → 0 < (t' - t) * (v.z * R) := by
    intro t' h3 h4
    have := H.2 t' h3 h4
    simp only [towards, pointAt] at this
    nlinarith
  by_cases h12 : t1 = t2
  · subst h12
    rcases ht with rfl | rfl <;> simp
  rcases ht with rfl | rfl
  · have := key t2 h2 (Ne.symm h12)
    split
    · rename_i hn
      exact max_eq_left (by nlinarith)
    · rename_i hn
      exact min_eq_left (by nlinarith)
  · have := key t1 h1 h12
    split
    · rename_i hn
      exact max_eq_right (by nlinarith)
    · rename_i hn
      exact min_eq_right (by nlinarith)

/-- A root means that the discriminant is not negative. -/
theorem disc_nonneg {a b c t : ℝ} (h : a * t * t + b * t + c = 0) : 0 ≤ b * b - 4 * a * c :=
  not_lt.1 fun hD => no_root hD h

/-- C96: a paraboloid.  The ray may start on it only at the point in question, and then not along a tangent. -/
theorem C96_paraboloid {R : ℝ} (hR : R ≠ 0) {r v : V3 ℝ} {dt : Dbl} {niter : ℕ} {t : ℝ} (H : Nearest (OnParaboloid R) (towards R) r v t)
    (hstart : OnParaboloid R r → t = 0 ∧ V3.dot v ⟨r.x, r.y, -R⟩ ≠ 0) :
    (paraboloid (Dbl.fin R)).timeToIntersect r.fin v.fin dt niter = (true, .fin t) := by
  change paraboloidTime _ _ _ _ = _
  have h1 := (onParaboloid_iff hR r v t).1 H.1
  have hC : parC R r = 0 → OnParaboloid R r := fun h => by
    have := (onParaboloid_iff hR r v 0).2 (by rw [h]; ring)
    simpa [pointAt, OnParaboloid] using this
  by_cases ha : parA R v = 0
  · have hb : parB R r v ≠ 0 := by
      intro hb
      rw [ha, hb] at h1
      have h2 := H.2 (t + 1) ((onParaboloid_iff hR r v _).2 (by rw [ha, hb]; linarith)) (by simp)
      obtain ⟨hx, hy⟩ := parA_zero hR ha
      have hz : v.z = 0 := by simpa [parB, hx, hy] using hb
      simp [towards, pointAt, hz] at h2
    rw [paraboloidTime_fin hR, if_pos ha, Dbl.div_fin hb]
    simp only [Prod.mk.injEq, true_and, Dbl.fin_inj]
    rw [ha] at h1
    field_simp; linarith
  · rcases paraboloidTime_cases hR dt ha (disc_nonneg h1) with ⟨t1, t2, hr, e⟩ | ⟨hc, -, e⟩ | ⟨hc, hb, -⟩
    · rw [e, pick_nearest H ((onParaboloid_iff hR r v _).2 hr.root1) ((onParaboloid_iff hR r v _).2 hr.root2) (hr.only ha h1)]
    · rw [e, (hstart (hC hc)).1]
    · exfalso
      refine (hstart (hC hc)).2 ?_
      simp only [V3.dot]
      unfold parB at hb
      field_simp at hb
      linear_combination hb

/-- C96: a sphere. -/
theorem C96_sphere {R : ℝ} {r v : V3 ℝ} {dt : Dbl} {niter : ℕ} {t : ℝ} (H : Nearest (OnSphere R) (towards R) r v t)
    (hstart : OnSphere R r → t = 0 ∧ V3.dot v ⟨r.x, r.y, r.z - R⟩ ≠ 0) :
    (sphere (Dbl.fin R)).timeToIntersect r.fin v.fin dt niter = (true, .fin t) := by
  change sphereTime _ _ _ _ = _
  have h1 := (onSphere_iff R r v t).1 H.1
  have hC : sphC R r = 0 → OnSphere R r := fun h => by
    have := (onSphere_iff R r v 0).2 (by rw [h]; ring)
    simpa [pointAt, OnSphere] using this
  have hv : v ≠ ⟨0, 0, 0⟩ := by
    rintro rfl
    have h2 := H.2 (t + 1) (by simpa [OnSphere, pointAt] using H.1) (by simp)
    simp [towards, pointAt] at h2
  rcases sphereTime_cases hv dt (disc_nonneg h1) with ⟨t1, t2, hr, -, e⟩ | ⟨hc, -, e⟩ | ⟨hc, hb, -⟩
  · rw [e, pick_nearest H ((onSphere_iff R r v _).2 hr.root1) ((onSphere_iff R r v _).2 hr.root2) (hr.only (sphA_pos hv).ne' h1)]
  · rw [e, (hstart (hC hc)).1]
  · exfalso
    refine (hstart (hC hc)).2 ?_
    simp only [V3.dot]
    unfold sphB at hb
    linear_combination hb / 2

/-- C96: a quadric.  The ray may start on it only at the point in question and only if it leaves it outwards. -/
theorem C96_quadric {R k : ℝ} (hk : k + 1 ≠ 0) {r v : V3 ℝ} {dt : Dbl} {niter : ℕ} {t : ℝ}
    (hv : v.x ^ 2 + v.y ^ 2 + (k + 1) * v.z ^ 2 ≠ 0) (H : Nearest (OnQuadric R k) offPlane r v t)
    (hstart : OnQuadric R k r → 0 < (k + 1) * V3.dot v ⟨r.x, r.y, (k + 1) * r.z - R⟩) :
    (quadric (Dbl.fin R) (Dbl.fin k)).timeToIntersect r.fin v.fin dt niter = (true, .fin t) := by
  change quadricTime _ _ _ _ _ = _
  have h1 := (onQuadric_iff (R := R) hk r v t).1 H.1
  have ha : quaA k v ≠ 0 := by
    intro h; apply hv; unfold quaA at h; field_simp at h; linear_combination h
  have hC : quaC R k r = 0 → OnQuadric R k r := fun h => by
    have := (onQuadric_iff (R := R) hk r v 0).2 (by rw [h]; ring)
    simpa [pointAt, OnQuadric] using this
  have hB : (k + 1) * V3.dot v ⟨r.x, r.y, (k + 1) * r.z - R⟩ = (k + 1) ^ 2 / 2 * quaB R k r v := by
    simp only [V3.dot]; unfold quaB; field_simp; ring
  have hB' : 0 < (k + 1) * V3.dot v ⟨r.x, r.y, (k + 1) * r.z - R⟩ → 0 < quaB R k r v := by
    intro h; rw [hB] at h
    have : 0 < (k + 1) ^ 2 / 2 := by positivity
    exact pos_of_mul_pos_right (by linarith) this.le
  rw [quadricTime_fin hk, if_neg (not_lt.2 (disc_nonneg h1))]
  rcases rootPair_cases ha (disc_nonneg h1) with ⟨t1, t2, e, hr, -⟩ | ⟨hc, hb, -⟩ | ⟨hc, hb, -⟩
  · rw [e]
    simp only [Dbl.mul_fin, Dbl.add_fin, Dbl.abs_fin, Dbl.lt_fin, decide_eq_true_eq, Prod.mk.injEq, true_and]
    have h3 := (onQuadric_iff (R := R) hk r v _).2 hr.root1
    have h4 := (onQuadric_iff (R := R) hk r v _).2 hr.root2
    by_cases h12 : t1 = t2
    · subst h12
      have : t = t1 := by simpa using hr.only ha h1
      simp [this]
    rcases hr.only ha h1 with rfl | rfl
    · have := H.2 t2 h4 (Ne.symm h12)
      simp only [offPlane, pointAt] at this
      rw [if_pos (by rw [mul_comm v.z, mul_comm v.z]; exact this)]
    · have := H.2 t1 h3 h12
      simp only [offPlane, pointAt] at this
      rw [if_neg (by rw [mul_comm v.z, mul_comm v.z]; exact not_lt.2 this.le)]
  · have := hB' (hstart (hC hc)); linarith
  · have := hB' (hstart (hC hc)); linarith

/-! ### Start and direction do not matter -/

/-- The surfaces with a formula for the meeting point, with their equation, height and the condition on a ray that starts
on them. -/
inductive Solved : Surface Dbl → (V3 ℝ → Prop) → (V3 ℝ → ℝ) → (V3 ℝ → V3 ℝ → ℝ → Prop) → Prop
  | plane : Solved plane OnPlane (fun _ => 0) (fun _ _ _ => True)
  | tilted (tanx tany : ℝ) : Solved (tilted (.fin tanx) (.fin tany)) (OnTilted tanx tany) (fun _ => 0) (fun _ _ _ => True)
  | paraboloid {R : ℝ} (hR : R ≠ 0) : Solved (paraboloid (.fin R)) (OnParaboloid R) (towards R)
      (fun r v t => OnParaboloid R r → t = 0 ∧ V3.dot v ⟨r.x, r.y, -R⟩ ≠ 0)
  | sphere (R : ℝ) : Solved (sphere (.fin R)) (OnSphere R) (towards R)
      (fun r v t => OnSphere R r → t = 0 ∧ V3.dot v ⟨r.x, r.y, r.z - R⟩ ≠ 0)
  | ellipsoid {R k : ℝ} (hk : 0 < k + 1) : Solved (quadric (.fin R) (.fin k)) (OnQuadric R k) offPlane
      (fun r v _ => OnQuadric R k r → 0 < V3.dot v ⟨r.x, r.y, (k + 1) * r.z - R⟩)

/-- C96: the code finds the nearest point. -/
theorem C96_nearest {s : Surface Dbl} {S : V3 ℝ → Prop} {h : V3 ℝ → ℝ} {start : V3 ℝ → V3 ℝ → ℝ → Prop} (hs : Solved s S h start)
    {r v : V3 ℝ} {t : ℝ} (H : Nearest S h r v t) (hstart : start r v t) (dt : Dbl) (niter : ℕ) :
    s.timeToIntersect r.fin v.fin dt niter = (true, .fin t) := by
  cases hs with
  | plane => exact C96_plane H
  | tilted tanx tany => exact C96_tilted H
  | paraboloid hR => exact C96_paraboloid hR H hstart
  | sphere R => exact C96_sphere H hstart
  | @ellipsoid R k hk =>
    refine C96_quadric hk.ne' ?_ H fun h => mul_pos hk (hstart h)
    intro h0
    have hx : v.x ^ 2 + v.y ^ 2 + (k + 1) * v.z ^ 2 = 0 := h0
    have h1 := sq_nonneg v.x
    have h2 := sq_nonneg v.y
    have h3 : 0 ≤ (k + 1) * v.z ^ 2 := by positivity
    have hvx : v.x = 0 := by nlinarith
    have hvy : v.y = 0 := by nlinarith
    have hvz : v.z = 0 := by
      have : (k + 1) * v.z ^ 2 = 0 := by linarith
      rcases mul_eq_zero.1 this with h4 | h4
      · linarith
      · exact pow_eq_zero_iff two_ne_zero |>.1 h4
    have h4 := H.2 (t + 1) (by have := H.1; simpa [OnQuadric, pointAt, hvx, hvy, hvz] using this) (by simp)
    simp [offPlane, pointAt, hvz] at h4

/-- C96: two rays on the same line, wherever they start and whichever way they go, are sent to the same point. -/
theorem C96_line {s : Surface Dbl} {S : V3 ℝ → Prop} {h : V3 ℝ → ℝ} {start : V3 ℝ → V3 ℝ → ℝ → Prop} (hs : Solved s S h start)
    {r v : V3 ℝ} {t : ℝ} (H : Nearest S h r v t) (a : ℝ) {k : ℝ} (hk : k ≠ 0) (hstart : start r v t)
    (hstart' : start (pointAt r v a) (v.smulR k) ((t - a) / k)) (dt dt' : Dbl) (niter niter' : ℕ) :
    ∃ t', s.timeToIntersect r.fin v.fin dt niter = (true, .fin t) ∧
      s.timeToIntersect (pointAt r v a).fin (v.smulR k).fin dt' niter' = (true, .fin t') ∧
      pointAt (pointAt r v a) (v.smulR k) t' = pointAt r v t := by
  refine ⟨(t - a) / k, C96_nearest hs H hstart dt niter, C96_nearest hs (H.reparam a hk) hstart' dt' niter', ?_⟩
  rw [pointAt_reparam]
  congr 1
  field_simp; ring

/-- C96, converse: what the code finds is never farther than any other meeting point (level rays apart, whose two meeting
points are equally high, and rays that start on the surface). -/
theorem C96_found {s : Surface Dbl} {S : V3 ℝ → Prop} {h : V3 ℝ → ℝ} {start : V3 ℝ → V3 ℝ → ℝ → Prop} (hs : Solved s S h start)
    {r v : V3 ℝ} {t t' : ℝ} {dt : Dbl} {niter : ℕ} (hfound : s.timeToIntersect r.fin v.fin dt niter = (true, .fin t))
    (hoff : ¬ S r) (ht' : S (pointAt r v t')) : S (pointAt r v t) ∧ h (pointAt r v t) ≤ h (pointAt r v t') := by
  cases hs with
  | plane => exact ⟨C20_plane hfound, le_rfl⟩
  | tilted tanx tany => exact ⟨C20_tilted hfound, le_rfl⟩
  | @paraboloid R hR =>
    have hon := C20_paraboloid hR hfound
    refine ⟨hon, ?_⟩
    have hc : parC R r ≠ 0 := fun h => hoff (by
      have := (onParaboloid_iff hR r v 0).2 (by rw [h]; ring)
      simpa [pointAt, OnParaboloid] using this)
    change paraboloidTime _ _ _ _ = _ at hfound
    have h1 := (onParaboloid_iff hR r v t').1 ht'
    have h0 := (onParaboloid_iff hR r v t).1 hon
    by_cases ha : parA R v = 0
    · rw [ha] at h0 h1
      have hb : parB R r v ≠ 0 := by
        intro hb; rw [hb] at h0; apply hc; linarith
      have : t' = t := by
        have : parB R r v * (t' - t) = 0 := by linarith
        rcases mul_eq_zero.1 this with h2 | h2
        · exact absurd h2 hb
        · linarith
      rw [this]
    · rcases paraboloidTime_cases hR dt ha (disc_nonneg h1) with ⟨t1, t2, hr, e⟩ | ⟨h2, -, -⟩ | ⟨h2, -, -⟩
      · rw [e] at hfound
        simp only [Prod.mk.injEq, true_and, Dbl.fin_inj] at hfound
        simp only [towards, pointAt]
        have hrt := hr.only ha h1
        have hm1 := le_max_left t1 t2; have hm2 := le_max_right t1 t2
        have hn1 := min_le_left t1 t2; have hn2 := min_le_right t1 t2
        split at hfound
        · rename_i hn
          have : t' ≤ t := by rw [← hfound]; rcases hrt with rfl | rfl <;> assumption
          nlinarith
        · rename_i hn
          have : t ≤ t' := by rw [← hfound]; rcases hrt with rfl | rfl <;> assumption
          nlinarith
      · exact absurd h2 hc
      · exact absurd h2 hc
  | sphere R =>
    have hon := C20_sphere hfound
    refine ⟨hon, ?_⟩
    have hc : sphC R r ≠ 0 := fun h => hoff (by
      have := (onSphere_iff R r v 0).2 (by rw [h]; ring)
      simpa [pointAt, OnSphere] using this)
    have hv : v ≠ ⟨0, 0, 0⟩ := by
      rintro rfl
      apply hoff
      simpa [pointAt, OnSphere] using ht'
    change sphereTime _ _ _ _ = _ at hfound
    have h1 := (onSphere_iff R r v t').1 ht'
    rcases sphereTime_cases hv dt (disc_nonneg h1) with ⟨t1, t2, hr, -, e⟩ | ⟨h2, -, -⟩ | ⟨h2, -, -⟩
    · rw [e] at hfound
      simp only [Prod.mk.injEq, true_and, Dbl.fin_inj] at hfound
      simp only [towards, pointAt]
      have hrt := hr.only (sphA_pos hv).ne' h1
      have hm1 := le_max_left t1 t2; have hm2 := le_max_right t1 t2
      have hn1 := min_le_left t1 t2; have hn2 := min_le_right t1 t2
      split at hfound
      · rename_i hn
        have : t' ≤ t := by rw [← hfound]; rcases hrt with rfl | rfl <;> assumption
        nlinarith
      · rename_i hn
        have : t ≤ t' := by rw [← hfound]; rcases hrt with rfl | rfl <;> assumption
        nlinarith
    · exact absurd h2 hc
    · exact absurd h2 hc
  | @ellipsoid R k hk =>
    have hon := C20_quadric hk.ne' hfound
    refine ⟨hon, ?_⟩
    have hc : quaC R k r ≠ 0 := fun h => hoff (by
      have := (onQuadric_iff (R := R) hk.ne' r v 0).2 (by rw [h]; ring)
      simpa [pointAt, OnQuadric] using this)
    have h1 := (onQuadric_iff (R := R) hk.ne' r v t').1 ht'
    have ha : quaA k v ≠ 0 := by
      intro h0
      have hx : v.x ^ 2 + v.y ^ 2 + (k + 1) * v.z ^ 2 = 0 := by
        have := hk.ne'
        unfold quaA at h0; field_simp at h0; linear_combination h0
      have h1 := sq_nonneg v.x
      have h2 := sq_nonneg v.y
      have h3 : 0 ≤ (k + 1) * v.z ^ 2 := by positivity
      have hvx : v.x = 0 := by nlinarith
      have hvy : v.y = 0 := by nlinarith
      have hvz : v.z = 0 := by
        have : (k + 1) * v.z ^ 2 = 0 := by linarith
        rcases mul_eq_zero.1 this with h4 | h4
        · linarith
        · exact pow_eq_zero_iff two_ne_zero |>.1 h4
      apply hoff
      simpa [OnQuadric, pointAt, hvx, hvy, hvz] using ht'
    change quadricTime _ _ _ _ _ = _ at hfound
    rw [quadricTime_fin hk.ne', if_neg (not_lt.2 (disc_nonneg h1))] at hfound
    rcases rootPair_cases ha (disc_nonneg h1) with ⟨t1, t2, e, hr, -⟩ | ⟨h2, -, -⟩ | ⟨h2, -, -⟩
    · rw [e] at hfound
      simp only [Dbl.mul_fin, Dbl.add_fin, Dbl.abs_fin, Dbl.lt_fin, decide_eq_true_eq, Prod.mk.injEq, true_and] at hfound
      simp only [offPlane, pointAt, mul_comm _ v.z]
      split at hfound
      · rename_i hlt
        rw [Dbl.fin_inj] at hfound
        subst hfound
        rcases hr.only ha h1 with rfl | rfl
        · exact le_rfl
        · exact hlt.le
      · rename_i hlt
        rw [Dbl.fin_inj] at hfound
        subst hfound
        rcases hr.only ha h1 with rfl | rfl
        · exact not_lt.1 hlt
        · exact le_rfl
    · exact absurd h2 hc
    · exact absurd h2 hc

/-! ### Where it fails -/

/-- C96 fails for level rays: along the diameter of a sphere the two meeting points are equally high, and the code sends
the ray that goes one way to one end and the ray that goes the other way to the other. -/
theorem C96_level_violated :
    (sphere (Dbl.fin 5)).timeToIntersect (V3.fin ⟨0, 0, 2⟩) (V3.fin ⟨1, 0, 0⟩) 0 5 = (true, .fin (-4)) ∧
    (sphere (Dbl.fin 5)).timeToIntersect (V3.fin ⟨0, 0, 2⟩) (V3.fin ⟨-1, 0, 0⟩) 0 5 = (true, .fin (-4)) ∧
    pointAt ⟨0, 0, 2⟩ ⟨1, 0, 0⟩ (-4) ≠ pointAt ⟨0, 0, 2⟩ ⟨-1, 0, 0⟩ (-4) := by
  refine ⟨?_, ?_, ?_⟩
  · change sphereTime _ _ _ _ = _
    have hv : (⟨1, 0, 0⟩ : V3 ℝ) ≠ ⟨0, 0, 0⟩ := by intro h; simpa using congrArg V3.x h
    rcases sphereTime_cases (R := 5) (r := ⟨0, 0, 2⟩) hv 0 (by norm_num [sphA, sphB, sphC]) with
      ⟨t1, t2, hr, hc, e⟩ | ⟨hc, -, -⟩ | ⟨hc, -, -⟩
    · rw [e, if_neg (by norm_num)]
      congr 2
      have h4 := hr.only (sphA_pos hv).ne' (t := 4) (by norm_num [sphA, sphB, sphC])
      have h5 := hr.only (sphA_pos hv).ne' (t := -4) (by norm_num [sphA, sphB, sphC])
      rcases h4 with h4 | h4 <;> rcases h5 with h5 | h5 <;> rw [← h4] <;> first | (rw [← h5]; norm_num; done) | (exfalso; linarith)
    · norm_num [sphC] at hc
    · norm_num [sphC] at hc
  · change sphereTime _ _ _ _ = _
    have hv : (⟨-1, 0, 0⟩ : V3 ℝ) ≠ ⟨0, 0, 0⟩ := by intro h; simpa using congrArg V3.x h
    rcases sphereTime_cases (R := 5) (r := ⟨0, 0, 2⟩) hv 0 (by norm_num [sphA, sphB, sphC]) with
      ⟨t1, t2, hr, hc, e⟩ | ⟨hc, -, -⟩ | ⟨hc, -, -⟩
    · rw [e, if_neg (by norm_num)]
      congr 2
      have h4 := hr.only (sphA_pos hv).ne' (t := 4) (by norm_num [sphA, sphB, sphC])
      have h5 := hr.only (sphA_pos hv).ne' (t := -4) (by norm_num [sphA, sphB, sphC])
      rcases h4 with h4 | h4 <;> rcases h5 with h5 | h5 <;> rw [← h4] <;> first | (rw [← h5]; norm_num; done) | (exfalso; linarith)
    · norm_num [sphC] at hc
    · norm_num [sphC] at hc
  · intro h
    have := congrArg V3.x h
    norm_num [pointAt] at this

/-- C96 fails for rays that start on the surface: the ray from far above, down the axis of a sphere, is sent to the vertex, but
the ray on the same line that starts at the upper pole is left where it is; and on an ellipsoid the ray that starts at the
vertex, upwards, gets the time NaN. -/
theorem C96_start_violated :
    ((sphere (Dbl.fin 1)).timeToIntersect (V3.fin ⟨0, 0, 3⟩) (V3.fin ⟨0, 0, -1⟩) 0 5 = (true, .fin 3) ∧
     (sphere (Dbl.fin 1)).timeToIntersect (V3.fin ⟨0, 0, 2⟩) (V3.fin ⟨0, 0, -1⟩) 0 5 = (true, .fin 0)) ∧
    (quadric (Dbl.fin 1) (Dbl.fin 1)).timeToIntersect (V3.fin ⟨0, 0, 0⟩) (V3.fin ⟨0, 0, 1⟩) 0 5 = (true, .nan) := by
  refine ⟨⟨?_, C20_sphere_near_cap_violated.1⟩, C30_quadric_violated⟩
  refine C96_sphere ⟨by norm_num [OnSphere, pointAt], fun t' h h' => ?_⟩ (fun h => by norm_num [OnSphere] at h)
  simp only [OnSphere, pointAt] at h
  have : (t' - 3) * (t' - 1) = 0 := by linear_combination h
  rcases mul_eq_zero.1 this with h1 | h1
  · exact absurd (by linarith) h'
  · have : t' = 1 := by linarith
    subst this; norm_num [towards, pointAt]

/-! ### Non-vacuity -/

/-- An oblique line through the sphere of radius 5: the lower of its two meeting points. -/
example : Nearest (OnSphere 5) (towards 5) ⟨0, 0, 5⟩ ⟨3, 0, -4⟩ 1 := by
  refine ⟨by norm_num [OnSphere, pointAt], fun t' h h' => ?_⟩
  simp only [OnSphere, pointAt] at h
  have : (t' - 1) * (t' + 1) = 0 := by linear_combination h / 25
  rcases mul_eq_zero.1 this with h1 | h1
  · exact absurd (by linarith) h'
  · have : t' = -1 := by linarith
    subst this; norm_num [towards, pointAt]

example : ¬ OnSphere 5 ⟨0, 0, 5⟩ := by norm_num [OnSphere]

end Batoid.Props
