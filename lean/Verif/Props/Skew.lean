import Verif.Props.Symmetry

/-!
# C100: the skewness of a ray is kept by systems of revolution

The specification is the classical invariant of skew rays: the component along the axis of position times direction, multiplied by
the refractive index.  In batoid the speed of a ray is the reciprocal of the index, so it is the z component of `r × v` divided by
the square of the speed.
-/

namespace Batoid.Props
open Batoid Batoid.Surface Arith

/-- The z component of `p × v`. -/
def twist (p v : V3 ℝ) : ℝ := p.x * v.y - p.y * v.x

/-- Index times distance from the axis times the sine of the angle to the meridional plane. -/
noncomputable def skewness (p v : V3 ℝ) : ℝ := twist p v / V3.dot v v

/-- A ray with finite position and velocity has a nonzero velocity and skewness `c`; otherwise its undefined vectors are all NaN. -/
def HasSkew (c : ℝ) (r v : V3 Dbl) : Prop :=
  Tame r ∧ Tame v ∧ ∀ a b : V3 ℝ, r = a.fin → v = b.fin → b ≠ ⟨0, 0, 0⟩ ∧ skewness a b = c

/-- A frame with its origin on the axis, turned about the axis by any angle. -/
def AxisFrame (c : CoordSys Dbl) : Prop := ∃ z ψ : ℝ, c = (CoordSys.mk ⟨0, 0, z⟩ (spin ψ)).fin

theorem spin_zero : spin 0 = M3.one := by simp [spin, M3.one]

theorem axisFrame_plain (z : ℝ) : AxisFrame (CoordSys.mk ⟨0, 0, z⟩ M3.one).fin := ⟨z, 0, by rw [spin_zero]⟩

theorem skew_mul {c : ℝ} {p v : V3 ℝ} (hv : v ≠ ⟨0, 0, 0⟩) : skewness p v = c ↔ twist p v = c * V3.dot v v := by
  have := V3.normSq_pos hv
  exact div_eq_iff (ne_of_gt this)

/-! ## Frames -/

theorem skew_forward {a b : CoordSys Dbl} (ha : AxisFrame a) (hb : AxisFrame b) {c : ℝ} {r v : V3 Dbl} (h : HasSkew c r v) :
    HasSkew c ((CoordTransform.make a b).forward r) ((CoordTransform.make a b).forwardVel v) := by
  obtain ⟨z, ψ, rfl⟩ := ha
  obtain ⟨y, χ, rfl⟩ := hb
  have fa : SymFrame (spin 0) (CoordSys.mk ⟨0, 0, z⟩ (spin ψ)).fin := symFrame_spin 0 ψ z
  have fb : SymFrame (spin 0) (CoordSys.mk ⟨0, 0, y⟩ (spin χ)).fin := symFrame_spin 0 χ y
  obtain ⟨hr, hv, hs⟩ := h
  refine ⟨(turn_forward fa fb hr).2, (turn_forwardVel fa fb hv).2, ?_⟩
  have oψ := (axial_spin ψ).orth
  have oχ := (axial_spin χ).orth
  rcases hr with ⟨p, rfl⟩ | rfl
  · rcases hv with ⟨w, rfl⟩ | rfl
    · intro a b e1 e2
      obtain ⟨h0, h1⟩ := hs p w rfl rfl
      rw [CoordTransform.forward_fin, V3.fin_inj, CoordSys.forward_eq oψ] at e1
      rw [CoordTransform.forwardVel_fin, V3.fin_inj, CoordSys.forwardVel_eq] at e2
      have hd : V3.dot b b = V3.dot w w := by
        rw [← e2, oχ.tr.dot_mulVec, oψ.dot_mulVec]
      have hb0 : b ≠ ⟨0, 0, 0⟩ := by
        intro h
        have h2 : 0 < V3.dot w w := V3.normSq_pos h0
        rw [← hd, h] at h2
        simp [V3.dot] at h2
      refine ⟨hb0, ?_⟩
      rw [skew_mul hb0, hd, ← (skew_mul h0).1 h1, ← e1, ← e2]
      have s1 := Real.sin_sq_add_cos_sq ψ
      have s2 := Real.sin_sq_add_cos_sq χ
      simp only [twist, CoordSys.toLocal, CoordSys.toGlobal, M3.mulVec, M3.tr, spin, V3.sub_x, V3.sub_y, V3.sub_z, V3.add_x, V3.add_y, V3.add_z]
      generalize Real.sin ψ = sψ at *
      generalize Real.cos ψ = cψ at *
      generalize Real.sin χ = sχ at *
      generalize Real.cos χ = cχ at *
      linear_combination ((p.x * w.y - p.y * w.x) * (sχ ^ 2 + cχ ^ 2)) * s1 + (p.x * w.y - p.y * w.x) * s2
    · intro a b e1 e2
      have : (CoordTransform.make (CoordSys.mk ⟨0, 0, z⟩ (spin ψ)).fin (CoordSys.mk ⟨0, 0, y⟩ (spin χ)).fin).forwardVel ⟨Dbl.nan, Dbl.nan, Dbl.nan⟩ = ⟨.nan, .nan, .nan⟩ := by
        rw [CoordTransform.make_fin]
        simp [CoordTransform.forwardVel, M3.mulVec, M3.fin, M3.map, M3.tr]
      rw [this] at e2
      have := congrArg V3.x e2; simp at this
  · intro a b e1 e2
    have : (CoordTransform.make (CoordSys.mk ⟨0, 0, z⟩ (spin ψ)).fin (CoordSys.mk ⟨0, 0, y⟩ (spin χ)).fin).forward ⟨Dbl.nan, Dbl.nan, Dbl.nan⟩ = ⟨.nan, .nan, .nan⟩ := by
      rw [CoordTransform.make_fin]
      simp [CoordTransform.forward, M3.mulVec, M3.fin, M3.map, M3.tr]
    rw [this] at e1
    have := congrArg V3.x e1; simp at this

/-! ## Surfaces of revolution -/

/-- The mirror image in the plane through the axis and the point `(x, y)`. -/
noncomputable def flipThrough (x y : ℝ) : M3 ℝ :=
  ⟨(x * x - y * y) / (x * x + y * y), 2 * x * y / (x * x + y * y), 0, 2 * x * y / (x * x + y * y), (y * y - x * x) / (x * x + y * y), 0, 0, 0, 1⟩

theorem axial_flipThrough {x y : ℝ} (h : x * x + y * y ≠ 0) : Axial (flipThrough x y) := by
  have h' : x ^ 2 + y ^ 2 ≠ 0 := by rwa [pow_two, pow_two]
  refine ⟨⟨?_, ?_, ?_, ?_, ?_, ?_⟩, rfl, rfl, rfl, rfl, rfl⟩ <;> simp only [flipThrough] <;> field_simp <;> ring

theorem flip_fixes {p : V3 ℝ} (h : p.x * p.x + p.y * p.y ≠ 0) : (flipThrough p.x p.y).mulVec p = p := by
  have h' : p.x ^ 2 + p.y ^ 2 ≠ 0 := by rwa [pow_two, pow_two]
  ext <;> simp only [M3.mulVec, flipThrough] <;> field_simp <;> ring

theorem twist_fixed {p w : V3 ℝ} (h : p.x * p.x + p.y * p.y ≠ 0) (hw : ((flipThrough p.x p.y).mulVec w).x = w.x ∧ ((flipThrough p.x p.y).mulVec w).y = w.y) :
    twist p w = 0 := by
  obtain ⟨h1, h2⟩ := hw
  have h' : p.x ^ 2 + p.y ^ 2 ≠ 0 := by rwa [pow_two, pow_two]
  simp only [M3.mulVec, flipThrough, zero_mul, add_zero] at h1 h2
  field_simp at h1 h2
  unfold twist
  have e1 : p.y * (p.x * w.y - p.y * w.x) = 0 := by linear_combination h1 / 2
  have e2 : p.x * (p.x * w.y - p.y * w.x) = 0 := by linear_combination -h2 / 2
  have : (p.x * p.x + p.y * p.y) * (p.x * w.y - p.y * w.x) = 0 := by linear_combination p.x * e2 + p.y * e1
  exact (mul_eq_zero.1 this).resolve_left h

theorem twist_origin {p w : V3 ℝ} (h : p.x * p.x + p.y * p.y = 0) : twist p w = 0 := by
  have hx : p.x = 0 := by nlinarith [mul_self_nonneg p.x, mul_self_nonneg p.y]
  have hy : p.y = 0 := by nlinarith [mul_self_nonneg p.x, mul_self_nonneg p.y]
  simp [twist, hx, hy]

/-- The normal of a surface of revolution lies in the meridional plane. -/
theorem normal_meridional {s : Surface Dbl} (hs : ∀ G, Axial G → SymSurface G s) {p w : V3 ℝ} (h : s.normal p.fin.x p.fin.y = w.fin) : twist p w = 0 := by
  by_cases h0 : p.x * p.x + p.y * p.y = 0
  · exact twist_origin h0
  · have hn := (hs _ (axial_flipThrough h0)).normal p.fin (tame_fin p)
    rw [M3.fin_mulVec, flip_fixes h0] at hn
    rcases hn with ⟨u, e1, e2⟩ | ⟨e1, -, -⟩
    · rw [h, V3.fin_inj] at e1 e2
      subst e1
      exact twist_fixed h0 ⟨congrArg V3.x e2.symm, congrArg V3.y e2.symm⟩
    · rw [h] at e1; simp at e1

/-- So does the gradient of a phase screen of revolution. -/
theorem slope_meridional {s : Surface Dbl} (hs : ∀ G, Axial G → SymShape G s.sag s.normal) {p : V3 ℝ} {gx gy : ℝ}
    (h : s.grad p.fin.x p.fin.y = (.fin gx, .fin gy)) : twist p ⟨gx, gy, 0⟩ = 0 := by
  by_cases h0 : p.x * p.x + p.y * p.y = 0
  · exact twist_origin h0
  · have hn := turn_slope (axial_flipThrough h0) (hs _ (axial_flipThrough h0)) (tame_fin p)
    rw [M3.fin_mulVec, flip_fixes h0, h] at hn
    rcases hn with ⟨u, e1, e2⟩ | ⟨e1, -⟩
    · simp only [Prod.mk.injEq, Dbl.fin_inj] at e1 e2
      have := twist_fixed (w := u) h0 ⟨by rw [← e2.1, e1.1], by rw [← e2.2, e1.2]⟩
      simpa [twist, e1.1, e1.2] using this
    · simp at e1

/-! ## The surface operations -/

theorem skew_step {c : ℝ} {r v : V3 Dbl} {dt : Dbl} (h : HasSkew c r v) {p : V3 ℝ} (hp : r + v.smulR dt = p.fin) :
    ∃ b : V3 ℝ, v = b.fin ∧ b ≠ ⟨0, 0, 0⟩ ∧ twist p b = c * V3.dot b b := by
  obtain ⟨hr, hv, hs⟩ := h
  rcases step_cases hr hv dt with ⟨a, b, t, rfl, rfl, rfl⟩ | h'
  · obtain ⟨h0, h1⟩ := hs a b rfl rfl
    refine ⟨b, rfl, h0, ?_⟩
    rw [V3.fin_smulR, V3.fin_add, V3.fin_inj] at hp
    rw [← (skew_mul h0).1 h1, ← hp]
    simp only [twist, V3.add_x, V3.add_y, V3.smulR_x, V3.smulR_y]; ring
  · have h2 := h' M3.one
    rw [one_turn hr, one_turn hv, hp] at h2
    simp at h2

theorem skew_intersect {c : ℝ} {r v : V3 Dbl} {dt : Dbl} (h : HasSkew c r v) (ht : Tame (r + v.smulR dt)) : HasSkew c (r + v.smulR dt) v := by
  refine ⟨ht, h.2.1, ?_⟩
  intro p b hp hb
  obtain ⟨b', hb', h0, h1⟩ := skew_step h hp
  rw [hb, V3.fin_inj] at hb'
  subst hb'
  exact ⟨h0, (skew_mul h0).2 h1⟩

theorem skew_reflect {c : ℝ} {r v : V3 Dbl} {dt : Dbl} (h : HasSkew c r v) (ht : Tame (r + v.smulR dt)) {s : Surface Dbl}
    (hs : ∀ G, Axial G → SymSurface G s) (hu : Upright s) :
    HasSkew c (r + v.smulR dt) (v - V3.smul (2 * V3.dot v (s.normal (r + v.smulR dt).x (r + v.smulR dt).y)) (s.normal (r + v.smulR dt).x (r + v.smulR dt).y)) := by
  have hn := (hs _ axial_flipY).normal _ ht
  refine ⟨ht, (turn_reflected axial_flipY h.2.1 hn).2, ?_⟩
  intro p u hp hv'
  obtain ⟨b, rfl, h0, h1⟩ := skew_step h hp
  rw [hp] at hv' hn
  rcases hn with ⟨w, e, -⟩ | ⟨e1, -, -⟩
  · obtain ⟨hw, -⟩ := hu _ w (tame_fin p) e
    have hm := normal_meridional hs e
    rw [e] at hv'
    simp only [V3.fin_dot, Dbl.ofNat_dbl', Dbl.mul_fin, V3.fin_smul, V3.fin_sub, V3.fin_inj] at hv'
    have hd : V3.dot u u = V3.dot b b := by
      rw [← hv']
      unfold IsUnit' at hw
      simp only [V3.dot] at hw
      simp only [V3.dot, V3.sub_x, V3.sub_y, V3.sub_z, V3.smul_x, V3.smul_y, V3.smul_z]
      linear_combination 4 * (b.x * w.x + b.y * w.y + b.z * w.z) ^ 2 * hw
    have hu0 : u ≠ ⟨0, 0, 0⟩ := by
      intro e0
      have h2 : 0 < V3.dot b b := V3.normSq_pos h0
      rw [← hd, e0] at h2
      simp [V3.dot] at h2
    refine ⟨hu0, (skew_mul hu0).2 ?_⟩
    rw [hd, ← h1, ← hv']
    unfold twist at hm ⊢
    simp only [V3.sub_x, V3.sub_y, V3.smul_x, V3.smul_y]
    push_cast
    linear_combination (-(2 * V3.dot b w)) * hm
  · have := congrArg V3.x hv'
    simp only [V3.sub_x, V3.smul_x, e1] at this
    simp at this

theorem twist_refractR (m : ℝ) (hm : m ≠ 0) {p w b : V3 ℝ} (h : twist p w = 0) :
    twist p (refractR m w b) * (m * m) = twist p b * ((1 / speed b) * (1 / speed b)) := by
  have hi : m * m⁻¹ = 1 := mul_inv_cancel₀ hm
  have key : ∀ n' : V3 ℝ, twist p n' = 0 → ∀ f : ℝ, twist p ⟨(V3.smul (1 / speed b / m) (b.smulR (1 / speed b)) - V3.smul f n').x / m,
      (V3.smul (1 / speed b / m) (b.smulR (1 / speed b)) - V3.smul f n').y / m,
      (V3.smul (1 / speed b / m) (b.smulR (1 / speed b)) - V3.smul f n').z / m⟩ * (m * m) = twist p b * ((1 / speed b) * (1 / speed b)) := by
    intro n' hn' f
    unfold twist at hn' ⊢
    simp only [V3.sub_x, V3.sub_y, V3.smul_x, V3.smul_y, V3.smulR_x, V3.smulR_y]
    generalize 1 / speed b = j
    simp only [div_eq_mul_inv]
    linear_combination (j ^ 2 * (p.x * b.y - p.y * b.x) * (m * m⁻¹ + 1)) * hi - f * m⁻¹ * m ^ 2 * hn'
  unfold refractR
  refine key _ ?_ _
  unfold against
  split_ifs
  · unfold twist at h ⊢
    simp only [V3.neg_x, V3.neg_y]
    linear_combination -h
  · exact h

theorem skew_refract {c : ℝ} {r v : V3 Dbl} {dt : Dbl} (h : HasSkew c r v) (ht : Tame (r + v.smulR dt)) {s : Surface Dbl}
    (hs : ∀ G, Axial G → SymSurface G s) (hu : Upright s) {m : Dbl} (hm : m = .nan ∨ ∃ q : ℝ, 0 < q ∧ m = .fin q) {u : V3 Dbl}
    (hr : Ray.refractDir m (s.normal (r + v.smulR dt).x (r + v.smulR dt).y) v = some u) : HasSkew c (r + v.smulR dt) u := by
  have hn := (hs _ axial_flipY).normal _ ht
  have hm' : m = .nan ∨ ∃ q : ℝ, q ≠ 0 ∧ m = .fin q := by
    rcases hm with h | ⟨q, h1, h2⟩
    exacts [.inl h, .inr ⟨q, h1.ne', h2⟩]
  refine ⟨ht, (turn_refractDir axial_flipY hm' h.2.1 hn).2 u hr, ?_⟩
  intro p w' hp hu'
  subst hu'
  obtain ⟨b, rfl, h0, h1⟩ := skew_step h hp
  rw [hp] at hr hn
  have nanAbs : some (⟨.nan, .nan, .nan⟩ : V3 Dbl) ≠ some w'.fin := by
    intro e
    have := congrArg V3.x (Option.some.inj e); simp at this
  rcases hm with rfl | ⟨q, hq, rfl⟩
  · rw [refractDir_nan (.inr rfl)] at hr
    exact absurd hr nanAbs
  · rcases hn with ⟨w, e, -⟩ | ⟨e1, e2, -⟩
    · obtain ⟨hw, -⟩ := hu _ w (tame_fin p) e
      have hmer := normal_meridional hs e
      rw [e, refractDir_fin h0 hw hq] at hr
      split_ifs at hr with hsn
      have hr' := V3.fin_inj.1 (Option.some.inj hr)
      subst hr'
      have hd := refractR_normSq h0 hw hq (not_lt.1 hsn)
      have hu0 : refractR q w b ≠ ⟨0, 0, 0⟩ := by
        intro e0
        rw [e0] at hd
        have : (0 : ℝ) < 1 / q * (1 / q) := by positivity
        rw [← hd] at this
        simp [V3.dot] at this
      refine ⟨hu0, (skew_mul hu0).2 ?_⟩
      have ht2 := twist_refractR q hq.ne' (b := b) hmer
      have hsp : speed b * speed b = V3.dot b b := Real.mul_self_sqrt (dot_self_nonneg b)
      have hsp0 := (speed_pos h0).ne'
      rw [h1, ← hsp] at ht2
      rw [hd]
      field_simp at ht2 ⊢
      linear_combination ht2
    · rw [refractDir_nan (.inl (by simp only [V3.dot, e1, e2, Dbl.mul_nan, Dbl.nan_add]))] at hr
      exact absurd hr nanAbs

theorem skew_screen {c : ℝ} {r v : V3 Dbl} {dt : Dbl} (h : HasSkew c r v) (ht : Tame (r + v.smulR dt)) {s screen : Surface Dbl}
    (hs : ∀ G, Axial G → SymSurface G s) (hu : Upright s) (hc : ∀ G, Axial G → SymShape G screen.sag screen.normal) :
    HasSkew c (r + v.smulR dt) (Ray.screenDir (s.normal (r + v.smulR dt).x (r + v.smulR dt).y) (screen.grad (r + v.smulR dt).x (r + v.smulR dt).y) v) := by
  have hn := (hs _ axial_flipY).normal _ ht
  have hg := turn_slope axial_flipY (hc _ axial_flipY) ht
  refine ⟨ht, (turn_screenDir axial_flipY hn (fun w hw => hu _ w ht hw) hg h.2.1).2, ?_⟩
  intro p u hp hv'
  obtain ⟨b, rfl, h0, h1⟩ := skew_step h hp
  rw [hp] at hv' hn hg
  have nanAbs : (⟨.nan, .nan, .nan⟩ : V3 Dbl) ≠ u.fin := by
    intro e
    have := congrArg V3.x e; simp at this
  rcases hn with ⟨w, e, -⟩ | ⟨e1, -, -⟩
  · obtain ⟨hw, hz⟩ := hu _ w (tame_fin p) e
    have hmer := normal_meridional hs e
    rcases hg with ⟨g, eg, -⟩ | ⟨eg, -⟩
    · have hsl := slope_meridional hc eg
      have hy : w.z * w.z + w.x * w.x ≠ 0 := by
        have := mul_pos hz hz
        nlinarith [mul_self_nonneg w.x]
      rw [e, eg] at hv'
      by_cases hle : V3.normSq (bentTangent w b (g.x, g.y)) ≤ 1
      · have hsd := screenDir_fin (g := (g.x, g.y)) h0 hw hy hle
        simp only at hsd
        rw [hsd, V3.fin_inj] at hv'
        have hq : Real.sqrt (1 - V3.normSq (bentTangent w b (g.x, g.y))) * Real.sqrt (1 - V3.normSq (bentTangent w b (g.x, g.y))) = _ :=
          Real.mul_self_sqrt (by linarith)
        have hperp := bentTangent_perp hw b (g.x, g.y)
        have hss := sign_mul_self w b
        have hsp : speed b * speed b = V3.dot b b := Real.mul_self_sqrt (dot_self_nonneg b)
        have hsp0 := (speed_pos h0).ne'
        have htb : speed b * twist p (bentTangent w b (g.x, g.y)) = twist p b := by
          have e5 : twist p (bentTangent w b (g.x, g.y)) = twist p b * (1 / speed b) - V3.dot (b.smulR (1 / speed b)) w * twist p w
              + screenSign w b * (twist p ⟨g.x, g.y, 0⟩ - V3.dot (grad3 (g.x, g.y)) w * twist p w) := by
            unfold bentTangent tangential twist
            simp only [V3.add_x, V3.add_y, V3.sub_x, V3.sub_y, V3.smul_x, V3.smul_y, V3.smulR_x, V3.smulR_y, grad3]
            ring
          rw [e5, hmer, hsl]
          field_simp
          ring
        have hd : V3.dot u u = V3.dot b b := by
          rw [← hv', ← hsp]
          generalize bentTangent w b (g.x, g.y) = B at *
          unfold IsUnit' at hw
          have e6 : V3.dot (V3.smul (speed b) (B - V3.smul (screenSign w b * Real.sqrt (1 - V3.normSq B)) w))
              (V3.smul (speed b) (B - V3.smul (screenSign w b * Real.sqrt (1 - V3.normSq B)) w)) =
              speed b * speed b * (V3.normSq B - 2 * (screenSign w b * Real.sqrt (1 - V3.normSq B)) * V3.dot B w +
                (screenSign w b * screenSign w b) * (Real.sqrt (1 - V3.normSq B) * Real.sqrt (1 - V3.normSq B)) * V3.dot w w) := by
            simp only [V3.normSq, V3.dot, V3.sub_x, V3.sub_y, V3.sub_z, V3.smul_x, V3.smul_y, V3.smul_z]; ring
          rw [e6, hperp, hss, hq, hw]; ring
        have hu0 : u ≠ ⟨0, 0, 0⟩ := by
          intro e0
          have h2 : 0 < V3.dot b b := V3.normSq_pos h0
          rw [← hd, e0] at h2
          simp [V3.dot] at h2
        refine ⟨hu0, (skew_mul hu0).2 ?_⟩
        rw [hd, ← h1, ← htb, ← hv']
        unfold twist at hmer ⊢
        simp only [V3.sub_x, V3.sub_y, V3.smul_x, V3.smul_y]
        linear_combination (-(speed b * (screenSign w b * Real.sqrt (1 - V3.normSq (bentTangent w b (g.x, g.y)))))) * hmer
      · have hsd := screenDir_nan (g := (g.x, g.y)) h0 hw hy (not_le.1 hle)
        simp only at hsd
        rw [hsd] at hv'
        exact absurd hv' nanAbs
    · rw [eg, screenDir_wild (.inr (.inr (.inr rfl)))] at hv'
      exact absurd hv' nanAbs
  · rw [screenDir_wild (.inr (.inr (.inl e1)))] at hv'
    exact absurd hv' nanAbs

/-! ## The surfaces of revolution of batoid -/

/-- Planes, paraboloids, spheres, conics and aspheres with a radius of curvature other than zero, and sums of them, of which one at
least is defined for finite positions only (this excludes sums of planes and paraboloids alone). -/
inductive Revolution : Surface Dbl → Prop where
  | plane : Revolution plane
  | paraboloid {R : ℝ} : R ≠ 0 → Revolution (paraboloid (.fin R))
  | sphere {R : ℝ} : R ≠ 0 → Revolution (sphere (.fin R))
  | quadric {R : ℝ} (k : ℝ) : R ≠ 0 → Revolution (quadric (.fin R) (.fin k))
  | asphere {R : ℝ} (k : ℝ) (coefs : List Dbl) : R ≠ 0 → Revolution (asphere (.fin R) (.fin k) coefs)
  | sum {s : Surface Dbl} {ss : List (Surface Dbl)} : (∀ t ∈ s :: ss, Revolution t) → (∃ t ∈ s :: ss, Curved t.sag) → Revolution (Surface.sum (s :: ss))

theorem upright_sum {ss : List (Surface Dbl)} (hs : ∀ s ∈ ss, SymShape flipY s.sag s.normal) : Upright (Surface.sum ss) := by
  intro p w hp h
  refine ⟨?_, (sum_shape axial_flipY hs).up p w hp h⟩
  simp only [Surface.sum, sumNormal] at h
  rcases slopePair_fold axial_flipY hp ss hs (0, 0) (0, 0) (.inl ⟨⟨0, 0, 0⟩, by simp, by simp [M3.mulVec]⟩) with ⟨q, e1, -⟩ | ⟨e1, -⟩
  · have h1 : 0 < q.x * q.x + q.y * q.y + 1 := by nlinarith [mul_self_nonneg q.x, mul_self_nonneg q.y]
    have h2 := Real.sqrt_pos.2 h1
    have h3 := Real.mul_self_sqrt h1.le
    simp only [e1, Dbl.mul_fin, Dbl.add_fin, Dbl.one_dbl, Dbl.sqrt_fin h1.le, Dbl.div_fin h2.ne', V3.fin_mk, V3.fin_inj] at h
    rw [← h]
    simp only [IsUnit', V3.dot]
    generalize Real.sqrt (q.x * q.x + q.y * q.y + 1) = m at h2 h3
    have hm := h2.ne'
    field_simp
    linear_combination -h3
  · simp only [e1] at h
    have := congrArg V3.x h
    simp at this

theorem Revolution.sym {s : Surface Dbl} (h : Revolution s) :
    (∀ G, Axial G → SymSurface G s) ∧ (∀ G, Axial G → SymShape G s.sag s.normal) ∧ Upright s := by
  induction h with
  | plane => exact ⟨fun G hG => sym_plane hG, fun G hG => plane_shape hG, upright_plane⟩
  | paraboloid hR => exact ⟨fun G hG => sym_paraboloid hG hR, fun G hG => paraboloid_shape hG hR, upright_paraboloid hR⟩
  | sphere hR => exact ⟨fun G hG => sym_sphere hG hR, fun G hG => sphere_shape hG hR, upright_sphere hR⟩
  | quadric k hR =>
    refine ⟨fun G hG => ?_, fun G hG => quadric_shape hG _ _, upright_quadric _ _⟩
    by_cases hk : k = -1
    · rw [hk]; exact sym_quadric_parabolic hG hR
    · exact sym_quadric hG hk
  | asphere k cs hR => exact ⟨fun G hG => sym_asphere hG hR k cs, fun G hG => asphere_shape hG _ _ _, upright_asphere _ _ _⟩
  | sum _ hc ih =>
    exact ⟨fun G hG => sym_sum hG ((ih _ (by simp)).1 G hG) (fun t ht => (ih t ht).2.1 G hG) hc,
      fun G hG => sum_shape hG fun t ht => (ih t ht).2.1 G hG, upright_sum fun t ht => (ih t ht).2.1 _ axial_flipY⟩

/-! ## Whole systems -/

/-- An interface of revolution about the common axis.  Its obscuration may be anything. -/
structure RevIface (W : Dbl → Prop) (d : Iface Dbl) : Prop where
  frame : AxisFrame d.coordSys
  surface : Revolution d.surface
  screen : ∀ s, d.kind = .screen s → Revolution s
  inIndex : ∀ w, W w → d.inMedium.getN w = .nan ∨ ∃ q : ℝ, 0 < q ∧ d.inMedium.getN w = .fin q
  outIndex : ∀ w, W w → d.outMedium.getN w = .nan ∨ ∃ q : ℝ, 0 < q ∧ d.outMedium.getN w = .fin q

theorem skew_onRay {W : Dbl → Prop} {d : Iface Dbl} (hd : RevIface W d) {k : CoordSys Dbl} (hk : AxisFrame k) (niter : ℕ) (reverse : Bool) {c : ℝ}
    {ray : Ray Dbl} (h : HasSkew c ray.r ray.v) (hw : W ray.wavelength) :
    HasSkew c (Iface.onRay d niter reverse (CoordTransform.make k d.coordSys) ray).r (Iface.onRay d niter reverse (CoordTransform.make k d.coordSys) ray).v := by
  have hf := skew_forward hk hd.frame h
  have hmt := (hd.surface.sym.1 _ axial_flipY).meets _ _ hf.1 hf.2.1 0 niter
  by_cases hfail : ray.failed = true
  · unfold Iface.onRay Ray.refract Ray.reflect Ray.refractScreen Ray.intersect
    simp only [hfail, if_true]
    cases d.kind <;> exact h
  · unfold Iface.onRay Ray.refract Ray.reflect Ray.refractScreen Ray.intersect
    simp only [hfail, Bool.false_eq_true, if_false]
    obtain ⟨hit, dt, hq⟩ : ∃ hit dt, d.surface.timeToIntersect ((CoordTransform.make k d.coordSys).forward ray.r)
      ((CoordTransform.make k d.coordSys).forwardVel ray.v) 0 niter = (hit, dt) := ⟨_, _, rfl⟩
    rw [hq] at hmt
    simp only [hq]
    cases hit with
    | false => cases d.kind <;> exact h
    | true =>
      have ht := hmt rfl
      have hi : (if reverse then d.inMedium else d.outMedium).getN ray.wavelength = .nan ∨
          ∃ q : ℝ, 0 < q ∧ (if reverse then d.inMedium else d.outMedium).getN ray.wavelength = .fin q := by
        cases reverse
        · exact hd.outIndex _ hw
        · exact hd.inIndex _ hw
      cases hkd : d.kind with
      | mirror => exact skew_reflect hf ht hd.surface.sym.1 hd.surface.sym.2.2
      | screen s => exact skew_screen hf ht hd.surface.sym.1 hd.surface.sym.2.2 (hd.screen s hkd).sym.2.1
      | refractive =>
        simp only []
        generalize hu : Ray.refractDir (F := Dbl) _ _ _ = o
        rcases o with _ | u
        · refine ⟨ht, tame_nan, ?_⟩
          intro a b _ e
          have := congrArg V3.x e
          exact absurd this (by intro e0; cases e0)
        · exact skew_refract hf ht hd.surface.sym.1 hd.surface.sym.2.2 hi hu
      | plain => exact skew_intersect hf ht
      | detector => exact skew_intersect hf ht
      | baffle => exact skew_intersect hf ht

theorem trace_rays_map {F : Type} [Arith F] (d : Iface F) (niter : ℕ) (reverse : Bool) (rv : RayVec F) :
    ∃ f : Ray F → Ray F, (d.trace niter reverse rv).rays = rv.rays.map f ∧ ∀ ray,
      (f ray).r = (Iface.onRay d niter reverse (CoordTransform.make rv.coordSys d.coordSys) ray).r ∧
      (f ray).v = (Iface.onRay d niter reverse (CoordTransform.make rv.coordSys d.coordSys) ray).v ∧
      (f ray).wavelength = (Iface.onRay d niter reverse (CoordTransform.make rv.coordSys d.coordSys) ray).wavelength := by
  unfold Iface.trace Iface.applyObscuration
  rw [interact_rays]
  cases d.obscuration with
  | none => exact ⟨_, rfl, fun _ => ⟨rfl, rfl, rfl⟩⟩
  | some o =>
    refine ⟨fun ray => Ray.obscure o (Iface.onRay d niter reverse (CoordTransform.make rv.coordSys d.coordSys) ray), ?_, fun _ => ⟨rfl, rfl, rfl⟩⟩
    simp only [RayVec.obscure, List.map_map]; rfl

/-- Rays given by their skewness. -/
def SkewRays (W : Dbl → Prop) (cs : List ℝ) (rv : RayVec Dbl) : Prop :=
  AxisFrame rv.coordSys ∧ List.Forall₂ (fun c ray => HasSkew c ray.r ray.v ∧ W ray.wavelength) cs rv.rays

theorem skew_trace_iface {W : Dbl → Prop} {d : Iface Dbl} (hd : RevIface W d) (niter : ℕ) (reverse : Bool) {cs : List ℝ} {rv : RayVec Dbl}
    (h : SkewRays W cs rv) : SkewRays W cs (d.trace niter reverse rv) := by
  obtain ⟨hk, hr⟩ := h
  obtain ⟨f, e, hf⟩ := trace_rays_map d niter reverse rv
  refine ⟨by rw [(C18_trace_frame_and_order d niter reverse rv).1]; exact hd.frame, ?_⟩
  rw [e, List.forall₂_map_right_iff]
  refine hr.imp ?_
  rintro c ray ⟨h1, h2⟩
  obtain ⟨e1, e2, e3⟩ := hf ray
  rw [e1, e2, e3, onRay_wavelength]
  exact ⟨skew_onRay hd hk niter reverse h1 h2, h2⟩

theorem skew_fold {W : Dbl → Prop} (niter : ℕ) (reverse : Bool) : ∀ (l : List (Iface Dbl)) {cs : List ℝ} {rv : RayVec Dbl},
    (∀ d ∈ l, RevIface W d) → SkewRays W cs rv → SkewRays W cs (l.foldl (fun rv d => d.trace niter reverse rv) rv)
  | [], _, _, _, h => h
  | d :: l, cs, rv, hl, h => by
    rw [List.foldl_cons]
    exact skew_fold niter reverse l (fun d hd => hl d (by simp [hd])) (skew_trace_iface (hl d (by simp)) niter reverse h)

/-- C100: a system of revolution keeps the skewness of every ray, in both directions, whatever obscurations it has. -/
theorem C100_skew {W : Dbl → Prop} (o : Optic Dbl) (ho : ∀ d ∈ visits o, RevIface W d) (niter : ℕ) (reverse : Bool) {cs : List ℝ}
    {rv : RayVec Dbl} (h : SkewRays W cs rv) : SkewRays W cs (o.trace niter reverse rv) := by
  cases reverse
  · rw [trace_visits]
    exact skew_fold niter false _ ho h
  · rw [trace_visits_rev]
    exact skew_fold niter true _ (fun d hd => ho d (List.mem_reverse.1 hd)) h

/-- C100: a skew ray never gets to the axis: its distance from the axis times the refractive index stays at least the absolute value
of its skewness. -/
theorem C100_distance {c : ℝ} {p v : V3 ℝ} (h : HasSkew c p.fin v.fin) {m : ℝ} (hm : 0 < m) (hv : speed v = 1 / m) :
    |c| ≤ m * Real.sqrt (p.x * p.x + p.y * p.y) := by
  obtain ⟨h0, h1⟩ := h.2.2 p v rfl rfl
  have hd : V3.dot v v = 1 / m * (1 / m) := by
    rw [← hv]; exact (Real.mul_self_sqrt (dot_self_nonneg v)).symm
  have ht := (skew_mul h0).1 h1
  have hnn : 0 ≤ p.x * p.x + p.y * p.y := by nlinarith [mul_self_nonneg p.x, mul_self_nonneg p.y]
  have hc : c = twist p v * (m * m) := by rw [ht, hd]; field_simp
  have hle : (twist p v) ^ 2 ≤ (p.x * p.x + p.y * p.y) * V3.dot v v := by
    simp only [twist, V3.dot]
    nlinarith [mul_self_nonneg (p.x * v.x + p.y * v.y), mul_nonneg hnn (mul_self_nonneg v.z)]
  rw [hd] at hle
  rw [← Real.sqrt_sq_eq_abs]
  have e : m * Real.sqrt (p.x * p.x + p.y * p.y) = Real.sqrt (m ^ 2 * (p.x * p.x + p.y * p.y)) := by
    rw [Real.sqrt_mul (by positivity), Real.sqrt_sq hm.le]
  rw [e]
  apply Real.sqrt_le_sqrt
  rw [hc]
  calc (twist p v * (m * m)) ^ 2 = (twist p v) ^ 2 * (m * m) ^ 2 := by ring
    _ ≤ ((p.x * p.x + p.y * p.y) * (1 / m * (1 / m))) * (m * m) ^ 2 := by gcongr
    _ = m ^ 2 * (p.x * p.x + p.y * p.y) := by field_simp

/-- C100 for a single ray: if it comes out with a position and a velocity, its skewness is what it was. -/
theorem C100_ray {W : Dbl → Prop} (o : Optic Dbl) (ho : ∀ d ∈ visits o, RevIface W d) (niter : ℕ) (reverse : Bool) {k : CoordSys Dbl} (hk : AxisFrame k)
    {ray out : Ray Dbl} (hw : W ray.wavelength) {p v p' v' : V3 ℝ} (hr : ray.r = p.fin) (hv : ray.v = v.fin) (h0 : v ≠ ⟨0, 0, 0⟩)
    (h : (o.trace niter reverse ⟨[ray], k⟩).rays = [out]) (hr' : out.r = p'.fin) (hv' : out.v = v'.fin) :
    skewness p' v' = skewness p v := by
  have hs : SkewRays W [skewness p v] ⟨[ray], k⟩ := by
    refine ⟨hk, .cons ⟨⟨?_, ?_, ?_⟩, hw⟩ .nil⟩
    · rw [hr]; exact tame_fin p
    · rw [hv]; exact tame_fin v
    · intro a b ha hb
      rw [hr, V3.fin_inj] at ha
      rw [hv, V3.fin_inj] at hb
      subst ha hb
      exact ⟨h0, rfl⟩
  have := (C100_skew o ho niter reverse hs).2
  rw [h] at this
  cases this with
  | cons h1 _ => exact (h1.1.2.2 p' v' hr' hv').2

/-! ## Concrete cases -/

theorem demoStopped_rev : ∀ d ∈ visits demoStopped, RevIface (fun _ => True) d := by
  have hv : visits demoStopped = [demoWindow,
      { demoBowl with obscuration := some (.union [.circle (.fin 1) (.fin 0) (.fin 0), .negation (.circle (.fin 5) (.fin 0) (.fin 0))]) },
      demoFlat "D" 2] := by
    simp [demoStopped, demoComp, visits, visitsItems, Optic.skip, demoWindow, demoBowl, demoFlat, demoMirror]
  rw [hv]
  intro d hd
  simp only [List.mem_cons, List.not_mem_nil, or_false] at hd
  rcases hd with rfl | rfl | rfl
  · exact ⟨axisFrame_plain 10, Revolution.plane, by simp [demoWindow],
      fun _ _ => .inr ⟨1, one_pos, rfl⟩, fun _ _ => .inr ⟨3 / 2, by norm_num, rfl⟩⟩
  · exact ⟨axisFrame_plain 0, Revolution.paraboloid four_ne_zero, by simp [demoBowl, demoMirror],
      fun _ _ => .inr ⟨3 / 2, by norm_num, rfl⟩, fun _ _ => .inr ⟨3 / 2, by norm_num, rfl⟩⟩
  · exact ⟨axisFrame_plain 2, Revolution.plane, by simp [demoFlat],
      fun _ _ => .inr ⟨1, one_pos, rfl⟩, fun _ _ => .inr ⟨1, one_pos, rfl⟩⟩

/-- A ray that passes the axis at a distance has a skewness other than zero, and keeps it. -/
example (reverse : Bool) (p' v' : V3 ℝ) (out : Ray Dbl)
    (h : (demoStopped.trace 5 reverse ⟨[{ demoRay ⟨0, 3 / 5, -4 / 5⟩ with r := V3.fin ⟨2, 0, 20⟩ }], (CoordSys.mk ⟨0, 0, 0⟩ M3.one).fin⟩).rays = [out])
    (hr : out.r = p'.fin) (hv : out.v = v'.fin) : skewness p' v' = 6 / 5 := by
  rw [C100_ray demoStopped demoStopped_rev 5 reverse (axisFrame_plain 0) (ray := { demoRay ⟨0, 3 / 5, -4 / 5⟩ with r := V3.fin ⟨2, 0, 20⟩ }) trivial rfl rfl
    (by intro e; have := congrArg V3.y e; norm_num at this) h hr hv]
  norm_num [skewness, twist, V3.dot]

/-- The hypotheses of `C100_distance`. -/
example : HasSkew (6 / 5) (V3.fin ⟨2, 0, 20⟩) (V3.fin ⟨0, 3 / 5, -4 / 5⟩) ∧ speed ⟨0, 3 / 5, -4 / 5⟩ = 1 / 1 := by
  refine ⟨⟨tame_fin _, tame_fin _, ?_⟩, ?_⟩
  · intro a b ha hb
    rw [V3.fin_inj] at ha hb
    subst ha hb
    exact ⟨by intro e; have := congrArg V3.y e; norm_num at this, by norm_num [skewness, twist, V3.dot]⟩
  · unfold speed
    rw [show V3.dot (⟨0, 3 / 5, -4 / 5⟩ : V3 ℝ) ⟨0, 3 / 5, -4 / 5⟩ = 1 by norm_num [V3.dot]]
    simp

/-- A conic with a polynomial correction on top. -/
example : Revolution (Surface.sum [quadric (.fin 10) (.fin (-1 / 2)), asphere (.fin 300) (.fin 0) [.fin 1, .fin 2], paraboloid (.fin 70)]) := by
  refine .sum (fun t ht => ?_) ⟨_, List.mem_cons_self, quadric_curved (by norm_num)⟩
  simp only [List.mem_cons, List.not_mem_nil, or_false] at ht
  rcases ht with rfl | rfl | rfl
  exacts [.quadric _ (by norm_num), .asphere _ _ (by norm_num), .paraboloid (by norm_num)]

end Batoid.Props
