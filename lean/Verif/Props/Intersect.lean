import Verif.Roots
import Verif.Props.Optics
import Mathlib.Tactic.NormNum

/-!
# Intersection of a line with a surface (C20, C21, C23, C30)

The specification is the geometry of the line `r + t v` over the reals: `OnPlane`, `OnTilted`, `OnParaboloid`,
`OnSphere`, `OnQuadric` are the textbook equations of the surfaces, written without reference to the model.
-/

namespace Batoid.Props
open Batoid Batoid.Surface

/-! ## Specification -/

/-- The point of the line at time `t`. -/
def pointAt (r v : V3 ℝ) (t : ℝ) : V3 ℝ := ⟨r.x + t * v.x, r.y + t * v.y, r.z + t * v.z⟩

def OnPlane (p : V3 ℝ) : Prop := p.z = 0
def OnTilted (tanx tany : ℝ) (p : V3 ℝ) : Prop := p.z = tanx * p.x + tany * p.y
def OnParaboloid (R : ℝ) (p : V3 ℝ) : Prop := 2 * R * p.z = p.x ^ 2 + p.y ^ 2
/-- The whole sphere of radius `|R|` through the origin with centre `(0,0,R)`. -/
def OnSphere (R : ℝ) (p : V3 ℝ) : Prop := p.x ^ 2 + p.y ^ 2 + (p.z - R) ^ 2 = R ^ 2
/-- The half of that sphere next to the vertex, i.e. the optical surface. -/
def OnNearCap (R : ℝ) (p : V3 ℝ) : Prop := p.z = R * (1 - Real.sqrt (1 - (p.x ^ 2 + p.y ^ 2) / R ^ 2)) ∧ p.x ^ 2 + p.y ^ 2 ≤ R ^ 2
/-- The whole conicoid with vertex curvature `1/R` and conic constant `k`. -/
def OnQuadric (R k : ℝ) (p : V3 ℝ) : Prop := p.x ^ 2 + p.y ^ 2 = 2 * R * p.z - (1 + k) * p.z ^ 2

/-! ## Model facts about the picked root -/


/-- A negative discriminant leaves no root. -/
theorem no_root {a b c t : ℝ} (hD : b * b - 4 * a * c < 0) (h : a * t * t + b * t + c = 0) : False := by
  have : (2 * a * t + b) ^ 2 = b * b - 4 * a * c := by linear_combination 4 * a * h
  nlinarith [sq_nonneg (2 * a * t + b)]

theorem max_fin_nan (t : ℝ) : Arith.max (Dbl.fin t) Dbl.nan = Dbl.fin t := by
  simp [Arith.max]
theorem min_fin_nan (t : ℝ) : Arith.min (Dbl.fin t) Dbl.nan = Dbl.fin t := by
  simp [Arith.min]
theorem max_nan_nan : Arith.max Dbl.nan Dbl.nan = Dbl.nan := by simp [Arith.max]
theorem min_nan_nan : Arith.min Dbl.nan Dbl.nan = Dbl.nan := by simp [Arith.min]

/-- Coefficients of the quadratic of the sphere. -/
def sphA (v : V3 ℝ) : ℝ := v.z * v.z + (v.x * v.x + v.y * v.y)
def sphB (R : ℝ) (r v : V3 ℝ) : ℝ := 2 * v.z * (r.z - R) + 2 * (v.x * r.x + v.y * r.y)
def sphC (R : ℝ) (r : V3 ℝ) : ℝ := (r.z - R) * (r.z - R) - R * R + (r.x * r.x + r.y * r.y)

theorem sphereTime_fin (R : ℝ) (r v : V3 ℝ) (dt : Dbl) :
    sphereTime (.fin R) r.fin v.fin dt =
      if sphB R r v * sphB R r v - 4 * sphA v * sphC R r < 0 then (false, dt) else
        let p := rootPair (.fin (sphA v)) (.fin (sphB R r v)) (.fin (sphC R r))
          (.fin (sphB R r v * sphB R r v - 4 * sphA v * sphC R r))
        (true, if v.z * R < 0 then Arith.max p.1 p.2 else Arith.min p.1 p.2) := by
  unfold sphereTime
  simp only [V3.fin_x, V3.fin_y, V3.fin_z, Dbl.mul_fin, Dbl.add_fin, Dbl.sub_fin, Dbl.ofNat_dbl', Dbl.zero_dbl,
    Dbl.lt_fin, decide_eq_true_eq]
  rfl

theorem onSphere_iff (R : ℝ) (r v : V3 ℝ) (t : ℝ) :
    OnSphere R (pointAt r v t) ↔ sphA v * t * t + sphB R r v * t + sphC R r = 0 := by
  unfold OnSphere pointAt sphA sphB sphC
  constructor <;> intro h <;> linear_combination h

theorem sphA_pos {v : V3 ℝ} (hv : v ≠ ⟨0,0,0⟩) : 0 < sphA v := by
  unfold sphA
  rcases lt_or_eq_of_le (show 0 ≤ v.z * v.z + (v.x * v.x + v.y * v.y) by
      nlinarith [mul_self_nonneg v.x, mul_self_nonneg v.y, mul_self_nonneg v.z]) with h | h
  · exact h
  · exfalso; apply hv
    have hx : v.x * v.x = 0 := by nlinarith [mul_self_nonneg v.x, mul_self_nonneg v.y, mul_self_nonneg v.z]
    have hy : v.y * v.y = 0 := by nlinarith [mul_self_nonneg v.x, mul_self_nonneg v.y, mul_self_nonneg v.z]
    have hz : v.z * v.z = 0 := by nlinarith [mul_self_nonneg v.x, mul_self_nonneg v.y, mul_self_nonneg v.z]
    rw [mul_self_eq_zero] at hx hy hz
    ext <;> assumption

/-- With a vanishing leading coefficient max and min of the root pair are the first member unless both are infinite. -/
theorem pair_zero_vel {c : ℝ} (t : ℝ) :
    Arith.max (rootPair (.fin 0) (.fin 0) (.fin c) (.fin 0)).1 (rootPair (.fin 0) (.fin 0) (.fin c) (.fin 0)).2 ≠ Dbl.fin t ∧
    Arith.min (rootPair (.fin 0) (.fin 0) (.fin c) (.fin 0)).1 (rootPair (.fin 0) (.fin 0) (.fin c) (.fin 0)).2 ≠ Dbl.fin t := by
  have h := rootPair_degenerate (b := 0) (c := c)
  simp only [mul_zero] at h
  have h1 : ∀ t, (rootPair (.fin 0) (.fin 0) (.fin c) (.fin 0)).1 ≠ Dbl.fin t := fun t ht => lt_irrefl _ (h.1 t ht).2
  constructor
  · unfold Arith.max; split
    · exact h.2 t
    · exact h1 t
  · unfold Arith.min; split
    · exact h.2 t
    · exact h1 t

/-- The time the sphere reports: the picked root, or one of the two defective cases. -/
theorem sphereTime_cases {R : ℝ} {r v : V3 ℝ} (hv : v ≠ ⟨0,0,0⟩) (dt : Dbl)
    (hD : 0 ≤ sphB R r v * sphB R r v - 4 * sphA v * sphC R r) :
    (∃ t1 t2, AreRoots (sphA v) (sphB R r v) (sphC R r) t1 t2 ∧ (sphC R r ≠ 0 ∨ 0 < sphB R r v) ∧
      sphereTime (.fin R) r.fin v.fin dt = (true, Dbl.fin (if v.z * R < 0 then max t1 t2 else min t1 t2))) ∨
    (sphC R r = 0 ∧ sphB R r v < 0 ∧ sphereTime (.fin R) r.fin v.fin dt = (true, Dbl.fin 0)) ∨
    (sphC R r = 0 ∧ sphB R r v = 0 ∧ sphereTime (.fin R) r.fin v.fin dt = (true, Dbl.nan)) := by
  rw [sphereTime_fin, if_neg (not_lt.mpr hD)]
  rcases rootPair_cases (sphA_pos hv).ne' hD with ⟨t1, t2, e, hr, hc⟩ | ⟨hc, hb, e⟩ | ⟨hc, hb, e⟩
  · left; refine ⟨t1, t2, hr, hc, ?_⟩
    simp only [e, Dbl.max_fin, Dbl.min_fin]; split <;> rfl
  · right; left; refine ⟨hc, hb, ?_⟩
    simp only [e, max_fin_nan, min_fin_nan, ite_self]
  · right; right; refine ⟨hc, hb, ?_⟩
    simp only [e, max_nan_nan, min_nan_nan, ite_self]

/-! ### Paraboloid -/

noncomputable def parA (R : ℝ) (v : V3 ℝ) : ℝ := (v.x * v.x + v.y * v.y) * (1 / 2 / R)
noncomputable def parB (R : ℝ) (r v : V3 ℝ) : ℝ := (r.x * v.x + r.y * v.y) * (1 / R) - v.z
noncomputable def parC (R : ℝ) (r : V3 ℝ) : ℝ := (r.x * r.x + r.y * r.y) * (1 / 2 / R) - r.z

theorem paraboloidTime_fin {R : ℝ} (hR : R ≠ 0) (r v : V3 ℝ) (dt : Dbl) :
    paraboloidTime (.fin R) r.fin v.fin dt =
      if parA R v = 0 then (true, .fin (-parC R r) / .fin (parB R r v)) else
      if parB R r v * parB R r v - 4 * parA R v * parC R r < 0 then (false, dt) else
        let p := rootPair (.fin (parA R v)) (.fin (parB R r v)) (.fin (parC R r))
          (.fin (parB R r v * parB R r v - 4 * parA R v * parC R r))
        (true, if v.z * R < 0 then Arith.max p.1 p.2 else Arith.min p.1 p.2) := by
  unfold paraboloidTime
  simp only [V3.fin_x, V3.fin_y, V3.fin_z, Dbl.mul_fin, Dbl.add_fin, Dbl.sub_fin, Dbl.ofNat_dbl', Dbl.zero_dbl, Dbl.one_dbl,
    Dbl.div_fin hR, Dbl.div_fin (two_ne_zero' ℝ), Dbl.lt_fin, Dbl.eq_fin, Dbl.neg_fin, decide_eq_true_eq]
  rfl

theorem onParaboloid_iff {R : ℝ} (hR : R ≠ 0) (r v : V3 ℝ) (t : ℝ) :
    OnParaboloid R (pointAt r v t) ↔ parA R v * t * t + parB R r v * t + parC R r = 0 := by
  unfold OnParaboloid pointAt parA parB parC
  simp only
  constructor
  · intro h
    field_simp
    linear_combination -h
  · intro h
    field_simp at h
    linear_combination -h

theorem parA_zero {R : ℝ} (hR : R ≠ 0) {v : V3 ℝ} (h : parA R v = 0) : v.x = 0 ∧ v.y = 0 := by
  unfold parA at h
  have h2 : v.x * v.x + v.y * v.y = 0 := by
    rcases mul_eq_zero.mp h with h | h
    · exact h
    · exfalso; revert h; simp [hR]
  constructor
  · apply mul_self_eq_zero.mp; nlinarith [mul_self_nonneg v.x, mul_self_nonneg v.y]
  · apply mul_self_eq_zero.mp; nlinarith [mul_self_nonneg v.x, mul_self_nonneg v.y]

theorem paraboloidTime_cases {R : ℝ} (hR : R ≠ 0) {r v : V3 ℝ} (dt : Dbl) (ha : parA R v ≠ 0)
    (hD : 0 ≤ parB R r v * parB R r v - 4 * parA R v * parC R r) :
    (∃ t1 t2, AreRoots (parA R v) (parB R r v) (parC R r) t1 t2 ∧
      paraboloidTime (.fin R) r.fin v.fin dt = (true, Dbl.fin (if v.z * R < 0 then max t1 t2 else min t1 t2))) ∨
    (parC R r = 0 ∧ parB R r v < 0 ∧ paraboloidTime (.fin R) r.fin v.fin dt = (true, Dbl.fin 0)) ∨
    (parC R r = 0 ∧ parB R r v = 0 ∧ paraboloidTime (.fin R) r.fin v.fin dt = (true, Dbl.nan)) := by
  rw [paraboloidTime_fin hR, if_neg ha, if_neg (not_lt.mpr hD)]
  rcases rootPair_cases ha hD with ⟨t1, t2, e, hr, hc⟩ | ⟨hc, hb, e⟩ | ⟨hc, hb, e⟩
  · left; refine ⟨t1, t2, hr, ?_⟩
    simp only [e, Dbl.max_fin, Dbl.min_fin]; split <;> rfl
  · right; left; refine ⟨hc, hb, ?_⟩
    simp only [e, max_fin_nan, min_fin_nan, ite_self]
  · right; right; refine ⟨hc, hb, ?_⟩
    simp only [e, max_nan_nan, min_nan_nan, ite_self]

/-! ### Quadric -/

noncomputable def quaA (k : ℝ) (v : V3 ℝ) : ℝ := v.z * v.z + (v.x * v.x + v.y * v.y) * (1 / (k + 1))
noncomputable def quaB (R k : ℝ) (r v : V3 ℝ) : ℝ :=
  2 * (v.z * (r.z - R / (k + 1)) + (v.x * r.x + v.y * r.y) * (1 / (k + 1)))
noncomputable def quaC (R k : ℝ) (r : V3 ℝ) : ℝ :=
  (r.z - R / (k + 1)) * (r.z - R / (k + 1)) - R * R / (k + 1) / (k + 1) + (r.x * r.x + r.y * r.y) * (1 / (k + 1))

theorem quadricTime_fin {R k : ℝ} (hk : k + 1 ≠ 0) (r v : V3 ℝ) (dt : Dbl) :
    quadricTime (.fin R) (.fin k) r.fin v.fin dt =
      if quaB R k r v * quaB R k r v - 4 * quaA k v * quaC R k r < 0 then (false, dt) else
        let p := rootPair (.fin (quaA k v)) (.fin (quaB R k r v)) (.fin (quaC R k r))
          (.fin (quaB R k r v * quaB R k r v - 4 * quaA k v * quaC R k r))
        (true, if Arith.lt (Arith.abs (.fin r.z + .fin v.z * p.1)) (Arith.abs (.fin r.z + .fin v.z * p.2)) = true
          then p.1 else p.2) := by
  unfold quadricTime
  simp only [V3.fin_x, V3.fin_y, V3.fin_z, Dbl.mul_fin, Dbl.add_fin, Dbl.sub_fin, Dbl.ofNat_dbl', Dbl.zero_dbl, Dbl.one_dbl,
    Dbl.div_fin hk, Dbl.lt_fin, decide_eq_true_eq]
  rfl

theorem onQuadric_iff {R k : ℝ} (hk : k + 1 ≠ 0) (r v : V3 ℝ) (t : ℝ) :
    OnQuadric R k (pointAt r v t) ↔ quaA k v * t * t + quaB R k r v * t + quaC R k r = 0 := by
  unfold OnQuadric pointAt quaA quaB quaC
  simp only
  constructor
  · intro h
    field_simp
    linear_combination (k + 1) * h
  · intro h
    field_simp at h
    have : (k + 1) * ((r.x + t * v.x) ^ 2 + (r.y + t * v.y) ^ 2) =
        (k + 1) * (2 * R * (r.z + t * v.z) - (1 + k) * (r.z + t * v.z) ^ 2) := by linear_combination h
    exact mul_left_cancel₀ hk this

/-! ## C20: a reported intersection lies on the surface -/

theorem C20_plane {r v : V3 ℝ} {dt : Dbl} {niter : ℕ} {t : ℝ}
    (h : (plane (F := Dbl)).timeToIntersect r.fin v.fin dt niter = (true, .fin t)) : OnPlane (pointAt r v t) := by
  simp only [plane, V3.fin_z, Dbl.zero_dbl, Dbl.eq_fin, decide_eq_true_eq] at h
  split at h
  · simp at h
  · rename_i hz
    simp only [Dbl.neg_fin, Dbl.div_fin hz, Prod.mk.injEq, true_and, Dbl.fin_inj] at h
    subst h
    unfold OnPlane pointAt
    field_simp; ring

theorem C20_tilted {tanx tany : ℝ} {r v : V3 ℝ} {dt : Dbl} {niter : ℕ} {t : ℝ}
    (h : (tilted (Dbl.fin tanx) (Dbl.fin tany)).timeToIntersect r.fin v.fin dt niter = (true, .fin t)) :
    OnTilted tanx tany (pointAt r v t) := by
  simp only [tilted, V3.fin_x, V3.fin_y, V3.fin_z, Dbl.zero_dbl, Dbl.mul_fin, Dbl.add_fin, Dbl.sub_fin, Dbl.eq_fin,
    decide_eq_true_eq] at h
  split at h
  · simp at h
  · rename_i hz
    simp only [Dbl.div_fin hz, Prod.mk.injEq, true_and, Dbl.fin_inj] at h
    subst h
    unfold OnTilted pointAt
    simp only
    generalize hd : v.x * tanx + v.y * tany - v.z = d at hz ⊢
    field_simp
    linear_combination (r.z - r.x * tanx - r.y * tany) * (-hd)

theorem C20_paraboloid {R : ℝ} (hR : R ≠ 0) {r v : V3 ℝ} {dt : Dbl} {niter : ℕ} {t : ℝ}
    (h : (paraboloid (Dbl.fin R)).timeToIntersect r.fin v.fin dt niter = (true, .fin t)) :
    OnParaboloid R (pointAt r v t) := by
  rw [onParaboloid_iff hR]
  change paraboloidTime _ _ _ _ = _ at h
  by_cases ha : parA R v = 0
  · rw [paraboloidTime_fin hR, if_pos ha, Dbl.div_fin'] at h
    split at h
    · exfalso
      simp only [Dbl.infMul, Prod.mk.injEq, true_and] at h
      split at h
      · cases h
      · split at h <;> cases h
    · rename_i hb
      simp only [Prod.mk.injEq, true_and, Dbl.fin_inj] at h
      rw [ha, ← h]; field_simp; ring
  · by_cases hD : parB R r v * parB R r v - 4 * parA R v * parC R r < 0
    · rw [paraboloidTime_fin hR, if_neg ha, if_pos hD] at h; simp at h
    · rcases paraboloidTime_cases hR dt ha (not_lt.mp hD) with ⟨t1, t2, hr, e⟩ | ⟨hc, -, e⟩ | ⟨-, -, e⟩
      · rw [e] at h
        simp only [Prod.mk.injEq, true_and, Dbl.fin_inj] at h
        have : t = t1 ∨ t = t2 := by
          rw [← h]; split
          · exact max_choice t1 t2
          · exact min_choice t1 t2
        rcases this with rfl | rfl
        · exact hr.root1
        · exact hr.root2
      · rw [e] at h; simp only [Prod.mk.injEq, true_and, Dbl.fin_inj] at h
        rw [hc, ← h]; ring
      · rw [e] at h; simp at h

theorem C20_sphere {R : ℝ} {r v : V3 ℝ} {dt : Dbl} {niter : ℕ} {t : ℝ}
    (h : (sphere (Dbl.fin R)).timeToIntersect r.fin v.fin dt niter = (true, .fin t)) :
    OnSphere R (pointAt r v t) := by
  rw [onSphere_iff]
  change sphereTime _ _ _ _ = _ at h
  by_cases hv : v = ⟨0, 0, 0⟩
  · exfalso
    have hA : sphA v = 0 := by rw [hv]; simp [sphA]
    have hB : sphB R r v = 0 := by rw [hv]; simp [sphB]
    rw [sphereTime_fin, hA, hB] at h
    simp only [mul_zero, zero_mul, sub_zero, lt_irrefl, if_false, Prod.mk.injEq, true_and] at h
    have := pair_zero_vel (c := sphC R r) t
    split at h
    · exact this.1 h
    · exact this.2 h
  · by_cases hD : sphB R r v * sphB R r v - 4 * sphA v * sphC R r < 0
    · rw [sphereTime_fin, if_pos hD] at h; simp at h
    · rcases sphereTime_cases hv dt (not_lt.mp hD) with ⟨t1, t2, hr, -, e⟩ | ⟨hc, -, e⟩ | ⟨-, -, e⟩
      · rw [e] at h
        simp only [Prod.mk.injEq, true_and, Dbl.fin_inj] at h
        have : t = t1 ∨ t = t2 := by
          rw [← h]; split
          · exact max_choice t1 t2
          · exact min_choice t1 t2
        rcases this with rfl | rfl
        · exact hr.root1
        · exact hr.root2
      · rw [e] at h; simp only [Prod.mk.injEq, true_and, Dbl.fin_inj] at h
        rw [hc, ← h]; ring
      · rw [e] at h; simp at h

theorem C20_quadric {R k : ℝ} (hk : k + 1 ≠ 0) {r v : V3 ℝ} {dt : Dbl} {niter : ℕ} {t : ℝ}
    (h : (quadric (Dbl.fin R) (Dbl.fin k)).timeToIntersect r.fin v.fin dt niter = (true, .fin t)) :
    OnQuadric R k (pointAt r v t) := by
  rw [onQuadric_iff hk]
  change quadricTime _ _ _ _ _ = _ at h
  rw [quadricTime_fin hk] at h
  by_cases hD : quaB R k r v * quaB R k r v - 4 * quaA k v * quaC R k r < 0
  · rw [if_pos hD] at h; simp at h
  · rw [if_neg hD] at h
    simp only [Prod.mk.injEq, true_and] at h
    by_cases ha : quaA k v = 0
    · rw [ha] at h ⊢
      simp only [mul_zero, zero_mul, sub_zero] at h
      have hd := rootPair_degenerate (b := quaB R k r v) (c := quaC R k r)
      split at h
      · have := (hd.1 t h).1; linarith
      · exact absurd h (hd.2 t)
    · rcases rootPair_cases ha (not_lt.mp hD) with ⟨t1, t2, e, hr, hc⟩ | ⟨hc, hb, e⟩ | ⟨hc, hb, e⟩
      · rw [e] at h
        split at h
        · simp only [Dbl.fin_inj] at h; subst h; exact hr.root1
        · simp only [Dbl.fin_inj] at h; subst h; exact hr.root2
      · rw [e] at h
        split at h
        · simp only [Dbl.fin_inj] at h; subst h; rw [hc]; ring
        · simp at h
      · rw [e] at h
        split at h <;> simp at h

/-! ### Which of the two points: the optical surface is the sheet next to the vertex -/

theorem onNearCap_iff {R : ℝ} (hR : R ≠ 0) {p : V3 ℝ} (hp : OnSphere R p) : OnNearCap R p ↔ (p.z - R) * R ≤ 0 := by
  unfold OnSphere at hp
  have hR2 : 0 < R ^ 2 := by positivity
  have hle : p.x ^ 2 + p.y ^ 2 ≤ R ^ 2 := by nlinarith [sq_nonneg (p.z - R)]
  have e : 1 - (p.x ^ 2 + p.y ^ 2) / R ^ 2 = ((p.z - R) / R) ^ 2 := by
    field_simp; linear_combination -hp
  unfold OnNearCap
  rw [e, Real.sqrt_sq_eq_abs]
  constructor
  · rintro ⟨h, -⟩
    have h1 : (p.z - R) / R = - |(p.z - R) / R| := by
      generalize |(p.z - R) / R| = q at h
      rw [h]; field_simp; ring
    have h2 : (p.z - R) / R ≤ 0 := by rw [h1]; simp
    have : (p.z - R) * R = (p.z - R) / R * R ^ 2 := by field_simp
    rw [this]; nlinarith
  · intro h
    have h2 : (p.z - R) / R ≤ 0 := by
      have : (p.z - R) / R = (p.z - R) * R / R ^ 2 := by field_simp
      rw [this]; exact div_nonpos_of_nonpos_of_nonneg h hR2.le
    refine ⟨?_, hle⟩
    rw [abs_of_nonpos h2]; field_simp; ring

/-- If the line meets the optical surface of a Sphere, the reported point is on it, except when the ray starts exactly
on the sphere moving inward or along it. -/
theorem C20_sphere_near_cap {R : ℝ} (hR : R ≠ 0) {r v : V3 ℝ} {dt : Dbl} {niter : ℕ} {t t' : ℝ}
    (hstart : ¬ OnSphere R r ∨ 0 < V3.dot v ⟨r.x, r.y, r.z - R⟩)
    (hmeets : OnNearCap R (pointAt r v t'))
    (hon : OnSphere R (pointAt r v t'))
    (h : (sphere (Dbl.fin R)).timeToIntersect r.fin v.fin dt niter = (true, .fin t)) :
    OnNearCap R (pointAt r v t) := by
  have hOn := C20_sphere h
  rw [onNearCap_iff hR hOn]
  rw [onNearCap_iff hR hon] at hmeets
  rw [onSphere_iff] at hon
  change sphereTime _ _ _ _ = _ at h
  have hcb : sphC R r ≠ 0 ∨ 0 < sphB R r v := by
    rcases hstart with h0 | h0
    · left; intro hc; apply h0; unfold OnSphere; unfold sphC at hc; linear_combination hc
    · right; unfold sphB; simp only [V3.dot] at h0; linarith
  by_cases hv : v = ⟨0, 0, 0⟩
  · subst hv; simp only [pointAt, mul_zero, add_zero] at hmeets ⊢; exact hmeets
  · have hD : ¬ (sphB R r v * sphB R r v - 4 * sphA v * sphC R r < 0) := by
      intro hD; rw [sphereTime_fin, if_pos hD] at h; simp at h
    rcases sphereTime_cases hv dt (not_lt.mp hD) with ⟨t1, t2, hr, -, e⟩ | ⟨hc, hb, e⟩ | ⟨hc, hb, e⟩
    · rw [e] at h
      simp only [Prod.mk.injEq, true_and, Dbl.fin_inj] at h
      have hor := hr.only (sphA_pos hv).ne' hon
      simp only [pointAt] at hmeets ⊢
      split at h
      · rename_i hz
        have hle : t' ≤ t := by rw [← h]; rcases hor with rfl | rfl <;> simp
        nlinarith
      · rename_i hz
        have hle : t ≤ t' := by rw [← h]; rcases hor with rfl | rfl <;> simp
        nlinarith [not_lt.mp hz]
    · exact absurd hb (by rcases hcb with h0 | h0; exact absurd hc h0; exact not_lt.mpr h0.le)
    · exact absurd hb (by rcases hcb with h0 | h0; exact absurd hc h0; exact h0.ne')

/-- The excluded start is a real defect: a ray starting at the far pole and moving to the vertex stays at the far pole. -/
theorem C20_sphere_near_cap_violated :
    (sphere (Dbl.fin 1)).timeToIntersect (V3.fin ⟨0, 0, 2⟩) (V3.fin ⟨0, 0, -1⟩) 0 5 = (true, .fin 0) ∧
      OnNearCap 1 (pointAt ⟨0, 0, 2⟩ ⟨0, 0, -1⟩ 2) ∧ ¬ OnNearCap 1 (pointAt ⟨0, 0, 2⟩ ⟨0, 0, -1⟩ 0) := by
  refine ⟨?_, ?_, ?_⟩
  · change sphereTime _ _ _ _ = _
    have hv : (⟨0, 0, -1⟩ : V3 ℝ) ≠ ⟨0, 0, 0⟩ := by intro h; simpa using congrArg V3.z h
    rcases sphereTime_cases (R := 1) (r := ⟨0, 0, 2⟩) hv 0 (by norm_num [sphA, sphB, sphC]) with
      ⟨t1, t2, hr, hc, e⟩ | ⟨-, -, e⟩ | ⟨-, hb, e⟩
    · exfalso; norm_num [sphB, sphC] at hc
    · exact e
    · exfalso; norm_num [sphB] at hb
  · unfold OnNearCap pointAt; norm_num
  · unfold OnNearCap pointAt; norm_num

/-- The sheet of a conicoid next to the vertex: the part that contains the origin. -/
def OnNearSheet (R k : ℝ) (p : V3 ℝ) : Prop := OnQuadric R k p ∧ 0 ≤ (R - (1 + k) * p.z) * R

/-- For ellipsoids (conic > -1): if the line meets the sheet next to the vertex, the reported point is on it. -/
theorem C20_quadric_near_sheet {R k : ℝ} (hk : 0 < k + 1) {r v : V3 ℝ} {dt : Dbl} {niter : ℕ} {t t' : ℝ}
    (hstart : ¬ OnQuadric R k r ∨ 0 < V3.dot v ⟨r.x, r.y, (k + 1) * r.z - R⟩)
    (hmeets : OnNearSheet R k (pointAt r v t'))
    (h : (quadric (Dbl.fin R) (Dbl.fin k)).timeToIntersect r.fin v.fin dt niter = (true, .fin t)) :
    OnNearSheet R k (pointAt r v t) := by
  have hOn := C20_quadric hk.ne' h
  refine ⟨hOn, ?_⟩
  obtain ⟨hon, hnear⟩ := hmeets
  have hon0 := hon
  rw [onQuadric_iff hk.ne'] at hon
  have hcb : quaC R k r ≠ 0 ∨ 0 < quaB R k r v := by
    rcases hstart with h0 | h0
    · left; intro hc; apply h0
      have := (onQuadric_iff (R := R) hk.ne' r v 0).mpr (by rw [hc]; ring)
      simpa [pointAt, OnQuadric] using this
    · right
      have : quaB R k r v = 2 * V3.dot v ⟨r.x, r.y, (k + 1) * r.z - R⟩ / (k + 1) := by
        unfold quaB; simp only [V3.dot]; field_simp; ring
      rw [this]; positivity
  change quadricTime _ _ _ _ _ = _ at h
  rw [quadricTime_fin hk.ne'] at h
  by_cases hD : quaB R k r v * quaB R k r v - 4 * quaA k v * quaC R k r < 0
  · rw [if_pos hD] at h; simp at h
  rw [if_neg hD] at h
  simp only [Prod.mk.injEq, true_and] at h
  by_cases hv : v = ⟨0, 0, 0⟩
  · subst hv; simp only [pointAt, mul_zero, add_zero] at hnear ⊢; exact hnear
  have ha : quaA k v ≠ 0 := by
    have h1 := sphA_pos hv
    have : 0 < 1 / (k + 1) := by positivity
    unfold sphA at h1
    unfold quaA
    intro h0
    have hx := mul_self_nonneg v.z
    have hy : 0 ≤ v.x * v.x + v.y * v.y := by nlinarith [mul_self_nonneg v.x, mul_self_nonneg v.y]
    have h2 : (v.x * v.x + v.y * v.y) * (1 / (k + 1)) = 0 := by nlinarith [mul_nonneg hy this.le]
    rcases mul_eq_zero.mp h2 with h3 | h3 <;> nlinarith
  rcases rootPair_cases ha (not_lt.mp hD) with ⟨t1, t2, e, hr, -⟩ | ⟨hc, hb, e⟩ | ⟨hc, hb, e⟩
  · rw [e] at h
    simp only [Dbl.mul_fin, Dbl.add_fin, Dbl.abs_fin, Dbl.lt_fin, decide_eq_true_eq] at h
    have hor := hr.only ha hon
    have habs : |(pointAt r v t).z| ≤ |(pointAt r v t').z| := by
      simp only [pointAt, mul_comm _ v.z]
      split at h
      · rename_i hlt
        simp only [Dbl.fin_inj] at h; subst h
        rcases hor with rfl | rfl
        · exact le_refl _
        · exact hlt.le
      · rename_i hlt
        simp only [Dbl.fin_inj] at h; subst h
        rcases hor with rfl | rfl
        · exact not_lt.mp hlt
        · exact le_refl _
    -- on an ellipsoid every z has the sign of R
    have hsame : 0 ≤ R * (pointAt r v t).z := by
      unfold OnQuadric at hOn
      nlinarith [sq_nonneg (pointAt r v t).x, sq_nonneg (pointAt r v t).y, mul_nonneg hk.le (sq_nonneg (pointAt r v t).z)]
    have hsame' : 0 ≤ R * (pointAt r v t').z := by
      unfold OnQuadric at hon0
      nlinarith [sq_nonneg (pointAt r v t').x, sq_nonneg (pointAt r v t').y, mul_nonneg hk.le (sq_nonneg (pointAt r v t').z)]
    have : R * (pointAt r v t).z ≤ R * (pointAt r v t').z := by
      rw [← abs_of_nonneg hsame, ← abs_of_nonneg hsame', abs_mul, abs_mul]
      exact mul_le_mul_of_nonneg_left habs (abs_nonneg R)
    nlinarith
  · exact absurd hb (by rcases hcb with h0 | h0; exact absurd hc h0; exact not_lt.mpr h0.le)
  · exact absurd hb (by rcases hcb with h0 | h0; exact absurd hc h0; exact h0.ne')

/-- For hyperboloids (conic < -1) the reported point may lie on the other sheet although the ray meets the optical
surface. -/
theorem C20_quadric_near_sheet_violated :
    (quadric (Dbl.fin 1) (Dbl.fin (-2))).timeToIntersect (V3.fin ⟨-3, 0, -6⟩) (V3.fin ⟨3, 0, 4⟩) 0 5 = (true, .fin 1) ∧
      OnNearSheet 1 (-2) (pointAt ⟨-3, 0, -6⟩ ⟨3, 0, 4⟩ (15/7)) ∧
      ¬ OnNearSheet 1 (-2) (pointAt ⟨-3, 0, -6⟩ ⟨3, 0, 4⟩ 1) := by
  refine ⟨?_, ?_, ?_⟩
  · change quadricTime _ _ _ _ _ = _
    have hs : Real.sqrt 64 = 8 := by rw [show (64:ℝ) = 8 ^ 2 by norm_num]; exact Real.sqrt_sq (by norm_num)
    rw [quadricTime_fin (by norm_num)]
    have hA : quaA (-2) ⟨3, 0, 4⟩ = 7 := by norm_num [quaA]
    have hB : quaB 1 (-2) ⟨-3, 0, -6⟩ ⟨3, 0, 4⟩ = -22 := by norm_num [quaB]
    have hC : quaC 1 (-2) ⟨-3, 0, -6⟩ = 15 := by norm_num [quaC]
    rw [hA, hB, hC, if_neg (by norm_num)]
    have e : rootPair (Dbl.fin 7) (Dbl.fin (-22)) (Dbl.fin 15) (Dbl.fin ((-22) * (-22) - 4 * 7 * 15)) =
        (Dbl.fin 1, Dbl.fin (15 / 7)) := by
      unfold rootPair
      rw [show ((-22:ℝ) * (-22) - 4 * 7 * 15) = 64 by norm_num, Dbl.sqrt_fin (by norm_num), hs]
      simp only [Dbl.zero_dbl, Dbl.gt_fin, Dbl.neg_fin, Dbl.add_fin, Dbl.ofNat_dbl', Dbl.mul_fin]
      norm_num
    rw [e]
    simp only [Dbl.mul_fin, Dbl.add_fin, Dbl.abs_fin, Dbl.lt_fin, decide_eq_true_eq]
    rw [if_pos (by norm_num [abs_of_neg])]
  · unfold OnNearSheet OnQuadric pointAt; norm_num
  · unfold OnNearSheet OnQuadric pointAt; norm_num

/-! ## C21: a miss is reported only when there is no intersection -/

theorem C21_paraboloid {R : ℝ} (hR : R ≠ 0) {r v : V3 ℝ} {dt : Dbl} {niter : ℕ} :
    ((paraboloid (Dbl.fin R)).timeToIntersect r.fin v.fin dt niter).1 = false →
      ∀ t, ¬ OnParaboloid R (pointAt r v t) := by
  intro h t ht
  change (paraboloidTime _ _ _ _).1 = _ at h
  rw [paraboloidTime_fin hR] at h
  rw [onParaboloid_iff hR] at ht
  split at h
  · simp at h
  · split at h
    · rename_i hD
      exact no_root hD ht
    · simp at h

theorem C21_sphere {R : ℝ} {r v : V3 ℝ} {dt : Dbl} {niter : ℕ} :
    ((sphere (Dbl.fin R)).timeToIntersect r.fin v.fin dt niter).1 = false ↔
      v ≠ ⟨0, 0, 0⟩ ∧ ∀ t, ¬ OnSphere R (pointAt r v t) := by
  change (sphereTime _ _ _ _).1 = _ ↔ _
  rw [sphereTime_fin]
  constructor
  · intro h
    split at h
    · rename_i hD
      refine ⟨?_, ?_⟩
      · rintro rfl; revert hD; simp [sphA, sphB]
      · intro t ht
        rw [onSphere_iff] at ht
        exact no_root hD ht
    · simp at h
  · rintro ⟨hv, hno⟩
    split
    · rfl
    · rename_i hD
      exfalso
      have ha := sphA_pos hv
      set D := sphB R r v * sphB R r v - 4 * sphA v * sphC R r with hDdef
      have hss := Real.mul_self_sqrt (not_lt.mp hD)
      apply hno ((-sphB R r v + Real.sqrt D) / (2 * sphA v))
      rw [onSphere_iff]
      field_simp
      linear_combination hss + hDdef

theorem C21_quadric {R k : ℝ} (hk : k + 1 ≠ 0) {r v : V3 ℝ} {dt : Dbl} {niter : ℕ} :
    ((quadric (Dbl.fin R) (Dbl.fin k)).timeToIntersect r.fin v.fin dt niter).1 = false →
      ∀ t, ¬ OnQuadric R k (pointAt r v t) := by
  intro h t ht
  change (quadricTime _ _ _ _ _).1 = _ at h
  rw [quadricTime_fin hk] at h
  rw [onQuadric_iff hk] at ht
  split at h
  · rename_i hD
    exact no_root hD ht
  · simp at h

/-- A Plane is missed exactly by the rays parallel to it; unless the ray lies inside the plane there is then no
intersection. -/
theorem C21_plane {r v : V3 ℝ} {dt : Dbl} {niter : ℕ}
    (h : ((plane (F := Dbl)).timeToIntersect r.fin v.fin dt niter).1 = false) :
    (∀ t, ¬ OnPlane (pointAt r v t)) ∨ (∀ t, OnPlane (pointAt r v t)) := by
  simp only [plane, V3.fin_z, Dbl.zero_dbl, Dbl.eq_fin, decide_eq_true_eq] at h
  split at h
  · rename_i hz
    unfold OnPlane pointAt
    simp only [hz, mul_zero, add_zero]
    by_cases h0 : r.z = 0
    · right; intro _; exact h0
    · left; intro _; exact h0
  · simp at h

theorem C21_tilted {tanx tany : ℝ} {r v : V3 ℝ} {dt : Dbl} {niter : ℕ}
    (h : ((tilted (Dbl.fin tanx) (Dbl.fin tany)).timeToIntersect r.fin v.fin dt niter).1 = false) :
    (∀ t, ¬ OnTilted tanx tany (pointAt r v t)) ∨ (∀ t, OnTilted tanx tany (pointAt r v t)) := by
  simp only [tilted, V3.fin_x, V3.fin_y, V3.fin_z, Dbl.zero_dbl, Dbl.mul_fin, Dbl.add_fin, Dbl.sub_fin, Dbl.eq_fin,
    decide_eq_true_eq] at h
  split at h
  · rename_i hz
    unfold OnTilted pointAt
    simp only
    by_cases h0 : r.z = tanx * r.x + tany * r.y
    · right; intro t; linear_combination h0 - t * hz
    · left; intro t ht; apply h0; linear_combination ht + t * hz
  · simp at h

/-- The literal statement fails for a ray that lies inside the plane: every point is an intersection but the ray is
reported as a miss. -/
theorem C21_ray_inside_plane_violated :
    ((plane (F := Dbl)).timeToIntersect (V3.fin ⟨0, 0, 0⟩) (V3.fin ⟨1, 0, 0⟩) 0 5).1 = false ∧
      ∀ t, OnPlane (pointAt ⟨0, 0, 0⟩ ⟨1, 0, 0⟩ t) := by
  constructor
  · simp [plane, Dbl.zero_dbl]
  · intro t; simp [OnPlane, pointAt]

/-! ## C30: success comes with a finite time -/

/-- Success with a finite time, or failure. -/
def GoodTime (res : Bool × Dbl) : Prop := res.1 = true → ∃ t : ℝ, res.2 = .fin t

theorem C30_plane (r v : V3 ℝ) (dt : Dbl) (niter : ℕ) :
    GoodTime ((plane (F := Dbl)).timeToIntersect r.fin v.fin dt niter) := by
  unfold GoodTime
  simp only [plane, V3.fin_z, Dbl.zero_dbl, Dbl.eq_fin, decide_eq_true_eq]
  split
  · simp
  · rename_i hz; intro _; exact ⟨_, by simp only [Dbl.neg_fin, Dbl.div_fin hz]; rfl⟩

theorem C30_tilted (tanx tany : ℝ) (r v : V3 ℝ) (dt : Dbl) (niter : ℕ) :
    GoodTime ((tilted (Dbl.fin tanx) (Dbl.fin tany)).timeToIntersect r.fin v.fin dt niter) := by
  unfold GoodTime
  simp only [tilted, V3.fin_x, V3.fin_y, V3.fin_z, Dbl.zero_dbl, Dbl.mul_fin, Dbl.add_fin, Dbl.sub_fin, Dbl.eq_fin,
    decide_eq_true_eq]
  split
  · simp
  · rename_i hz; intro _; exact ⟨_, by simp only [Dbl.div_fin hz]; rfl⟩

/-- The Newton solver: whatever the sag and normal functions return, a successful time is finite. -/
theorem C30_newton (sag : Dbl → Dbl → Dbl) (normal : Dbl → Dbl → V3 Dbl) (r v : V3 ℝ) (dt : Dbl) (niter : ℕ) :
    GoodTime (newton sag normal r.fin v.fin dt niter) := by
  unfold GoodTime newton
  simp only
  generalize newtonIter sag normal r.fin v.fin niter dt = d
  intro h
  have hz : (r.fin + v.fin.smulR d).z = Dbl.fin r.z + Dbl.fin v.z * d := rfl
  rw [hz] at h
  cases d with
  | fin t => exact ⟨t, rfl⟩
  | nan => exfalso; revert h; simp
  | pinf =>
    exfalso; revert h
    have : Dbl.fin v.z * Dbl.pinf = Dbl.infMul v.z := rfl
    rw [this]; unfold Dbl.infMul
    split
    · simp
    · split <;> (generalize sag _ _ = z; cases z <;> simp <;> rfl)
  | ninf =>
    exfalso; revert h
    have : Dbl.fin v.z * Dbl.ninf = Dbl.infMul (-v.z) := rfl
    rw [this]; unfold Dbl.infMul
    split
    · simp
    · split <;> (generalize sag _ _ = z; cases z <;> simp <;> rfl)

theorem C30_newton_surfaces (r v : V3 ℝ) (dt : Dbl) (niter : ℕ) :
    (∀ p : PolyData Dbl, GoodTime ((polynomial p).timeToIntersect r.fin v.fin dt niter)) ∧
    (∀ T : Table Dbl, GoodTime ((bicubic T).timeToIntersect r.fin v.fin dt niter)) ∧
    (∀ (R k : Dbl) (cs : List Dbl), GoodTime ((asphere R k cs).timeToIntersect r.fin v.fin dt niter)) ∧
    (∀ ss : List (Surface Dbl), GoodTime ((Surface.sum ss).timeToIntersect r.fin v.fin dt niter)) := by
  refine ⟨fun p => C30_newton _ _ r v dt niter, fun T => C30_newton _ _ r v dt niter, fun R k cs => ?_, fun ss => ?_⟩
  · simp only [asphere]
    split
    · simp [GoodTime]
    · exact C30_newton _ _ r v _ niter
  · simp only [Surface.sum, sumTime]
    split
    · simp [GoodTime]
    · split
      · simp [GoodTime]
      · exact C30_newton _ _ r v _ niter

/-- Exactly which moving rays a Sphere accepts with a non-finite time: those that start on it and move along it. -/
theorem C30_sphere_exact {R : ℝ} {r v : V3 ℝ} (hv : v ≠ ⟨0, 0, 0⟩) (dt : Dbl) (niter : ℕ) :
    GoodTime ((sphere (Dbl.fin R)).timeToIntersect r.fin v.fin dt niter) ↔
      ¬ (OnSphere R r ∧ V3.dot v ⟨r.x, r.y, r.z - R⟩ = 0) := by
  have hC : OnSphere R r ↔ sphC R r = 0 := by
    unfold OnSphere sphC; constructor <;> intro h <;> linear_combination h
  have hB : V3.dot v ⟨r.x, r.y, r.z - R⟩ = 0 ↔ sphB R r v = 0 := by
    simp only [V3.dot]; unfold sphB; constructor <;> intro h <;> linarith
  rw [hC, hB]
  change GoodTime (sphereTime _ _ _ _) ↔ _
  by_cases hD : sphB R r v * sphB R r v - 4 * sphA v * sphC R r < 0
  · rw [sphereTime_fin, if_pos hD]
    constructor
    · rintro - ⟨hc, hb⟩; rw [hc, hb] at hD; simp at hD
    · intro _; simp [GoodTime]
  · rcases sphereTime_cases hv dt (not_lt.mp hD) with ⟨t1, t2, hr, hc, e⟩ | ⟨hc, hb, e⟩ | ⟨hc, hb, e⟩
    · rw [e]
      constructor
      · rintro - ⟨hc', hb'⟩; rcases hc with h0 | h0
        · exact h0 hc'
        · exact h0.ne' hb'
      · intro _ _; exact ⟨_, rfl⟩
    · rw [e]
      constructor
      · rintro - ⟨hc', hb'⟩; exact hb.ne hb'
      · intro _ _; exact ⟨_, rfl⟩
    · rw [e]
      constructor
      · intro h; obtain ⟨t, ht⟩ := h rfl; cases ht
      · intro h; exact absurd ⟨hc, hb⟩ h

/-- The same for a Paraboloid. -/
theorem C30_paraboloid_exact {R : ℝ} (hR : R ≠ 0) {r v : V3 ℝ} (hv : v ≠ ⟨0, 0, 0⟩) (dt : Dbl) (niter : ℕ) :
    GoodTime ((paraboloid (Dbl.fin R)).timeToIntersect r.fin v.fin dt niter) ↔
      ¬ (OnParaboloid R r ∧ V3.dot v ⟨r.x, r.y, -R⟩ = 0) := by
  have hC : OnParaboloid R r ↔ parC R r = 0 := by
    unfold OnParaboloid parC; constructor
    · intro h; field_simp; linear_combination -h
    · intro h; field_simp at h; linear_combination -h
  have hB : V3.dot v ⟨r.x, r.y, -R⟩ = 0 ↔ parB R r v = 0 := by
    simp only [V3.dot]; unfold parB; constructor
    · intro h; field_simp; linear_combination h
    · intro h; field_simp at h; linear_combination h
  rw [hC, hB]
  change GoodTime (paraboloidTime _ _ _ _) ↔ _
  by_cases ha : parA R v = 0
  · obtain ⟨hx, hy⟩ := parA_zero hR ha
    have hz : v.z ≠ 0 := by intro hz; apply hv; ext <;> assumption
    have hb : parB R r v ≠ 0 := by unfold parB; simp [hx, hy, hz]
    rw [paraboloidTime_fin hR, if_pos ha, Dbl.div_fin hb]
    constructor
    · rintro - ⟨-, h0⟩; exact hb h0
    · intro _ _; exact ⟨_, rfl⟩
  by_cases hD : parB R r v * parB R r v - 4 * parA R v * parC R r < 0
  · rw [paraboloidTime_fin hR, if_neg ha, if_pos hD]
    constructor
    · rintro - ⟨hc, hb⟩; rw [hc, hb] at hD; simp at hD
    · intro _; simp [GoodTime]
  · rw [paraboloidTime_fin hR, if_neg ha, if_neg hD]
    rcases rootPair_cases ha (not_lt.mp hD) with ⟨t1, t2, e, hr, hc⟩ | ⟨hc, hb, e⟩ | ⟨hc, hb, e⟩
    · simp only [e, Dbl.max_fin, Dbl.min_fin]
      constructor
      · rintro - ⟨hc', hb'⟩; rcases hc with h0 | h0
        · exact h0 hc'
        · exact h0.ne' hb'
      · intro _ _; split <;> exact ⟨_, rfl⟩
    · simp only [e, max_fin_nan, min_fin_nan, ite_self]
      constructor
      · rintro - ⟨hc', hb'⟩; exact hb.ne hb'
      · intro _ _; exact ⟨_, rfl⟩
    · simp only [e, max_nan_nan, min_nan_nan, ite_self]
      constructor
      · intro h; obtain ⟨t, ht⟩ := h rfl; cases ht
      · intro h; exact absurd ⟨hc, hb⟩ h

/-- Quadric: enough conditions for a finite time.  Missing from the full statement: rays starting on the surface, which
the code accepts with NaN (see `C30_quadric_violated`), and the asymptotic directions of hyperboloids. -/
theorem C30_quadric_partial {R k : ℝ} (hk : k + 1 ≠ 0) {r v : V3 ℝ} (hv : v.x ^ 2 + v.y ^ 2 + (k + 1) * v.z ^ 2 ≠ 0) (hstart : ¬ OnQuadric R k r)
    (dt : Dbl) (niter : ℕ) : GoodTime ((quadric (Dbl.fin R) (Dbl.fin k)).timeToIntersect r.fin v.fin dt niter) := by
  have ha : quaA k v ≠ 0 := by
    intro h; apply hv; unfold quaA at h; field_simp at h; linear_combination h
  have hc0 : quaC R k r ≠ 0 := by
    intro hc; apply hstart
    have := (onQuadric_iff (R := R) hk r v 0).mpr (by rw [hc]; ring)
    simpa [pointAt, OnQuadric] using this
  change GoodTime (quadricTime _ _ _ _ _)
  rw [quadricTime_fin hk]
  split
  · simp [GoodTime]
  · rename_i hD
    rcases rootPair_cases ha (not_lt.mp hD) with ⟨t1, t2, e, hr, -⟩ | ⟨hc, hb, e⟩ | ⟨hc, hb, e⟩
    · rw [e]; intro _; simp only; split <;> exact ⟨_, rfl⟩
    · exact absurd hc hc0
    · exact absurd hc hc0

theorem C30_sphere_violated :
    (sphere (Dbl.fin 1)).timeToIntersect (V3.fin ⟨0, 0, 0⟩) (V3.fin ⟨1, 0, 0⟩) 0 5 = (true, .nan) := by
  change sphereTime _ _ _ _ = _
  have hv : (⟨1, 0, 0⟩ : V3 ℝ) ≠ ⟨0, 0, 0⟩ := by intro h; simpa using congrArg V3.x h
  rcases sphereTime_cases (R := 1) (r := ⟨0, 0, 0⟩) hv 0 (by norm_num [sphA, sphB, sphC]) with
    ⟨t1, t2, hr, hc, e⟩ | ⟨-, hb, e⟩ | ⟨-, hb, e⟩
  · exfalso; norm_num [sphB, sphC] at hc
  · exfalso; norm_num [sphB] at hb
  · exact e

theorem C30_paraboloid_violated :
    (paraboloid (Dbl.fin 1)).timeToIntersect (V3.fin ⟨0, 0, 0⟩) (V3.fin ⟨1, 0, 0⟩) 0 5 = (true, .nan) := by
  change paraboloidTime _ _ _ _ = _
  rcases paraboloidTime_cases (R := 1) one_ne_zero (r := ⟨0, 0, 0⟩) (v := ⟨1, 0, 0⟩) 0 (by norm_num [parA])
      (by norm_num [parA, parB, parC]) with ⟨t1, t2, hr, e⟩ | ⟨-, hb, e⟩ | ⟨-, hb, e⟩
  · exfalso
    rw [paraboloidTime_fin one_ne_zero, if_neg (by norm_num [parA]), if_neg (by norm_num [parA, parB, parC])] at e
    have h3 : parC 1 ⟨0, 0, 0⟩ = 0 := by norm_num [parC]
    have h4 : parB 1 ⟨0, 0, 0⟩ ⟨1, 0, 0⟩ = 0 := by norm_num [parB]
    rw [h3, h4] at e
    simp [rootPair, Dbl.zero_dbl, Dbl.ofNat_dbl', min_nan_nan] at e
  · exfalso; norm_num [parB] at hb
  · exact e

/-- A ray that starts on the vertex of an ordinary mirror-like Quadric and moves down gets NaN with success. -/
theorem C30_quadric_violated :
    (quadric (Dbl.fin 1) (Dbl.fin 1)).timeToIntersect (V3.fin ⟨0, 0, 0⟩) (V3.fin ⟨0, 0, 1⟩) 0 5 = (true, .nan) := by
  change quadricTime _ _ _ _ _ = _
  rw [quadricTime_fin (by norm_num)]
  have hA : quaA 1 ⟨0, 0, 1⟩ = 1 := by norm_num [quaA]
  have hB : quaB 1 1 ⟨0, 0, 0⟩ ⟨0, 0, 1⟩ = -1 := by norm_num [quaB]
  have hC : quaC 1 1 ⟨0, 0, 0⟩ = 0 := by norm_num [quaC]
  rw [hA, hB, hC, if_neg (by norm_num)]
  rcases rootPair_cases (a := 1) (b := -1) (c := 0) one_ne_zero (by norm_num) with ⟨_, _, -, -, hc⟩ | ⟨-, -, e⟩ | ⟨-, hb, -⟩
  · exfalso; norm_num at hc
  · rw [e]; simp
  · exfalso; norm_num at hb

/-- The documented parabolic case `conic = -1` never works: every finite ray is accepted with time NaN. -/
theorem C30_quadric_parabolic_violated {R : ℝ} (hR : R ≠ 0) (r v : V3 ℝ) (dt : Dbl) (niter : ℕ) :
    (quadric (Dbl.fin R) (Dbl.fin (-1))).timeToIntersect r.fin v.fin dt niter = (true, .nan) := by
  change quadricTime _ _ _ _ _ = _
  have hRR : 0 < R * R := mul_self_pos.mpr hR
  have h1 : Dbl.fin (-1) + 1 = Dbl.fin 0 := by rw [Dbl.one_dbl, Dbl.add_fin]; norm_num
  have h2 : Dbl.fin (R * R) / Dbl.fin 0 = Dbl.pinf := Dbl.pos_div_zero hRR
  have h3 : Dbl.pinf / Dbl.fin 0 = Dbl.pinf := by
    show (if (0:ℝ) ≤ 0 then Dbl.pinf else Dbl.ninf) = _; simp
  -- the constant term is `inf - inf`
  have hc : ∀ w : Dbl, (Dbl.fin r.z - Dbl.fin R / Dbl.fin 0) * (Dbl.fin r.z - Dbl.fin R / Dbl.fin 0) -
      Dbl.fin R * Dbl.fin R / Dbl.fin 0 / Dbl.fin 0 + w = Dbl.nan := by
    intro w
    rw [Dbl.mul_fin, h2, h3]
    rcases lt_or_gt_of_ne hR with h | h
    · rw [Dbl.neg_div_zero h]; rfl
    · rw [Dbl.pos_div_zero h]; rfl
  unfold quadricTime
  simp only [V3.fin_x, V3.fin_y, V3.fin_z, h1, hc]
  simp [rootPair]

/-! ## C23: the generic solver -/

/-- Any arithmetic: success is the comparison of the residual at the returned ray point with 1e-12. -/
theorem C23_residual {F : Type} [Arith F] (sag : F → F → F) (normal : F → F → V3 F) (r v : V3 F) (dt dt' : F) (niter : ℕ)
    (h : newton sag normal r v dt niter = (true, dt')) :
    Arith.lt (Arith.abs (sag (r.x + v.x * dt') (r.y + v.y * dt') - (r.z + v.z * dt'))) (Arith.const (1 / 10 ^ 12)) = true := by
  simp only [newton, Prod.mk.injEq] at h
  obtain ⟨h1, h2⟩ := h
  rw [h2] at h1
  exact h1

/-- Ideal doubles: success gives a finite time, a finite sag, and the point is within 1e-12 of the surface. -/
theorem C23_residual_real (sag : Dbl → Dbl → Dbl) (normal : Dbl → Dbl → V3 Dbl) (r v : V3 ℝ) (dt : Dbl) (niter : ℕ)
    (h : (newton sag normal r.fin v.fin dt niter).1 = true) :
    ∃ t z : ℝ, (newton sag normal r.fin v.fin dt niter).2 = .fin t ∧
      sag (.fin (pointAt r v t).x) (.fin (pointAt r v t).y) = .fin z ∧ |z - (pointAt r v t).z| < 1 / 10 ^ 12 := by
  obtain ⟨t, ht⟩ := C30_newton sag normal r v dt niter h
  have hr := C23_residual sag normal r.fin v.fin dt (.fin t) niter (Prod.ext h ht)
  simp only [V3.fin_x, V3.fin_y, V3.fin_z, Dbl.mul_fin, Dbl.add_fin, mul_comm _ t] at hr
  refine ⟨t, ?_⟩
  simp only [pointAt]
  generalize sag (.fin (r.x + t * v.x)) (.fin (r.y + t * v.y)) = s at hr ⊢
  cases s with
  | fin z =>
    refine ⟨z, ht, rfl, ?_⟩
    simp only [Dbl.sub_fin, Dbl.abs_fin, Dbl.const_dbl, Dbl.lt_fin, decide_eq_true_eq] at hr
    push_cast at hr
    exact hr
  | nan => exfalso; revert hr; simp
  | pinf => exfalso; revert hr; simp; rfl
  | ninf => exfalso; revert hr; simp; rfl

/-- On a planar sag one step from any finite guess is exact, for any normal direction scaling. -/
theorem C23_planar_one_step {p q s l : ℝ} (hl : l ≠ 0) {sag : Dbl → Dbl → Dbl} {normal : Dbl → Dbl → V3 Dbl}
    (hsag : ∀ x y : ℝ, sag (.fin x) (.fin y) = .fin (p + q * x + s * y))
    (hnormal : ∀ x y : ℝ, normal (.fin x) (.fin y) = V3.fin ⟨-(l * q), -(l * s), l⟩)
    {r v : V3 ℝ} (hv : v.z - q * v.x - s * v.y ≠ 0) (t0 : ℝ) (niter : ℕ) :
    ∃ t, newton sag normal r.fin v.fin (.fin t0) (niter + 1) = (true, .fin t) ∧
      (pointAt r v t).z = p + q * (pointAt r v t).x + s * (pointAt r v t).y := by
  have step : ∀ t0 : ℝ, newtonStep sag normal r.fin v.fin (.fin t0) =
      .fin ((p + q * r.x + s * r.y - r.z) / (v.z - q * v.x - s * v.y)) := by
    intro t0
    unfold newtonStep
    simp only [V3.fin_smulR, V3.fin_add, V3.fin_x, V3.fin_y, hsag, hnormal, V3.fin_dot, Dbl.sub_fin, Dbl.mul_fin, Dbl.add_fin,
      V3.fin_z]
    have hd : V3.dot (⟨-(l * q), -(l * s), l⟩ : V3 ℝ) v = l * (v.z - q * v.x - s * v.y) := by simp only [V3.dot]; ring
    rw [hd, Dbl.div_fin (mul_ne_zero hl hv)]
    congr 1
    simp only [V3.add_x, V3.add_y, V3.smulR_x, V3.smulR_y]
    field_simp
    ring
  have iter : ∀ n (t0 : ℝ), newtonIter sag normal r.fin v.fin (n + 1) (.fin t0) =
      .fin ((p + q * r.x + s * r.y - r.z) / (v.z - q * v.x - s * v.y)) := by
    intro n
    induction n with
    | zero => intro t0; simp only [newtonIter, step]
    | succ n ih => intro t0; rw [newtonIter, step, ih]
  refine ⟨(p + q * r.x + s * r.y - r.z) / (v.z - q * v.x - s * v.y), ?_, ?_⟩
  · unfold newton
    simp only [iter, V3.fin_smulR, V3.fin_add, V3.fin_x, V3.fin_y, V3.fin_z, hsag, Dbl.sub_fin, Dbl.abs_fin, Dbl.const_dbl,
      Dbl.lt_fin, Prod.mk.injEq, and_true, decide_eq_true_eq]
    have : p + q * (r + v.smulR ((p + q * r.x + s * r.y - r.z) / (v.z - q * v.x - s * v.y))).x +
        s * (r + v.smulR ((p + q * r.x + s * r.y - r.z) / (v.z - q * v.x - s * v.y))).y -
        (r + v.smulR ((p + q * r.x + s * r.y - r.z) / (v.z - q * v.x - s * v.y))).z = 0 := by
      simp only [V3.add_x, V3.add_y, V3.add_z, V3.smulR_x, V3.smulR_y, V3.smulR_z]
      field_simp; ring
    rw [this]; norm_num
  · simp only [pointAt]; field_simp; ring

/-- The times at which the iteration stands still are exactly the intersection times (ray not grazing). -/
theorem C23_fixed_points {sag : Dbl → Dbl → Dbl} {normal : Dbl → Dbl → V3 Dbl} {r v n : V3 ℝ} {t z : ℝ}
    (hsag : sag (.fin (pointAt r v t).x) (.fin (pointAt r v t).y) = .fin z)
    (hnormal : normal (.fin (pointAt r v t).x) (.fin (pointAt r v t).y) = n.fin)
    (hn : n.z ≠ 0) (hv : V3.dot n v ≠ 0) :
    newtonStep sag normal r.fin v.fin (.fin t) = .fin t ↔ (pointAt r v t).z = z := by
  simp only [pointAt] at hsag hnormal ⊢
  unfold newtonStep
  have ex : (r + v.smulR t).x = r.x + t * v.x := by simp only [V3.add_x, V3.smulR_x]; ring
  have ey : (r + v.smulR t).y = r.y + t * v.y := by simp only [V3.add_y, V3.smulR_y]; ring
  simp only [V3.fin_smulR, V3.fin_add, V3.fin_x, V3.fin_y, V3.fin_z, ex, ey, hsag, hnormal, V3.fin_dot, Dbl.sub_fin, Dbl.mul_fin,
    Dbl.add_fin, Dbl.div_fin hv, Dbl.fin_inj]
  rw [div_eq_iff hv]
  simp only [V3.dot]
  constructor
  · intro h
    have : (z - (r.z + t * v.z)) * n.z = 0 := by linear_combination h
    rcases mul_eq_zero.mp this with h0 | h0
    · linarith
    · exact absurd h0 hn
  · intro h; rw [← h]; ring

/-! ## Concrete cases -/

/-- A paraxial ray on a sphere of radius 10 really intersects, at z = 0. -/
example : (sphere (Dbl.fin 10)).timeToIntersect (V3.fin ⟨0, 0, 5⟩) (V3.fin ⟨0, 0, -1⟩) 0 5 = (true, .fin 5) := by
  change sphereTime _ _ _ _ = _
  have hv : (⟨0, 0, -1⟩ : V3 ℝ) ≠ ⟨0, 0, 0⟩ := by intro h; simpa using congrArg V3.z h
  rcases sphereTime_cases (R := 10) (r := ⟨0, 0, 5⟩) hv 0 (by norm_num [sphA, sphB, sphC]) with
    ⟨t1, t2, hr, hc, e⟩ | ⟨hc, hb, e⟩ | ⟨hc, hb, e⟩
  · rw [e, if_pos (by norm_num)]
    have h1 := hr.root1; have h2 := hr.root2; have h3 := hr.sum
    norm_num [sphA, sphB, sphC] at h1 h2 h3
    have h4 : (t1 - 5) * (t1 + 15) = 0 := by linarith
    congr 2
    rcases mul_eq_zero.mp h4 with h | h
    · rw [max_eq_left] <;> linarith
    · rw [max_eq_right] <;> linarith
  · exfalso; norm_num [sphC] at hc
  · exfalso; norm_num [sphC] at hc

/-- The hypotheses of `C20_sphere_near_cap` are met by that ray. -/
example : ¬ OnSphere 10 ⟨0, 0, 5⟩ ∧ OnNearCap 10 (pointAt ⟨0, 0, 5⟩ ⟨0, 0, -1⟩ 5) := by
  constructor
  · unfold OnSphere; norm_num
  · unfold OnNearCap pointAt; norm_num

/-- A line that passes beside a sphere. -/
example : ∀ t, ¬ OnSphere 1 (pointAt ⟨3, 0, 0⟩ ⟨0, 0, 1⟩ t) := by
  intro t; unfold OnSphere pointAt; simp only; nlinarith [sq_nonneg (t - 1)]

/-- A tilted plane meets the hypotheses of the one step theorem. -/
example : ∃ t, newton (fun x y => x * .fin 2 + y * .fin 3) (fun _ _ => V3.fin ⟨-2, -3, 1⟩) (V3.fin ⟨1, 1, 10⟩)
    (V3.fin ⟨0, 0, -1⟩) (.fin 0) 5 = (true, .fin t) := by
  obtain ⟨t, h, -⟩ := C23_planar_one_step (p := 0) (q := 2) (s := 3) (l := 1) one_ne_zero
    (sag := fun x y => x * .fin 2 + y * .fin 3) (normal := fun _ _ => V3.fin ⟨-2, -3, 1⟩)
    (by intro x y; simp only [Dbl.mul_fin, Dbl.add_fin]; congr 1; ring)
    (by intro x y; norm_num) (r := ⟨1, 1, 10⟩) (v := ⟨0, 0, -1⟩) (by norm_num) 0 4
  exact ⟨t, h⟩

end Batoid.Props
