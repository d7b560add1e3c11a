import Verif.Props.Trace
import Verif.Props.Intersect
import Verif.Props.Reversal

/-!
# C99: systems that look the same after a turn treat turned rays the same

The specification is a real orthogonal matrix `G` that keeps the z axis: a rotation about it, or a mirror image in a plane through
it.  A frame, a surface and an obscuration are symmetric if `G` does not change them.
-/

namespace Batoid.Props
open Batoid Batoid.Surface Arith

/-! ## The symmetries -/

/-- An orthogonal matrix that keeps the z axis. -/
structure Axial (G : M3 ℝ) : Prop where
  orth : G.Orth
  m13 : G.m13 = 0
  m23 : G.m23 = 0
  m31 : G.m31 = 0
  m32 : G.m32 = 0
  m33 : G.m33 = 1

/-- Rotation about the z axis. -/
noncomputable def spin (φ : ℝ) : M3 ℝ := ⟨Real.cos φ, -Real.sin φ, 0, Real.sin φ, Real.cos φ, 0, 0, 0, 1⟩

/-- The mirror image in the plane `y = 0`. -/
def flipY : M3 ℝ := ⟨1, 0, 0, 0, -1, 0, 0, 0, 1⟩

theorem axial_spin (φ : ℝ) : Axial (spin φ) := by
  have h := Real.sin_sq_add_cos_sq φ
  refine ⟨⟨?_, ?_, ?_, ?_, ?_, ?_⟩, rfl, rfl, rfl, rfl, rfl⟩ <;> simp only [spin] <;> nlinarith

theorem axial_flipY : Axial flipY := by
  refine ⟨⟨?_, ?_, ?_, ?_, ?_, ?_⟩, rfl, rfl, rfl, rfl, rfl⟩ <;> simp [flipY]

/-- `G` applied to position and velocity of a ray. -/
noncomputable def turnRay (G : M3 ℝ) (ray : Ray Dbl) : Ray Dbl :=
  { ray with r := G.fin.mulVec ray.r, v := G.fin.mulVec ray.v }

/-- A vector all of whose components are numbers, or all of which are NaN (what the code leaves after total internal reflection). -/
def Tame (p : V3 Dbl) : Prop := (∃ w : V3 ℝ, p = w.fin) ∨ p = ⟨.nan, .nan, .nan⟩

theorem tame_fin (w : V3 ℝ) : Tame w.fin := .inl ⟨w, rfl⟩
theorem tame_nan : Tame ⟨.nan, .nan, .nan⟩ := .inr rfl

/-- A frame that `G` does not change. -/
structure SymFrame (G : M3 ℝ) (c : CoordSys Dbl) : Prop where
  real : ∃ k : CoordSys ℝ, c = k.fin ∧ k.rot.Orth ∧ k.rot.mul G = G.mul k.rot ∧ G.mulVec k.origin = k.origin

/-! ## Vectors -/

theorem mulVec_nan (G : M3 ℝ) : G.fin.mulVec ⟨Dbl.nan, Dbl.nan, Dbl.nan⟩ = ⟨.nan, .nan, .nan⟩ := by
  simp [M3.mulVec, M3.fin, M3.map]

theorem Tame.turn {p : V3 Dbl} (G : M3 ℝ) (h : Tame p) : Tame (G.fin.mulVec p) := by
  rcases h with ⟨w, rfl⟩ | rfl
  · rw [M3.fin_mulVec]; exact tame_fin _
  · rw [mulVec_nan]; exact tame_nan

section
variable {G : M3 ℝ} (hG : Axial G)
include hG

theorem Axial.planar (a b : V3 ℝ) :
    (G.mulVec a).x * (G.mulVec b).x + (G.mulVec a).y * (G.mulVec b).y = a.x * b.x + a.y * b.y := by
  obtain ⟨⟨h1, h2, h3, h4, h5, h6⟩, e1, e2, e3, e4, e5⟩ := hG
  simp only [M3.mulVec, e1, e2]
  rw [e3] at h1 h4; rw [e4] at h2 h4
  linear_combination (a.x * b.x) * h1 + (a.y * b.y) * h2 + (a.x * b.y + a.y * b.x) * h4

theorem Axial.height (a : V3 ℝ) : (G.mulVec a).z = a.z := by
  simp [M3.mulVec, hG.m31, hG.m32, hG.m33]

theorem turn_z {p : V3 Dbl} (h : Tame p) : (G.fin.mulVec p).z = p.z := by
  rcases h with ⟨w, rfl⟩ | rfl
  · rw [M3.fin_mulVec]; simp [hG.height]
  · rw [mulVec_nan]

theorem turn_planar {p q : V3 Dbl} (hp : Tame p) (hq : Tame q) :
    (G.fin.mulVec p).x * (G.fin.mulVec q).x + (G.fin.mulVec p).y * (G.fin.mulVec q).y = p.x * q.x + p.y * q.y := by
  rcases hp with ⟨a, rfl⟩ | rfl
  · rcases hq with ⟨b, rfl⟩ | rfl
    · rw [M3.fin_mulVec, M3.fin_mulVec]; simp [hG.planar]
    · rw [mulVec_nan]; simp
  · rw [mulVec_nan]; simp

theorem turn_dot {p q : V3 Dbl} (hp : Tame p) (hq : Tame q) :
    V3.dot (G.fin.mulVec p) (G.fin.mulVec q) = V3.dot p q := by
  simp only [V3.dot]
  rw [turn_planar hG hp hq, turn_z hG hp, turn_z hG hq]

end

theorem tame_sub {p q : V3 Dbl} (hp : Tame p) (hq : Tame q) : Tame (p - q) := by
  rcases hp with ⟨a, rfl⟩ | rfl
  · rcases hq with ⟨b, rfl⟩ | rfl
    · rw [V3.fin_sub]; exact tame_fin _
    · right; ext <;> simp
  · right; ext <;> simp

theorem tame_smulR {p : V3 Dbl} (hp : Tame p) (k : ℝ) : Tame (p.smulR (.fin k)) := by
  rcases hp with ⟨a, rfl⟩ | rfl
  · rw [V3.fin_smulR]; exact tame_fin _
  · right; simp [V3.smulR]

/-! ## Frames -/

theorem tr_commute {K G : M3 ℝ} (hK : K.Orth) (h : K.mul G = G.mul K) (p : V3 ℝ) :
    K.tr.mulVec (G.mulVec p) = G.mulVec (K.tr.mulVec p) := by
  have e : G.mulVec p = K.mulVec (G.mulVec (K.tr.mulVec p)) := by
    rw [← M3.mul_mulVec, h, M3.mul_mulVec, hK.mulVec_tr]
  rw [e, hK.tr_mulVec]

theorem turn_forward {G : M3 ℝ} {a b : CoordSys Dbl} (ha : SymFrame G a) (hb : SymFrame G b) {p : V3 Dbl} (hp : Tame p) :
    (CoordTransform.make a b).forward (G.fin.mulVec p) = G.fin.mulVec ((CoordTransform.make a b).forward p) ∧
      Tame ((CoordTransform.make a b).forward p) := by
  obtain ⟨k, rfl, hk, ck, ok⟩ := ha
  obtain ⟨l, rfl, hl, cl, ol⟩ := hb
  rcases hp with ⟨w, rfl⟩ | rfl
  · rw [M3.fin_mulVec, CoordTransform.forward_fin, CoordTransform.forward_fin, M3.fin_mulVec]
    refine ⟨?_, tame_fin _⟩
    rw [V3.fin_inj, CoordSys.forward_eq hk, CoordSys.forward_eq hk]
    have e1 : k.toGlobal (G.mulVec w) = G.mulVec (k.toGlobal w) := by
      simp only [CoordSys.toGlobal]
      rw [← M3.mul_mulVec, ck, M3.mul_mulVec, M3.mulVec_add, ok]
    have e2 : ∀ q, l.toLocal (G.mulVec q) = G.mulVec (l.toLocal q) := by
      intro q
      simp only [CoordSys.toLocal]
      rw [← tr_commute hl cl, M3.mulVec_sub G, ol]
    rw [e1, e2]
  · rw [mulVec_nan]
    have e : (CoordTransform.make k.fin l.fin).forward ⟨Dbl.nan, Dbl.nan, Dbl.nan⟩ = ⟨.nan, .nan, .nan⟩ := by
      rw [CoordTransform.make_fin]
      simp [CoordTransform.forward, M3.mulVec, M3.fin, M3.map, M3.tr]
    rw [e, mulVec_nan]
    exact ⟨rfl, tame_nan⟩

theorem turn_forwardVel {G : M3 ℝ} {a b : CoordSys Dbl} (ha : SymFrame G a) (hb : SymFrame G b) {p : V3 Dbl} (hp : Tame p) :
    (CoordTransform.make a b).forwardVel (G.fin.mulVec p) = G.fin.mulVec ((CoordTransform.make a b).forwardVel p) ∧
      Tame ((CoordTransform.make a b).forwardVel p) := by
  obtain ⟨k, rfl, hk, ck, ok⟩ := ha
  obtain ⟨l, rfl, hl, cl, ol⟩ := hb
  rcases hp with ⟨w, rfl⟩ | rfl
  · rw [M3.fin_mulVec, CoordTransform.forwardVel_fin, CoordTransform.forwardVel_fin, M3.fin_mulVec]
    refine ⟨?_, tame_fin _⟩
    rw [V3.fin_inj, CoordSys.forwardVel_eq, CoordSys.forwardVel_eq]
    rw [← tr_commute hl cl, ← M3.mul_mulVec k.rot, ck, M3.mul_mulVec G]
  · rw [mulVec_nan]
    have e : (CoordTransform.make k.fin l.fin).forwardVel ⟨Dbl.nan, Dbl.nan, Dbl.nan⟩ = ⟨.nan, .nan, .nan⟩ := by
      rw [CoordTransform.make_fin]
      simp [CoordTransform.forwardVel, M3.mulVec, M3.fin, M3.map, M3.tr]
    rw [e, mulVec_nan]
    exact ⟨rfl, tame_nan⟩

/-! ## Surfaces -/

/-- Two normals: the second is the first one turned, or neither is defined. -/
def NormalPair (G : M3 ℝ) (n n' : V3 Dbl) : Prop :=
  (∃ w : V3 ℝ, n = w.fin ∧ n' = (G.mulVec w).fin) ∨ (n.x = .nan ∧ n.y = .nan ∧ n' = n)

/-- A surface that `G` does not change. -/
structure SymSurface (G : M3 ℝ) (s : Surface Dbl) : Prop where
  time : ∀ r v, Tame r → Tame v → ∀ dt n, s.timeToIntersect (G.fin.mulVec r) (G.fin.mulVec v) dt n = s.timeToIntersect r v dt n
  meets : ∀ r v, Tame r → Tame v → ∀ dt n, (s.timeToIntersect r v dt n).1 = true →
    Tame (r + v.smulR (s.timeToIntersect r v dt n).2)
  normal : ∀ p, Tame p → NormalPair G (s.normal p.x p.y) (s.normal (G.fin.mulVec p).x (G.fin.mulVec p).y)

/-- Neither infinity. -/
def NoInf (a : Dbl) : Prop := a = .nan ∨ ∃ t, a = .fin t

theorem meet_tame {r v : V3 Dbl} (hr : Tame r) (hv : Tame v) {dt : Dbl}
    (h : ∀ a b : V3 ℝ, r = a.fin → v = b.fin → b ≠ ⟨0, 0, 0⟩ → NoInf dt) : Tame (r + v.smulR dt) := by
  rcases hr with ⟨a, rfl⟩ | rfl
  · rcases hv with ⟨b, rfl⟩ | rfl
    · by_cases hb : b = ⟨0, 0, 0⟩
      · subst hb
        rcases dt with _ | _ | _ | t
        · right; ext <;> simp
        · right; ext <;> simp [HMul.hMul, Mul.mul, Dbl.mul, Dbl.infMul]
        · right; ext <;> simp [HMul.hMul, Mul.mul, Dbl.mul, Dbl.infMul]
        · rw [V3.fin_smulR, V3.fin_add]; exact tame_fin _
      · rcases h a b rfl rfl hb with rfl | ⟨t, rfl⟩
        · right; ext <;> simp
        · rw [V3.fin_smulR, V3.fin_add]; exact tame_fin _
    · right; ext <;> simp
  · right; ext <;> simp

section
variable {G : M3 ℝ} (hG : Axial G)
include hG

theorem pair_up : NormalPair G ⟨0, 0, 1⟩ ⟨0, 0, 1⟩ := by
  refine .inl ⟨⟨0, 0, 1⟩, by simp, ?_⟩
  simp only [M3.mulVec, hG.m13, hG.m23, hG.m33, Dbl.zero_dbl, Dbl.one_dbl, V3.fin_mk, V3.fin_inj]
  ext <;> simp

theorem sym_plane : SymSurface G plane := by
  refine ⟨fun r v hr hv dt n => ?_, fun r v hr hv dt n h => ?_, fun p hp => ?_⟩
  · simp only [plane, turn_z hG hr, turn_z hG hv]
  · refine meet_tame hr hv ?_
    rintro a b rfl rfl hb
    simp only [plane, V3.fin_z, Dbl.zero_dbl, Dbl.eq_fin, decide_eq_true_eq] at h ⊢
    by_cases hz : b.z = 0
    · simp [hz] at h
    · right; refine ⟨-a.z / b.z, ?_⟩; simp [hz]
  · exact pair_up hG

/-- The normal of a surface of revolution. -/
theorem pair_radial (dzdr : Dbl → Dbl) {p : V3 Dbl} (hp : Tame p) :
    NormalPair G (radialNormal dzdr p.x p.y) (radialNormal dzdr (G.fin.mulVec p).x (G.fin.mulVec p).y) := by
  have e := turn_planar hG hp hp
  rcases hp with ⟨w, rfl⟩ | rfl
  · unfold radialNormal
    rw [e]
    have hnn : 0 ≤ w.x * w.x + w.y * w.y := by nlinarith [mul_self_nonneg w.x, mul_self_nonneg w.y]
    simp only [V3.fin_x, V3.fin_y, Dbl.mul_fin, Dbl.add_fin, Dbl.sqrt_fin hnn, Dbl.zero_dbl, Dbl.one_dbl, Dbl.eq_fin, decide_eq_true_eq]
    set k := Real.sqrt (w.x * w.x + w.y * w.y) with hk
    by_cases h0 : k = 0
    · simp only [h0, if_true]
      have := pair_up hG
      simpa only [Dbl.zero_dbl, Dbl.one_dbl] using this
    · simp only [h0, if_false, M3.fin_mulVec, V3.fin_x, V3.fin_y, Dbl.neg_fin, Dbl.div_fin h0]
      rcases dzdr (.fin k) with _ | _ | _ | d
      · right; simp
      · right
        have e1 : (1 : Dbl) / Arith.sqrt (Dbl.fin 1 + Dbl.pinf * Dbl.pinf) = .fin 0 := by rw [Dbl.one_dbl]; rfl
        rw [Dbl.one_dbl] at e1
        simp only [e1]
        have e2 : ∀ q : ℝ, Dbl.fin q * Dbl.pinf * Dbl.fin 0 = .nan := by
          intro q
          show Dbl.mul (Dbl.infMul q) (.fin 0) = _
          unfold Dbl.infMul
          split_ifs <;> simp [Dbl.mul, Dbl.infMul]
        simp only [e2, and_self]
      · right
        have e1 : (1 : Dbl) / Arith.sqrt (Dbl.fin 1 + Dbl.ninf * Dbl.ninf) = .fin 0 := by rw [Dbl.one_dbl]; rfl
        rw [Dbl.one_dbl] at e1
        simp only [e1]
        have e2 : ∀ q : ℝ, Dbl.fin q * Dbl.ninf * Dbl.fin 0 = .nan := by
          intro q
          show Dbl.mul (Dbl.infMul (-q)) (.fin 0) = _
          unfold Dbl.infMul
          split_ifs <;> simp [Dbl.mul, Dbl.infMul]
        simp only [e2, and_self]
      · have h1 : (0 : ℝ) < 1 + d * d := by nlinarith [mul_self_nonneg d]
        have h2 : Real.sqrt (1 + d * d) ≠ 0 := (Real.sqrt_pos.2 h1).ne'
        refine .inl ⟨⟨-w.x / k * d * (1 / Real.sqrt (1 + d * d)), -w.y / k * d * (1 / Real.sqrt (1 + d * d)), 1 / Real.sqrt (1 + d * d)⟩, ?_, ?_⟩
        · simp only [Dbl.mul_fin, Dbl.add_fin, Dbl.sqrt_fin h1.le, Dbl.div_fin h2, V3.fin_mk]
        · simp only [Dbl.mul_fin, Dbl.add_fin, Dbl.sqrt_fin h1.le, Dbl.div_fin h2, V3.fin_mk, V3.fin_inj]
          simp only [M3.mulVec, hG.m13, hG.m23, hG.m31, hG.m32, hG.m33]
          ext <;> simp only [] <;> ring
  · right
    rw [mulVec_nan]
    refine ⟨?_, ?_, rfl⟩ <;> simp [radialNormal]

theorem sphere_radial {R : ℝ} (hR : R ≠ 0) {p : V3 Dbl} (hp : Tame p) :
    sphereNormal (.fin R) p.x p.y = radialNormal (sphereDzdr (.fin R)) p.x p.y := by
  rcases hp with ⟨w, rfl⟩ | rfl
  · have hnn : 0 ≤ w.x * w.x + w.y * w.y := by nlinarith [mul_self_nonneg w.x, mul_self_nonneg w.y]
    simp only [sphereNormal, radialNormal, V3.fin_x, V3.fin_y, Dbl.mul_fin, Dbl.add_fin, Dbl.sqrt_fin hnn, Dbl.zero_dbl, Dbl.eq_fin, hR,
      decide_false, Bool.false_or, decide_eq_true_eq, Real.sqrt_eq_zero hnn]
  · simp [sphereNormal, radialNormal, hR]

end

/-! ### The roots of the quadratic -/

theorem rootPair_noInf {a b c : ℝ} (ha : a ≠ 0) (hd : 0 ≤ b * b - 4 * a * c) :
    NoInf (rootPair (.fin a) (.fin b) (.fin c) (.fin (b * b - 4 * a * c)) : Dbl × Dbl).1 ∧
      NoInf (rootPair (.fin a) (.fin b) (.fin c) (.fin (b * b - 4 * a * c)) : Dbl × Dbl).2 := by
  have h2 : 2 * a ≠ 0 := mul_ne_zero two_ne_zero ha
  simp only [rootPair, Dbl.zero_dbl, Dbl.gt_fin, decide_eq_true_eq, Dbl.sqrt_fin hd, Dbl.ofNat_dbl', Dbl.neg_fin, Dbl.sub_fin, Dbl.mul_fin,
    Dbl.add_fin, Dbl.div_fin h2]
  have tail : ∀ t : ℝ, (t = 0 → c = 0) → NoInf (Dbl.fin c / Dbl.fin (a * t)) := by
    intro t ht
    by_cases h : a * t = 0
    · left
      have : t = 0 := by rcases mul_eq_zero.1 h with h | h; exacts [absurd h ha, h]
      rw [h, ht this, Dbl.zero_div_zero]
    · right; exact ⟨_, Dbl.div_fin h⟩
  by_cases hb : 0 < b
  · simp only [hb, if_true, Dbl.mul_fin]
    refine ⟨.inr ⟨_, rfl⟩, tail _ fun h => ?_⟩
    exfalso
    rw [div_eq_zero_iff] at h
    rcases h with h | h
    · have := Real.sqrt_nonneg (b * b - 4 * a * c); linarith
    · exact h2 h
  · simp only [hb, if_false]
    by_cases hq : -b + Real.sqrt (b * b - 4 * a * c) = 0
    · have hs := Real.sqrt_nonneg (b * b - 4 * a * c)
      have hb0 : b = 0 := by linarith [not_lt.1 hb]
      have hs0 : Real.sqrt (b * b - 4 * a * c) = 0 := by linarith
      rw [Real.sqrt_eq_zero hd] at hs0
      have hc : c = 0 := by
        have : a * c = 0 := by rw [hb0] at hs0; linarith
        rcases mul_eq_zero.1 this with h | h; exacts [absurd h ha, h]
      have e : Dbl.fin (2 * c) / Dbl.fin (-b + Real.sqrt (b * b - 4 * a * c)) = .nan := by
        rw [hq, hc, mul_zero, Dbl.zero_div_zero]
      rw [e]
      exact ⟨.inl rfl, .inl (by simp)⟩
    · simp only [Dbl.div_fin hq, Dbl.mul_fin]
      refine ⟨.inr ⟨_, rfl⟩, tail _ fun h => ?_⟩
      rcases div_eq_zero_iff.1 h with h | h
      · linarith
      · exact absurd h hq

theorem noInf_max {a b : Dbl} (ha : NoInf a) (hb : NoInf b) : NoInf (Arith.max a b) := by
  unfold Arith.max; split_ifs <;> assumption
theorem noInf_min {a b : Dbl} (ha : NoInf a) (hb : NoInf b) : NoInf (Arith.min a b) := by
  unfold Arith.min; split_ifs <;> assumption

section
variable {G : M3 ℝ} (hG : Axial G)
include hG

theorem sym_paraboloid {R : ℝ} (hR : R ≠ 0) : SymSurface G (paraboloid (.fin R)) := by
  have hR2 : (2 : ℝ) ≠ 0 := two_ne_zero
  refine ⟨fun r v hr hv dt n => ?_, fun r v hr hv dt n h => ?_, fun p hp => ?_⟩
  · simp only [paraboloid, paraboloidTime, turn_planar hG hr hr, turn_planar hG hv hv, turn_planar hG hr hv, turn_z hG hr, turn_z hG hv]
  · refine meet_tame hr hv ?_
    rintro a b rfl rfl hb
    simp only [paraboloid, paraboloidTime, V3.fin_x, V3.fin_y, V3.fin_z, Dbl.zero_dbl, Dbl.one_dbl, Dbl.ofNat_dbl', Dbl.div_fin hR, Dbl.div_fin hR2,
      Dbl.mul_fin, Dbl.add_fin, Dbl.sub_fin, Dbl.neg_fin, Dbl.eq_fin, decide_eq_true_eq, Dbl.lt_fin] at h ⊢
    by_cases ha : (b.x * b.x + b.y * b.y) * (1 / 2 / R) = 0
    · simp only [ha, if_true]
      have h0 : b.x * b.x + b.y * b.y = 0 := by
        rcases mul_eq_zero.1 ha with h | h
        · exact h
        · exact absurd h (by positivity)
      have hx : b.x = 0 := by nlinarith [mul_self_nonneg b.x, mul_self_nonneg b.y]
      have hy : b.y = 0 := by nlinarith [mul_self_nonneg b.x, mul_self_nonneg b.y]
      have hz : b.z ≠ 0 := by intro hz; exact hb (by ext <;> assumption)
      have hq : (a.x * b.x + a.y * b.y) * (1 / R) - b.z ≠ 0 := by rw [hx, hy]; simpa using hz
      exact .inr ⟨_, Dbl.div_fin hq⟩
    · simp only [ha, if_false] at h ⊢
      split_ifs at h ⊢ with hd hs
      · exact noInf_max (rootPair_noInf ha (not_lt.1 hd)).1 (rootPair_noInf ha (not_lt.1 hd)).2
      · exact noInf_min (rootPair_noInf ha (not_lt.1 hd)).1 (rootPair_noInf ha (not_lt.1 hd)).2
  · have e := turn_planar hG hp hp
    rcases hp with ⟨w, rfl⟩ | rfl
    · simp only [paraboloid, paraboloidNormal]
      rw [e]
      have hp : 0 < 1 + (w.x * w.x + w.y * w.y) * (1 / R) * (1 / R) := by
        have : 0 ≤ (w.x * w.x + w.y * w.y) * (1 / R * (1 / R)) :=
          mul_nonneg (by nlinarith [mul_self_nonneg w.x, mul_self_nonneg w.y]) (mul_self_nonneg _)
        nlinarith
      have hs := (Real.sqrt_pos.2 hp).ne'
      refine .inl ⟨⟨-w.x * (1 / R) * (1 / Real.sqrt (1 + (w.x * w.x + w.y * w.y) * (1 / R) * (1 / R))),
        -w.y * (1 / R) * (1 / Real.sqrt (1 + (w.x * w.x + w.y * w.y) * (1 / R) * (1 / R))),
        1 / Real.sqrt (1 + (w.x * w.x + w.y * w.y) * (1 / R) * (1 / R))⟩, ?_, ?_⟩
      · simp only [V3.fin_x, V3.fin_y, Dbl.zero_dbl, Dbl.one_dbl, Dbl.eq_fin, hR, decide_false, Bool.false_eq_true, if_false, Dbl.div_fin hR,
          Dbl.mul_fin, Dbl.add_fin, Dbl.sqrt_fin hp.le, Dbl.div_fin hs, Dbl.neg_fin, V3.fin_mk]
      · simp only [M3.fin_mulVec, V3.fin_x, V3.fin_y, Dbl.zero_dbl, Dbl.one_dbl, Dbl.eq_fin, hR, decide_false, Bool.false_eq_true, if_false,
          Dbl.div_fin hR, Dbl.mul_fin, Dbl.add_fin, Dbl.sqrt_fin hp.le, Dbl.div_fin hs, Dbl.neg_fin, V3.fin_mk, V3.fin_inj]
        simp only [M3.mulVec, hG.m13, hG.m23, hG.m31, hG.m32, hG.m33]
        ext <;> simp only [] <;> ring
    · right
      rw [mulVec_nan]
      refine ⟨?_, ?_, rfl⟩ <;> simp [paraboloid, paraboloidNormal, hR]

theorem sym_sphere {R : ℝ} (hR : R ≠ 0) : SymSurface G (sphere (.fin R)) := by
  refine ⟨fun r v hr hv dt n => ?_, fun r v hr hv dt n h => ?_, fun p hp => ?_⟩
  · simp only [sphere, sphereTime, turn_planar hG hr hr, turn_planar hG hv hv, turn_planar hG hv hr, turn_z hG hr, turn_z hG hv]
  · refine meet_tame hr hv ?_
    rintro a b rfl rfl hb
    have hv2 : b.z * b.z + (b.x * b.x + b.y * b.y) ≠ 0 := by
      intro h0
      have hx : b.x = 0 := by nlinarith [mul_self_nonneg b.x, mul_self_nonneg b.y, mul_self_nonneg b.z]
      have hy : b.y = 0 := by nlinarith [mul_self_nonneg b.x, mul_self_nonneg b.y, mul_self_nonneg b.z]
      have hz : b.z = 0 := by nlinarith [mul_self_nonneg b.x, mul_self_nonneg b.y, mul_self_nonneg b.z]
      exact hb (by ext <;> assumption)
    simp only [sphere, sphereTime, V3.fin_x, V3.fin_y, V3.fin_z, Dbl.zero_dbl, Dbl.ofNat_dbl',
      Dbl.mul_fin, Dbl.add_fin, Dbl.sub_fin, decide_eq_true_eq, Dbl.lt_fin] at h ⊢
    split_ifs at h ⊢ with hd hs
    · exact noInf_max (rootPair_noInf hv2 (not_lt.1 hd)).1 (rootPair_noInf hv2 (not_lt.1 hd)).2
    · exact noInf_min (rootPair_noInf hv2 (not_lt.1 hd)).1 (rootPair_noInf hv2 (not_lt.1 hd)).2
  · simp only [sphere]
    rw [sphere_radial hG hR hp, sphere_radial hG hR (hp.turn G)]
    exact pair_radial hG _ hp

theorem quadric_time_turn (R k : Dbl) {r v : V3 Dbl} (hr : Tame r) (hv : Tame v) (dt : Dbl) :
    quadricTime R k (G.fin.mulVec r) (G.fin.mulVec v) dt = quadricTime R k r v dt := by
  simp only [quadricTime, turn_planar hG hr hr, turn_planar hG hv hv, turn_planar hG hv hr, turn_z hG hr, turn_z hG hv]

theorem sym_quadric {R k : ℝ} (hk : k ≠ -1) : SymSurface G (quadric (.fin R) (.fin k)) := by
  have hk1 : k + 1 ≠ 0 := fun h => hk (by linarith)
  refine ⟨fun r v hr hv dt n => quadric_time_turn hG _ _ hr hv dt, fun r v hr hv dt n h => ?_, fun p hp => pair_radial hG _ hp⟩
  refine meet_tame hr hv ?_
  rintro a b rfl rfl hb
  simp only [quadric, quadricTime, V3.fin_x, V3.fin_y, V3.fin_z, Dbl.zero_dbl, Dbl.one_dbl, Dbl.ofNat_dbl', Dbl.div_fin hk1,
    Dbl.mul_fin, Dbl.add_fin, Dbl.sub_fin, decide_eq_true_eq, Dbl.lt_fin] at h ⊢
  generalize hA : b.z * b.z + (b.x * b.x + b.y * b.y) * (1 / (k + 1)) = A at h ⊢
  generalize hB : 2 * (b.z * (a.z - R / (k + 1)) + (b.x * a.x + b.y * a.y) * (1 / (k + 1))) = B at h ⊢
  generalize hC : (a.z - R / (k + 1)) * (a.z - R / (k + 1)) - R * R / (k + 1) / (k + 1) + (a.x * a.x + a.y * a.y) * (1 / (k + 1)) = C at h ⊢
  by_cases hd : B * B - 4 * A * C < 0
  · simp [hd] at h
  simp only [hd, if_false]
  by_cases hA0 : A = 0
  · have hz : b.z ≠ 0 := by
      intro hz
      rw [hA0, hz] at hA
      have h0 : b.x * b.x + b.y * b.y = 0 := by
        have : (b.x * b.x + b.y * b.y) * (1 / (k + 1)) = 0 := by linarith
        rcases mul_eq_zero.1 this with h | h
        · exact h
        · exact absurd h (one_div_ne_zero hk1)
      have hx : b.x = 0 := by nlinarith [mul_self_nonneg b.x, mul_self_nonneg b.y]
      have hy : b.y = 0 := by nlinarith [mul_self_nonneg b.x, mul_self_nonneg b.y]
      exact hb (by ext <;> assumption)
    subst hA0
    have nn : ∀ x : Dbl, x / (Dbl.fin 0 * Dbl.pinf) = .nan := by intro x; cases x <;> simp [HMul.hMul, Mul.mul, Dbl.mul, Dbl.infMul]
    have nn' : ∀ x : Dbl, x / (Dbl.fin 0 * Dbl.ninf) = .nan := by intro x; cases x <;> simp [HMul.hMul, Mul.mul, Dbl.mul, Dbl.infMul]
    have fst : ∀ p : Dbl, NoInf (if Arith.lt (Arith.abs (Dbl.fin a.z + Dbl.fin b.z * p)) (Arith.abs (Dbl.fin a.z + Dbl.fin b.z * (Dbl.fin C / (Dbl.fin 0 * p)))) = true
        then p else Dbl.fin C / (Dbl.fin 0 * p)) := by
      intro p
      rcases p with _ | _ | _ | t
      · simp [NoInf]
      · simp [nn, NoInf]
      · simp [nn', NoInf]
      · simp only [Dbl.mul_fin, zero_mul, Dbl.div_fin', if_true, Dbl.add_fin, Dbl.abs_fin]
        by_cases hc : C = 0
        · simp [Dbl.infMul, hc, NoInf]
        · have inf : ∃ i, (i = Dbl.pinf ∨ i = Dbl.ninf) ∧ Dbl.infMul C = i := by
            simp only [Dbl.infMul, hc, if_false]; split_ifs
            · exact ⟨_, .inl rfl, rfl⟩
            · exact ⟨_, .inr rfl, rfl⟩
          obtain ⟨i, hi, e⟩ := inf
          rw [e]
          have big : Arith.abs (Dbl.fin a.z + Dbl.fin b.z * i) = .pinf := by
            rcases hi with rfl | rfl
            · show Arith.abs (Dbl.fin a.z + Dbl.infMul b.z) = _
              simp only [Dbl.infMul, hz, if_false]; split_ifs <;> rfl
            · show Arith.abs (Dbl.fin a.z + Dbl.infMul (-b.z)) = _
              simp only [Dbl.infMul, neg_eq_zero, hz, if_false]; split_ifs <;> rfl
          rw [big]
          have : Arith.lt (Dbl.fin |a.z + b.z * t|) .pinf = true := rfl
          rw [this]
          simp [NoInf]
    exact fst _
  · have hd' : 0 ≤ B * B - 4 * A * C := not_lt.1 hd
    have hp := rootPair_noInf (a := A) (b := B) (c := C) hA0 hd'
    split_ifs
    · exact hp.1
    · exact hp.2

/-- The parabolic case: every ray is accepted with the time NaN (C30), also the turned one. -/
theorem sym_quadric_parabolic {R : ℝ} (hR : R ≠ 0) : SymSurface G (quadric (.fin R) (.fin (-1))) := by
  refine ⟨fun r v hr hv dt n => quadric_time_turn hG _ _ hr hv dt, fun r v hr hv dt n h => ?_, fun p hp => pair_radial hG _ hp⟩
  refine meet_tame hr hv ?_
  rintro a b rfl rfl -
  rw [C30_quadric_parabolic_violated hR]
  exact .inl rfl


/-- A tilted plane is symmetric if `G` keeps its direction. -/
theorem sym_tilted {p q : ℝ} (hpq : p * p + q * q < 1) (h1 : G.m11 * p + G.m12 * q = p) (h2 : G.m21 * p + G.m22 * q = q) :
    SymSurface G (tilted (.fin p) (.fin q)) := by
  have key : ∀ a : V3 ℝ, (G.mulVec a).x * p + (G.mulVec a).y * q = a.x * p + a.y * q := by
    intro a
    have := hG.planar a ⟨p, q, 0⟩
    have e1 : (G.mulVec ⟨p, q, 0⟩).x = p := by simpa [M3.mulVec] using h1
    have e2 : (G.mulVec ⟨p, q, 0⟩).y = q := by simpa [M3.mulVec] using h2
    rw [e1, e2] at this
    exact this
  have hs : 0 ≤ 1 - p * p - q * q := by linarith
  refine ⟨fun r v hr hv dt n => ?_, fun r v hr hv dt n h => ?_, fun w hw => ?_⟩
  · simp only [tilted]
    have e1 : ∀ u : V3 Dbl, Tame u → (G.fin.mulVec u).x * Dbl.fin p + (G.fin.mulVec u).y * Dbl.fin q = u.x * Dbl.fin p + u.y * Dbl.fin q := by
      rintro u (⟨w, rfl⟩ | rfl)
      · simp only [M3.fin_mulVec, V3.fin_x, V3.fin_y, Dbl.mul_fin, Dbl.add_fin, key]
      · rw [mulVec_nan]
    have e2 : ∀ u : V3 Dbl, Tame u → (G.fin.mulVec u).z - (G.fin.mulVec u).x * Dbl.fin p - (G.fin.mulVec u).y * Dbl.fin q
        = u.z - u.x * Dbl.fin p - u.y * Dbl.fin q := by
      rintro u (⟨w, rfl⟩ | rfl)
      · simp only [M3.fin_mulVec, V3.fin_x, V3.fin_y, V3.fin_z, Dbl.mul_fin, Dbl.sub_fin, hG.height, Dbl.fin_inj]
        linear_combination -key w
      · rw [mulVec_nan]
    rw [e1 v hv, e2 r hr, turn_z hG hv]
  · refine meet_tame hr hv ?_
    rintro a b rfl rfl hb
    simp only [tilted, V3.fin_x, V3.fin_y, V3.fin_z, Dbl.zero_dbl, Dbl.mul_fin, Dbl.add_fin, Dbl.sub_fin, Dbl.eq_fin, decide_eq_true_eq] at h ⊢
    split_ifs at h ⊢ with h0
    exact .inr ⟨_, Dbl.div_fin h0⟩
  · refine .inl ⟨⟨-p, -q, Real.sqrt (1 - p * p - q * q)⟩, ?_, ?_⟩
    · simp only [tilted, Dbl.one_dbl, Dbl.mul_fin, Dbl.sub_fin, Dbl.neg_fin, Dbl.sqrt_fin hs, V3.fin_mk]
    · simp only [tilted, Dbl.one_dbl, Dbl.mul_fin, Dbl.sub_fin, Dbl.neg_fin, Dbl.sqrt_fin hs, V3.fin_mk, V3.fin_inj]
      simp only [M3.mulVec, hG.m13, hG.m23, hG.m31, hG.m32, hG.m33]
      ext <;> simp only [] <;> linarith

end

/-! ### The iterative solver -/

/-- A surface whose height is not defined at infinity. -/
def Curved (sag : Dbl → Dbl → Dbl) : Prop := ∀ x y : Dbl, ¬ (x.IsFin ∧ y.IsFin) → sag x y = .nan

/-- Height and slopes of a surface that `G` does not change. -/
structure SymShape (G : M3 ℝ) (f : Dbl → Dbl → Dbl) (m : Dbl → Dbl → V3 Dbl) : Prop where
  sag : ∀ a : V3 ℝ, f (.fin (G.mulVec a).x) (.fin (G.mulVec a).y) = f (.fin a.x) (.fin a.y)
  normal : ∀ p, Tame p → NormalPair G (m p.x p.y) (m (G.fin.mulVec p).x (G.fin.mulVec p).y)
  up : ∀ (p : V3 Dbl) (w : V3 ℝ), Tame p → m p.x p.y = w.fin → 0 < w.z

theorem not_fin_add (a b : Dbl) (h : ¬ b.IsFin) : ¬ (a + b).IsFin := by
  rcases b with _ | _ | _ | t
  · simp
  · rintro ⟨q, hq⟩; cases a <;> simp [HAdd.hAdd, Add.add, Dbl.add] at hq
  · rintro ⟨q, hq⟩; cases a <;> simp [HAdd.hAdd, Add.add, Dbl.add] at hq
  · exact absurd ⟨t, rfl⟩ h

theorem not_fin_mul (a : ℝ) (b : Dbl) (h : ¬ b.IsFin) : ¬ (Dbl.fin a * b).IsFin := by
  rcases b with _ | _ | _ | t
  · simp
  · rintro ⟨q, hq⟩
    have : Dbl.infMul a = .fin q := hq
    unfold Dbl.infMul at this; split_ifs at this
  · rintro ⟨q, hq⟩
    have : Dbl.infMul (-a) = .fin q := hq
    unfold Dbl.infMul at this; split_ifs at this
  · exact absurd ⟨t, rfl⟩ h

/-- Either everything is a number, or the point is none. -/
theorem step_cases {r v : V3 Dbl} (hr : Tame r) (hv : Tame v) (dt : Dbl) :
    (∃ (a b : V3 ℝ) (t : ℝ), r = a.fin ∧ v = b.fin ∧ dt = .fin t) ∨
      ∀ G : M3 ℝ, ¬ ((G.fin.mulVec r + (G.fin.mulVec v).smulR dt).x.IsFin ∧ (G.fin.mulVec r + (G.fin.mulVec v).smulR dt).y.IsFin) := by
  rcases hr with ⟨a, rfl⟩ | rfl
  · rcases hv with ⟨b, rfl⟩ | rfl
    · by_cases hd : dt.IsFin
      · obtain ⟨t, rfl⟩ := hd; exact .inl ⟨a, b, t, rfl, rfl, rfl⟩
      · right; rintro G ⟨h, -⟩
        rw [M3.fin_mulVec, M3.fin_mulVec] at h
        exact not_fin_add _ _ (not_fin_mul _ _ hd) h
    · right; rintro G ⟨h, -⟩
      rw [mulVec_nan] at h; simp at h
  · right; rintro G ⟨h, -⟩
    rw [mulVec_nan] at h; simp at h

theorem fin_one : (M3.one : M3 ℝ).fin = ⟨.fin 1, .fin 0, .fin 0, .fin 0, .fin 1, .fin 0, .fin 0, .fin 0, .fin 1⟩ := rfl

theorem one_turn {p : V3 Dbl} (hp : Tame p) : (M3.one : M3 ℝ).fin.mulVec p = p := by
  rcases hp with ⟨w, rfl⟩ | rfl
  · rw [M3.fin_mulVec, M3.one_mulVec]
  · exact mulVec_nan _

theorem newtonStep_wild {sag : Dbl → Dbl → Dbl} {normal : Dbl → Dbl → V3 Dbl} (hc : Curved sag) {r v : V3 Dbl} {dt : Dbl}
    (h : ¬ ((r + v.smulR dt).x.IsFin ∧ (r + v.smulR dt).y.IsFin)) : newtonStep sag normal r v dt = .nan := by
  unfold newtonStep
  simp only [hc _ _ h, Dbl.nan_sub, Dbl.nan_mul, Dbl.add_nan, Dbl.nan_div]

section
variable {G : M3 ℝ} (hG : Axial G)
include hG

theorem newtonStep_turn {sag : Dbl → Dbl → Dbl} {normal : Dbl → Dbl → V3 Dbl} (hs : SymShape G sag normal) (hc : Curved sag)
    {r v : V3 Dbl} (hr : Tame r) (hv : Tame v) (dt : Dbl) :
    newtonStep sag normal (G.fin.mulVec r) (G.fin.mulVec v) dt = newtonStep sag normal r v dt := by
  rcases step_cases hr hv dt with ⟨a, b, t, rfl, rfl, rfl⟩ | h
  · unfold newtonStep
    simp only [M3.fin_mulVec, V3.fin_smulR, V3.fin_add, ← M3.mulVec_smulR, ← M3.mulVec_add]
    have hsag := hs.sag (a + b.smulR t)
    have hn := hs.normal _ (tame_fin (a + b.smulR t))
    rw [M3.fin_mulVec] at hn
    simp only [V3.fin_x, V3.fin_y, V3.fin_z] at hn ⊢
    rw [hsag, hG.height]
    rcases hn with ⟨w, e1, e2⟩ | ⟨e1, e2, e3⟩
    · rw [e1, e2]
      have e4 := hG.planar (a + b.smulR t - a) w
      rw [M3.mulVec_sub] at e4
      simp only [V3.fin_x, V3.fin_y, V3.fin_z, V3.fin_dot, hG.orth.dot_mulVec, hG.height, Dbl.sub_fin, Dbl.mul_fin, Dbl.add_fin]
      simp only [V3.sub_x, V3.sub_y] at e4
      rw [e4]
    · rw [e3, e1, e2]; simp
  · have h1 := h G
    have h2 := h M3.one
    rw [one_turn hr, one_turn hv] at h2
    rw [newtonStep_wild hc h1, newtonStep_wild hc h2]

theorem newtonIter_turn {sag : Dbl → Dbl → Dbl} {normal : Dbl → Dbl → V3 Dbl} (hs : SymShape G sag normal) (hc : Curved sag)
    {r v : V3 Dbl} (hr : Tame r) (hv : Tame v) : ∀ (n : ℕ) (dt : Dbl),
    newtonIter sag normal (G.fin.mulVec r) (G.fin.mulVec v) n dt = newtonIter sag normal r v n dt
  | 0, dt => rfl
  | n + 1, dt => by
    simp only [newtonIter]
    rw [newtonStep_turn hG hs hc hr hv, newtonIter_turn hs hc hr hv n]

theorem newton_turn {sag : Dbl → Dbl → Dbl} {normal : Dbl → Dbl → V3 Dbl} (hs : SymShape G sag normal) (hc : Curved sag)
    {r v : V3 Dbl} (hr : Tame r) (hv : Tame v) (dt : Dbl) (n : ℕ) :
    newton sag normal (G.fin.mulVec r) (G.fin.mulVec v) dt n = newton sag normal r v dt n := by
  unfold newton
  rw [newtonIter_turn hG hs hc hr hv]
  generalize newtonIter sag normal r v n dt = u
  refine Prod.ext ?_ rfl
  rcases step_cases hr hv u with ⟨a, b, t, rfl, rfl, rfl⟩ | h
  · simp only [M3.fin_mulVec, V3.fin_smulR, V3.fin_add, ← M3.mulVec_smulR, ← M3.mulVec_add, V3.fin_x, V3.fin_y, V3.fin_z, hs.sag, hG.height]
  · have h1 := h G
    have h2 := h M3.one
    rw [one_turn hr, one_turn hv] at h2
    simp only [hc _ _ h1, hc _ _ h2, Dbl.nan_sub, Dbl.abs_nan, Dbl.nan_lt]

omit hG in
theorem newton_meets {sag : Dbl → Dbl → Dbl} {normal : Dbl → Dbl → V3 Dbl} (hc : Curved sag)
    {r v : V3 Dbl} (hr : Tame r) (hv : Tame v) (dt : Dbl) (n : ℕ) (h : (newton sag normal r v dt n).1 = true) :
    Tame (r + v.smulR (newton sag normal r v dt n).2) := by
  unfold newton at h ⊢
  generalize newtonIter sag normal r v n dt = u at h ⊢
  rcases step_cases hr hv u with ⟨a, b, t, rfl, rfl, rfl⟩ | h'
  · simp only [V3.fin_smulR, V3.fin_add]; exact tame_fin _
  · have h2 := h' M3.one
    rw [one_turn hr, one_turn hv] at h2
    simp only [hc _ _ h2, Dbl.nan_sub, Dbl.abs_nan, Dbl.nan_lt] at h
    cases h

/-! ### Aspheres -/

omit hG in
theorem radial_up {dzdr : Dbl → Dbl} {p : V3 Dbl} {w : V3 ℝ} (hp : Tame p) (h : radialNormal dzdr p.x p.y = w.fin) : 0 < w.z := by
  unfold radialNormal at h
  rcases hp with ⟨q, rfl⟩ | rfl
  · have hnn : 0 ≤ q.x * q.x + q.y * q.y := by nlinarith [mul_self_nonneg q.x, mul_self_nonneg q.y]
    simp only [V3.fin_x, V3.fin_y, Dbl.mul_fin, Dbl.add_fin, Dbl.sqrt_fin hnn, Dbl.zero_dbl, Dbl.one_dbl, Dbl.eq_fin, decide_eq_true_eq] at h
    split_ifs at h with h0
    · rw [V3.fin_mk, V3.fin_inj] at h; rw [← h]; norm_num
    · have hz := congrArg V3.z h
      have hx := congrArg V3.x h
      simp only [V3.fin_z, V3.fin_x, Dbl.neg_fin, Dbl.div_fin h0] at hz hx
      revert hz hx
      generalize dzdr (.fin (Real.sqrt (q.x * q.x + q.y * q.y))) = d
      rcases d with _ | _ | _ | d
      · simp
      · intro hz
        have e : Dbl.fin 1 / Arith.sqrt (Dbl.fin 1 + Dbl.pinf * Dbl.pinf) = .fin 0 := rfl
        rw [e]
        intro hx
        exfalso
        revert hx
        show Dbl.mul (Dbl.infMul _) (.fin 0) = _ → _
        unfold Dbl.infMul
        split_ifs <;> simp [Dbl.mul, Dbl.infMul]
      · intro hz
        have e : Dbl.fin 1 / Arith.sqrt (Dbl.fin 1 + Dbl.ninf * Dbl.ninf) = .fin 0 := rfl
        rw [e]
        intro hx
        exfalso
        revert hx
        show Dbl.mul (Dbl.infMul _) (.fin 0) = _ → _
        unfold Dbl.infMul
        split_ifs <;> simp [Dbl.mul, Dbl.infMul]
      · intro hz _
        have h1 : (0 : ℝ) < 1 + d * d := by nlinarith [mul_self_nonneg d]
        have h2 := Real.sqrt_pos.2 h1
        simp only [Dbl.mul_fin, Dbl.add_fin, Dbl.sqrt_fin h1.le, Dbl.div_fin h2.ne', Dbl.fin_inj] at hz
        rw [← hz]; positivity
  · have hx := congrArg V3.x h
    simp at hx

omit hG in
theorem asphereSagLoop_nan (r2 : Dbl) : ∀ (cs : List Dbl) (rr : Dbl), (asphereSagLoop r2 cs (rr, .nan)).2 = .nan
  | [], _ => rfl
  | c :: cs, rr => by simp only [asphereSagLoop, Dbl.nan_add]; exact asphereSagLoop_nan r2 cs _

omit hG in
theorem quadric_curved {R k : ℝ} (hR : R ≠ 0) : Curved (quadricSag (.fin R) (.fin k)) := by
  intro x y h
  have hr2 : x * x + y * y = .nan ∨ x * x + y * y = .pinf := by
    rcases x with _ | _ | _ | x
    · left; simp
    · rcases y with _ | _ | _ | y
      · left; simp
      · right; rfl
      · right; rfl
      · right; rfl
    · rcases y with _ | _ | _ | y
      · left; simp
      · right; rfl
      · right; rfl
      · right; rfl
    · rcases y with _ | _ | _ | y
      · left; simp
      · right; rfl
      · right; rfl
      · exact absurd ⟨⟨x, rfl⟩, ⟨y, rfl⟩⟩ h
  unfold quadricSag
  simp only [Dbl.zero_dbl, Dbl.eq_fin, hR, decide_false, Bool.false_eq_true, if_false]
  rcases hr2 with e | e
  · simp [e]
  · rw [e, Dbl.one_dbl, Dbl.add_fin, Dbl.div_fin hR, Dbl.div_fin hR]
    generalize (k + 1) / R / R = m
    have e1 : Dbl.pinf * Dbl.fin m = Dbl.infMul m := rfl
    rw [e1]
    unfold Dbl.infMul
    split_ifs with h1 h2
    · simp
    · have : Arith.sqrt (Dbl.fin 1 - Dbl.pinf) = .nan := rfl
      rw [this]; simp
    · have : Arith.sqrt (Dbl.fin 1 - Dbl.ninf) = .pinf := rfl
      rw [this]
      have e2 : Dbl.fin 1 + Dbl.pinf = .pinf := rfl
      have e3 : Dbl.fin R * Dbl.pinf = Dbl.infMul R := rfl
      rw [e2, e3]
      unfold Dbl.infMul
      split_ifs <;> rfl

omit hG in
theorem asphere_curved {R k : ℝ} (hR : R ≠ 0) (cs : List Dbl) : Curved (asphereSag (.fin R) (.fin k) cs) := by
  intro x y h
  unfold asphereSag
  rw [quadric_curved hR x y h, asphereSagLoop_nan]

theorem asphere_shape (R k : Dbl) (cs : List Dbl) : SymShape G (asphereSag R k cs) (radialNormal (asphereDzdr R k cs)) := by
  refine ⟨fun a => ?_, fun p hp => pair_radial hG _ hp, fun p w hp h => radial_up hp h⟩
  have e := turn_planar hG (tame_fin a) (tame_fin a)
  rw [M3.fin_mulVec] at e
  simp only [V3.fin_x, V3.fin_y] at e
  unfold asphereSag quadricSag
  simp only [e]

theorem sym_asphere {R : ℝ} (hR : R ≠ 0) (k : ℝ) (cs : List Dbl) : SymSurface G (asphere (.fin R) (.fin k) cs) := by
  refine ⟨fun r v hr hv dt n => ?_, fun r v hr hv dt n h => ?_, (asphere_shape hG _ _ cs).normal⟩
  · simp only [asphere]
    rw [quadric_time_turn hG _ _ hr hv]
    generalize quadricTime (Dbl.fin R) (Dbl.fin k) r v dt = q
    rcases q with ⟨_ | _, u⟩
    · rfl
    · exact newton_turn hG (asphere_shape hG _ _ cs) (asphere_curved hR cs) hr hv u n
  · simp only [asphere] at h ⊢
    revert h
    generalize quadricTime (Dbl.fin R) (Dbl.fin k) r v dt = q
    rcases q with ⟨_ | _, u⟩
    · simp
    · exact newton_meets (asphere_curved hR cs) hr hv u n

/-! ### Sums -/

omit hG in
theorem sumSag_nan (x y : Dbl) : ∀ (l : List (Surface Dbl)), l.foldl (fun acc s => acc + s.sag x y) Dbl.nan = .nan
  | [] => rfl
  | s :: l => by simp only [List.foldl_cons, Dbl.nan_add]; exact sumSag_nan x y l

omit hG in
theorem sum_curved {ss : List (Surface Dbl)} (h : ∃ s ∈ ss, Curved s.sag) : Curved (sumSag ss) := by
  intro x y hxy
  unfold sumSag
  generalize (0 : Dbl) = acc
  induction ss generalizing acc with
  | nil => simp at h
  | cons s l ih =>
    simp only [List.foldl_cons]
    obtain ⟨u, hu, hc⟩ := h
    rcases List.mem_cons.1 hu with rfl | hu
    · rw [hc x y hxy, Dbl.add_nan, sumSag_nan]
    · exact ih ⟨u, hu, hc⟩ _

/-- Two pairs of slopes: the second is the first one turned, or neither is defined. -/
def SlopePair (G : M3 ℝ) (g g' : Dbl × Dbl) : Prop :=
  (∃ w : V3 ℝ, g = (.fin w.x, .fin w.y) ∧ g' = (.fin (G.mulVec w).x, .fin (G.mulVec w).y)) ∨ (g = (.nan, .nan) ∧ g' = (.nan, .nan))

theorem slopePair_fold {p : V3 Dbl} (hp : Tame p) : ∀ (ss : List (Surface Dbl)), (∀ s ∈ ss, SymShape G s.sag s.normal) →
    ∀ g g' : Dbl × Dbl, SlopePair G g g' →
    SlopePair G
      (ss.foldl (fun (acc : Dbl × Dbl) s =>
        ((acc.1 + (s.normal p.x p.y).x / (s.normal p.x p.y).z, acc.2 + (s.normal p.x p.y).y / (s.normal p.x p.y).z))) g)
      (ss.foldl (fun (acc : Dbl × Dbl) s =>
        ((acc.1 + (s.normal (G.fin.mulVec p).x (G.fin.mulVec p).y).x / (s.normal (G.fin.mulVec p).x (G.fin.mulVec p).y).z,
          acc.2 + (s.normal (G.fin.mulVec p).x (G.fin.mulVec p).y).y / (s.normal (G.fin.mulVec p).x (G.fin.mulVec p).y).z))) g')
  | [], _, g, g', hg => hg
  | s :: ss, hs, g, g', hg => by
    simp only [List.foldl_cons]
    refine slopePair_fold hp ss (fun t ht => hs t (by simp [ht])) _ _ ?_
    have hn := (hs s (by simp)).normal p hp
    rcases hn with ⟨w, e1, e2⟩ | ⟨e1, e2, e3⟩
    · have hw := (hs s (by simp)).up p w hp e1
      rw [e1, e2]
      simp only [V3.fin_x, V3.fin_y, V3.fin_z, hG.height, Dbl.div_fin hw.ne']
      rcases hg with ⟨q, rfl, rfl⟩ | ⟨rfl, rfl⟩
      · refine .inl ⟨q + w.smulR (1 / w.z), ?_, ?_⟩
        · simp only [Dbl.add_fin, V3.add_x, V3.add_y, V3.smulR_x, V3.smulR_y]
          rw [mul_one_div, mul_one_div]
        · simp only [Dbl.add_fin, M3.mulVec_add, M3.mulVec_smulR, V3.add_x, V3.add_y, V3.smulR_x, V3.smulR_y]
          rw [mul_one_div, mul_one_div]
      · right; simp
    · rw [e3, e1, e2]
      right; simp

theorem sum_shape {ss : List (Surface Dbl)} (hs : ∀ s ∈ ss, SymShape G s.sag s.normal) : SymShape G (sumSag ss) (sumNormal ss) := by
  have fold : ∀ p, Tame p → SlopePair G _ _ := fun p hp =>
    slopePair_fold hG hp ss hs (0, 0) (0, 0) (.inl ⟨⟨0, 0, 0⟩, by simp, by simp [M3.mulVec]⟩)
  refine ⟨fun a => ?_, fun p hp => ?_, fun p w hp h => ?_⟩
  · unfold sumSag
    generalize (0 : Dbl) = acc
    induction ss generalizing acc with
    | nil => rfl
    | cons s l ih =>
      simp only [List.foldl_cons]
      rw [(hs s (by simp)).sag a]
      exact ih (fun t ht => hs t (by simp [ht])) (fun p hp =>
        slopePair_fold hG hp l (fun t ht => hs t (by simp [ht])) (0, 0) (0, 0) (.inl ⟨⟨0, 0, 0⟩, by simp, by simp [M3.mulVec]⟩)) _
  · unfold sumNormal
    rcases fold p hp with ⟨w, e1, e2⟩ | ⟨e1, e2⟩
    · simp only [e1, e2]
      have hpl := hG.planar w w
      have h1 : 0 < w.x * w.x + w.y * w.y + 1 := by nlinarith [mul_self_nonneg w.x, mul_self_nonneg w.y]
      have h2 := Real.sqrt_pos.2 h1
      refine .inl ⟨⟨w.x * (1 / Real.sqrt (w.x * w.x + w.y * w.y + 1)), w.y * (1 / Real.sqrt (w.x * w.x + w.y * w.y + 1)),
        1 / Real.sqrt (w.x * w.x + w.y * w.y + 1)⟩, ?_, ?_⟩
      · simp only [Dbl.mul_fin, Dbl.add_fin, Dbl.one_dbl, Dbl.sqrt_fin h1.le, Dbl.div_fin h2.ne', V3.fin_mk]
      · simp only [Dbl.mul_fin, Dbl.add_fin, Dbl.one_dbl, hpl, Dbl.sqrt_fin h1.le, Dbl.div_fin h2.ne', V3.fin_mk, V3.fin_inj]
        simp only [M3.mulVec, hG.m13, hG.m23, hG.m31, hG.m32, hG.m33]
        ext <;> simp only [] <;> ring
    · simp only [e1, e2]
      right; simp
  · unfold sumNormal at h
    rcases fold p hp with ⟨q, e1, e2⟩ | ⟨e1, e2⟩
    · have h1 : 0 < q.x * q.x + q.y * q.y + 1 := by nlinarith [mul_self_nonneg q.x, mul_self_nonneg q.y]
      have h2 := Real.sqrt_pos.2 h1
      simp only [e1, Dbl.mul_fin, Dbl.add_fin, Dbl.one_dbl, Dbl.sqrt_fin h1.le, Dbl.div_fin h2.ne', V3.fin_mk, V3.fin_inj] at h
      rw [← h]; simp only []; positivity
    · simp only [e1] at h
      have := congrArg V3.x h
      simp at this

/-- A sum of symmetric surfaces, not all of them planes. -/
theorem sym_sum {s : Surface Dbl} {ss : List (Surface Dbl)} (h0 : SymSurface G s) (hs : ∀ t ∈ s :: ss, SymShape G t.sag t.normal)
    (hc : ∃ t ∈ s :: ss, Curved t.sag) : SymSurface G (Surface.sum (s :: ss)) := by
  refine ⟨fun r v hr hv dt n => ?_, fun r v hr hv dt n h => ?_, (sum_shape hG hs).normal⟩
  · simp only [Surface.sum, sumTime]
    rw [h0.time r v hr hv]
    generalize s.timeToIntersect r v dt n = q
    rcases q with ⟨_ | _, u⟩
    · rfl
    · exact newton_turn hG (sum_shape hG hs) (sum_curved hc) hr hv u n
  · simp only [Surface.sum, sumTime] at h ⊢
    revert h
    generalize s.timeToIntersect r v dt n = q
    rcases q with ⟨_ | _, u⟩
    · simp
    · exact newton_meets (sum_curved hc) hr hv u n

end

/-! ### What sums may be made of -/

section
variable {G : M3 ℝ} (hG : Axial G)
include hG

theorem plane_shape : SymShape G (plane (F := Dbl)).sag (plane (F := Dbl)).normal := by
  refine ⟨fun a => rfl, fun p hp => pair_up hG, fun p w hp h => ?_⟩
  have := congrArg V3.z h
  simp only [plane, V3.fin_z, Dbl.one_dbl, Dbl.fin_inj] at this
  rw [← this]; exact one_pos

theorem quadric_shape (R k : Dbl) : SymShape G (quadric R k).sag (quadric R k).normal := by
  refine ⟨fun a => ?_, fun p hp => pair_radial hG _ hp, fun p w hp h => radial_up hp h⟩
  have e := turn_planar hG (tame_fin a) (tame_fin a)
  rw [M3.fin_mulVec] at e
  simp only [V3.fin_x, V3.fin_y] at e
  simp only [quadric, quadricSag, e]

theorem sphere_shape {R : ℝ} (hR : R ≠ 0) : SymShape G (sphere (.fin R)).sag (sphere (.fin R)).normal := by
  refine ⟨fun a => ?_, (sym_sphere hG hR).normal, fun p w hp h => ?_⟩
  · have e := turn_planar hG (tame_fin a) (tame_fin a)
    rw [M3.fin_mulVec] at e
    simp only [V3.fin_x, V3.fin_y] at e
    simp only [sphere, sphereSag, e]
  · simp only [sphere] at h
    rw [sphere_radial hG hR hp] at h
    exact radial_up hp h

theorem paraboloid_shape {R : ℝ} (hR : R ≠ 0) : SymShape G (paraboloid (.fin R)).sag (paraboloid (.fin R)).normal := by
  refine ⟨fun a => ?_, (sym_paraboloid hG hR).normal, fun p w hp h => ?_⟩
  · have e := turn_planar hG (tame_fin a) (tame_fin a)
    rw [M3.fin_mulVec] at e
    simp only [V3.fin_x, V3.fin_y] at e
    simp only [paraboloid, paraboloidSag, e]
  · simp only [paraboloid, paraboloidNormal, Dbl.zero_dbl, Dbl.eq_fin, hR, decide_false, Bool.false_eq_true, if_false] at h
    have hz := congrArg V3.z h
    rcases hp with ⟨q, rfl⟩ | rfl
    · have hp1 : 0 < 1 + (q.x * q.x + q.y * q.y) * (1 / R) * (1 / R) := by
        have : 0 ≤ (q.x * q.x + q.y * q.y) * ((1 / R) * (1 / R)) :=
          mul_nonneg (by nlinarith [mul_self_nonneg q.x, mul_self_nonneg q.y]) (mul_self_nonneg _)
        nlinarith
      simp only [V3.fin_x, V3.fin_y, V3.fin_z, Dbl.mul_fin, Dbl.add_fin, Dbl.one_dbl, Dbl.div_fin hR, Dbl.sqrt_fin hp1.le,
        Dbl.div_fin (Real.sqrt_pos.2 hp1).ne', Dbl.fin_inj] at hz
      rw [← hz]; exact one_div_pos.2 (Real.sqrt_pos.2 hp1)
    · simp at hz

omit hG in
theorem sphere_curved {R : ℝ} (hR : R ≠ 0) : Curved (sphere (.fin R)).sag := by
  intro x y h
  have hr2 : x * x + y * y = .nan ∨ x * x + y * y = .pinf := by
    rcases x with _ | _ | _ | x
    · left; simp
    · rcases y with _ | _ | _ | y
      · left; simp
      all_goals right; rfl
    · rcases y with _ | _ | _ | y
      · left; simp
      all_goals right; rfl
    · rcases y with _ | _ | _ | y
      · left; simp
      · right; rfl
      · right; rfl
      · exact absurd ⟨⟨x, rfl⟩, ⟨y, rfl⟩⟩ h
  have hpos : 0 < 1 / R / R := by
    rw [div_div]; exact one_div_pos.2 (mul_self_pos.2 hR)
  simp only [sphere, sphereSag, Dbl.zero_dbl, Dbl.one_dbl, Dbl.eq_fin, hR, decide_false, Bool.false_eq_true, if_false, Dbl.div_fin hR]
  rcases hr2 with e | e
  · rw [e]; simp
  · rw [e]
    have : (Dbl.pinf * Dbl.fin (1 / R / R) : Dbl) = .pinf := by
      change Dbl.infMul (1 / R / R) = _
      unfold Dbl.infMul
      rw [if_neg hpos.ne', if_pos hpos]
    rw [this]
    have e2 : (Dbl.fin 1 - Dbl.pinf : Dbl) = .ninf := rfl
    have e3 : Arith.sqrt Dbl.ninf = (.nan : Dbl) := rfl
    rw [e2, e3]; simp

end

/-! ## The surface operations -/

/-- Position and velocity of a ray are numbers, or NaN in all components. -/
def TameRay (ray : Ray Dbl) : Prop := Tame ray.r ∧ Tame ray.v

theorem turn_step {G : M3 ℝ} {r v : V3 Dbl} {dt : Dbl} (hr : Tame r) (hv : Tame v) (h : Tame (r + v.smulR dt)) :
    G.fin.mulVec r + (G.fin.mulVec v).smulR dt = G.fin.mulVec (r + v.smulR dt) := by
  rcases step_cases hr hv dt with ⟨a, b, t, rfl, rfl, rfl⟩ | h'
  · simp only [M3.fin_mulVec, V3.fin_smulR, V3.fin_add, M3.mulVec_smulR, M3.mulVec_add]
  · have e : r + v.smulR dt = ⟨.nan, .nan, .nan⟩ := by
      rcases h with ⟨w, hw⟩ | h
      · have h2 := h' M3.one
        rw [one_turn hr, one_turn hv, hw] at h2
        simp at h2
      · exact h
    rw [e, mulVec_nan]
    rcases hr with ⟨a, rfl⟩ | rfl
    · rcases hv with ⟨b, rfl⟩ | rfl
      · have hdt : dt = .nan ∨ ((dt = .pinf ∨ dt = .ninf) ∧ b = ⟨0, 0, 0⟩) := by
          rcases dt with _ | _ | _ | t
          · exact .inl rfl
          · refine .inr ⟨.inl rfl, ?_⟩
            have key : ∀ p q : ℝ, Dbl.fin p + Dbl.fin q * Dbl.pinf = .nan → q = 0 := by
              intro p q hq
              have hq' : Dbl.fin p + Dbl.infMul q = .nan := hq
              unfold Dbl.infMul at hq'
              split_ifs at hq' with h1 h2
              · exact h1
              · cases hq'
              · cases hq'
            have ex := congrArg V3.x e; have ey := congrArg V3.y e; have ez := congrArg V3.z e
            simp only [V3.add_x, V3.add_y, V3.add_z, V3.smulR_x, V3.smulR_y, V3.smulR_z, V3.fin_x, V3.fin_y, V3.fin_z] at ex ey ez
            ext
            · exact key _ _ ex
            · exact key _ _ ey
            · exact key _ _ ez
          · refine .inr ⟨.inr rfl, ?_⟩
            have key : ∀ p q : ℝ, Dbl.fin p + Dbl.fin q * Dbl.ninf = .nan → q = 0 := by
              intro p q hq
              have hq' : Dbl.fin p + Dbl.infMul (-q) = .nan := hq
              unfold Dbl.infMul at hq'
              split_ifs at hq' with h1 h2
              · exact neg_eq_zero.1 h1
              · cases hq'
              · cases hq'
            have ex := congrArg V3.x e; have ey := congrArg V3.y e; have ez := congrArg V3.z e
            simp only [V3.add_x, V3.add_y, V3.add_z, V3.smulR_x, V3.smulR_y, V3.smulR_z, V3.fin_x, V3.fin_y, V3.fin_z] at ex ey ez
            ext
            · exact key _ _ ex
            · exact key _ _ ey
            · exact key _ _ ez
          · rw [V3.fin_smulR, V3.fin_add] at e
            have := congrArg V3.x e; simp at this
        rcases hdt with rfl | ⟨hi, rfl⟩
        · ext <;> simp
        · have e0 : G.mulVec (⟨0, 0, 0⟩ : V3 ℝ) = ⟨0, 0, 0⟩ := by ext <;> simp [M3.mulVec]
          rw [M3.fin_mulVec, M3.fin_mulVec, e0]
          rcases hi with rfl | rfl <;> ext <;> simp [HMul.hMul, Mul.mul, Dbl.mul, Dbl.infMul]
      · rw [mulVec_nan]; ext <;> simp
    · rw [mulVec_nan]; ext <;> simp

section
variable {G : M3 ℝ} (hG : Axial G)
include hG

/-- The cosine of incidence does not change. -/
theorem pair_dot {v n n' : V3 Dbl} (hv : Tame v) (hn : NormalPair G n n') : V3.dot (G.fin.mulVec v) n' = V3.dot v n := by
  rcases hn with ⟨w, rfl, rfl⟩ | ⟨h1, h2, rfl⟩
  · rw [← M3.fin_mulVec]; exact turn_dot hG hv (tame_fin w)
  · simp [V3.dot, h1, h2]

theorem turn_reflected {v n n' : V3 Dbl} (hv : Tame v) (hn : NormalPair G n n') :
    G.fin.mulVec v - V3.smul (2 * V3.dot (G.fin.mulVec v) n') n' = G.fin.mulVec (v - V3.smul (2 * V3.dot v n) n) ∧
      Tame (v - V3.smul (2 * V3.dot v n) n) := by
  rw [pair_dot hG hv hn]
  rcases hn with ⟨w, rfl, rfl⟩ | ⟨h1, h2, rfl⟩
  · rcases hv with ⟨b, rfl⟩ | rfl
    · simp only [V3.fin_dot, Dbl.ofNat_dbl', Dbl.mul_fin, V3.fin_smul, M3.fin_mulVec, V3.fin_sub, V3.fin_inj]
      refine ⟨?_, tame_fin _⟩
      rw [M3.mulVec_sub]
      congr 1
      ext <;> simp [M3.mulVec] <;> ring
    · rw [mulVec_nan]
      have e : (⟨Dbl.nan, Dbl.nan, Dbl.nan⟩ : V3 Dbl) - V3.smul (2 * V3.dot ⟨Dbl.nan, Dbl.nan, Dbl.nan⟩ w.fin) w.fin = ⟨.nan, .nan, .nan⟩ := by
        ext <;> simp
      have e' : (⟨Dbl.nan, Dbl.nan, Dbl.nan⟩ : V3 Dbl) - V3.smul (2 * V3.dot ⟨Dbl.nan, Dbl.nan, Dbl.nan⟩ w.fin) (G.mulVec w).fin
          = ⟨.nan, .nan, .nan⟩ := by
        ext <;> simp
      rw [e, e', mulVec_nan]
      exact ⟨rfl, tame_nan⟩
  · have hd : V3.dot v n' = .nan := by simp [V3.dot, h1, h2]
    have e : ∀ u : V3 Dbl, u - V3.smul (2 * V3.dot v n') n' = ⟨.nan, .nan, .nan⟩ := by
      intro u; rw [hd]; ext <;> simp
    rw [e, e, mulVec_nan]
    exact ⟨rfl, tame_nan⟩

omit hG in
theorem refractDir_nan {n2 : Dbl} {n v : V3 Dbl} (h : V3.dot (v.smulR (Ray.invSpeed v)) n = .nan ∨ n2 = .nan) :
    Ray.refractDir n2 n v = some ⟨.nan, .nan, .nan⟩ := by
  unfold Ray.refractDir
  rcases h with h | rfl
  · have ho : Ray.orient n (v.smulR (Ray.invSpeed v)) = (n, .nan) := by
      unfold Ray.orient; rw [h]; simp [Arith.gt]
    simp only [ho, Dbl.mul_nan, Dbl.sub_nan, Arith.gt, Dbl.lt_nan, Bool.false_eq_true, if_false, Dbl.nan_add]
    congr 1
    ext <;> simp
  · simp only [Dbl.div_nan, Dbl.nan_mul, Arith.gt, Dbl.lt_nan, Bool.false_eq_true, if_false, Dbl.nan_add]

/-- The refracted velocity of real vectors. -/
noncomputable def bent (m : ℝ) (n v : V3 ℝ) : Option (V3 ℝ) :=
  let k := 1 / Real.sqrt (V3.dot v v)
  let α := V3.dot (v.smulR k) n
  let σ : ℝ := if 0 < α then -1 else 1
  let s := k / m * (k / m) * (1 - α * σ * (α * σ))
  if 1 < s then none
  else some (((V3.smul (k / m) (v.smulR k) - V3.smul ((k / m * (α * σ) + Real.sqrt (1 - s))) (n.smulR σ))).smulR (1 / m))

omit hG in
theorem refractDir_bent {m : ℝ} (hm : m ≠ 0) (n : V3 ℝ) {v : V3 ℝ} (hv : v ≠ ⟨0, 0, 0⟩) :
    Ray.refractDir (.fin m) n.fin v.fin = (bent m n v).map V3.fin := by
  have hp : 0 < V3.dot v v := V3.normSq_pos hv
  have hs := (Real.sqrt_pos.2 hp).ne'
  have hk : Ray.invSpeed v.fin = .fin (1 / Real.sqrt (V3.dot v v)) := by
    simp only [Ray.invSpeed, V3.fin_dot, Dbl.one_dbl, Dbl.sqrt_fin hp.le, Dbl.div_fin hs]
  unfold Ray.refractDir bent
  simp only [hk]
  generalize 1 / Real.sqrt (V3.dot v v) = k
  have ho : Ray.orient n.fin (v.fin.smulR (.fin k)) =
      ((n.smulR (if 0 < V3.dot (v.smulR k) n then -1 else 1)).fin, .fin (V3.dot (v.smulR k) n * if 0 < V3.dot (v.smulR k) n then -1 else 1)) := by
    unfold Ray.orient
    simp only [V3.fin_smulR, V3.fin_dot, Dbl.zero_dbl, Dbl.gt_fin, decide_eq_true_eq, Dbl.const_dbl]
    split_ifs
    · simp
    · simp only [mul_one, Prod.mk.injEq, and_true]
      ext <;> simp
  rw [ho]
  generalize (if 0 < V3.dot (v.smulR k) n then (-1 : ℝ) else 1) = σ
  simp only [Dbl.div_fin hm, Dbl.mul_fin, Dbl.one_dbl, Dbl.sub_fin, Dbl.gt_fin, decide_eq_true_eq, V3.fin_smulR, V3.fin_smul]
  split_ifs with h
  · rfl
  · have h' : 0 ≤ 1 - k / m * (k / m) * (1 - V3.dot (v.smulR k) n * σ * (V3.dot (v.smulR k) n * σ)) := by linarith [not_lt.1 h]
    simp only [Dbl.sqrt_fin h', Dbl.add_fin, V3.fin_smul, V3.fin_sub, Option.map_some, V3.fin_x, V3.fin_y, V3.fin_z, Dbl.div_fin hm]
    congr 1
    ext <;> simp [div_eq_mul_inv]

theorem bent_turn (m : ℝ) (n v : V3 ℝ) : bent m (G.mulVec n) (G.mulVec v) = (bent m n v).map G.mulVec := by
  unfold bent
  simp only [← M3.mulVec_smulR, hG.orth.dot_mulVec]
  split_ifs
  · rfl
  · rw [Option.map_some]
    congr 1
    ext <;> simp [M3.mulVec] <;> ring
  · rfl
  · rw [Option.map_some]
    congr 1
    ext <;> simp [M3.mulVec] <;> ring

/-- What refraction makes of a velocity turns with it; an index is a nonzero number or NaN. -/
theorem turn_refractDir {m : Dbl} (hm : m = .nan ∨ ∃ q : ℝ, q ≠ 0 ∧ m = .fin q) {v n n' : V3 Dbl} (hv : Tame v) (hn : NormalPair G n n') :
    Ray.refractDir m n' (G.fin.mulVec v) = (Ray.refractDir m n v).map (G.fin.mulVec ·) ∧ ∀ u, Ray.refractDir m n v = some u → Tame u := by
  have bad : (V3.dot (v.smulR (Ray.invSpeed v)) n = .nan ∧ V3.dot ((G.fin.mulVec v).smulR (Ray.invSpeed (G.fin.mulVec v))) n' = .nan) ∨ m = .nan →
      Ray.refractDir m n' (G.fin.mulVec v) = (Ray.refractDir m n v).map (G.fin.mulVec ·) ∧ ∀ u, Ray.refractDir m n v = some u → Tame u := by
    intro h
    have e1 : Ray.refractDir m n v = some ⟨.nan, .nan, .nan⟩ := refractDir_nan (by rcases h with h | h; exacts [.inl h.1, .inr h])
    have e2 : Ray.refractDir m n' (G.fin.mulVec v) = some ⟨.nan, .nan, .nan⟩ :=
      refractDir_nan (by rcases h with h | h; exacts [.inl h.2, .inr h])
    rw [e1, e2]
    refine ⟨by simp [mulVec_nan], ?_⟩
    rintro u hu
    cases hu; exact tame_nan
  rcases hm with rfl | ⟨q, hq, rfl⟩
  · exact bad (.inr rfl)
  · rcases hv with ⟨b, rfl⟩ | rfl
    · rcases hn with ⟨w, rfl, rfl⟩ | ⟨h1, h2, rfl⟩
      · by_cases hb : b = ⟨0, 0, 0⟩
        · apply bad
          left
          subst hb
          have e0 : G.mulVec (⟨0, 0, 0⟩ : V3 ℝ) = ⟨0, 0, 0⟩ := by ext <;> simp [M3.mulVec]
          rw [M3.fin_mulVec, e0]
          have e1 : Ray.invSpeed (⟨0, 0, 0⟩ : V3 ℝ).fin = .pinf := by
            have e3 : V3.dot (⟨0, 0, 0⟩ : V3 ℝ) ⟨0, 0, 0⟩ = 0 := by simp [V3.dot]
            simp only [Ray.invSpeed, V3.fin_dot, e3, Dbl.sqrt_fin le_rfl, Real.sqrt_zero, Dbl.one_dbl]
            exact Dbl.pos_div_zero one_pos
          have e2 : (⟨0, 0, 0⟩ : V3 ℝ).fin.smulR Dbl.pinf = ⟨.nan, .nan, .nan⟩ := by
            ext <;> simp [HMul.hMul, Mul.mul, Dbl.mul, Dbl.infMul]
          rw [e1, e2]
          exact ⟨by simp [V3.dot], by simp [V3.dot]⟩
        · have hGb : G.mulVec b ≠ ⟨0, 0, 0⟩ := by
            intro h
            apply hb
            rw [← hG.orth.tr_mulVec b, h]; ext <;> simp [M3.mulVec]
          rw [M3.fin_mulVec, refractDir_bent hq _ hGb, refractDir_bent hq _ hb, bent_turn hG]
          refine ⟨?_, ?_⟩
          · rw [Option.map_map, Option.map_map]
            cases bent q w b
            · rfl
            · exact congrArg some (M3.fin_mulVec G _).symm
          · intro u hu
            rw [Option.map_eq_some_iff] at hu
            obtain ⟨w', -, rfl⟩ := hu
            exact tame_fin _
      · apply bad; left
        exact ⟨by simp [V3.dot, h1, h2], by simp [V3.dot, h1, h2]⟩
    · apply bad; left
      rw [mulVec_nan]
      exact ⟨by simp [V3.dot], by simp [V3.dot]⟩

variable {a b : CoordSys Dbl} (ha : SymFrame G a) (hb : SymFrame G b) {s : Surface Dbl} (hs : SymSurface G s)
include ha hb hs

theorem turn_intersect (niter : ℕ) {ray : Ray Dbl} (h : TameRay ray) :
    Ray.intersect s (CoordTransform.make a b) none niter (turnRay G ray) = turnRay G (Ray.intersect s (CoordTransform.make a b) none niter ray) ∧
      TameRay (Ray.intersect s (CoordTransform.make a b) none niter ray) := by
  obtain ⟨fr, tr⟩ := turn_forward ha hb h.1
  obtain ⟨fv, tv⟩ := turn_forwardVel ha hb h.2
  unfold Ray.intersect
  simp only [turnRay, fr, fv, hs.time _ _ tr tv]
  have hm := hs.meets _ _ tr tv 0 niter
  revert hm
  generalize s.timeToIntersect _ _ 0 niter = q
  rcases q with ⟨_ | _, dt⟩ <;> intro hm
  · split_ifs
    · exact ⟨rfl, h⟩
    · exact ⟨rfl, h⟩
  · split_ifs
    · exact ⟨rfl, h⟩
    · simp only [turn_step tr tv (hm rfl)]
      exact ⟨trivial, hm rfl, tv⟩

theorem turn_reflect (niter : ℕ) {ray : Ray Dbl} (h : TameRay ray) :
    Ray.reflect s (CoordTransform.make a b) none niter (turnRay G ray) = turnRay G (Ray.reflect s (CoordTransform.make a b) none niter ray) ∧
      TameRay (Ray.reflect s (CoordTransform.make a b) none niter ray) := by
  obtain ⟨fr, tr⟩ := turn_forward ha hb h.1
  obtain ⟨fv, tv⟩ := turn_forwardVel ha hb h.2
  unfold Ray.reflect
  simp only [turnRay, fr, fv, hs.time _ _ tr tv]
  have hm := hs.meets _ _ tr tv 0 niter
  revert hm
  generalize s.timeToIntersect _ _ 0 niter = q
  rcases q with ⟨_ | _, dt⟩ <;> intro hm
  · split_ifs
    · exact ⟨rfl, h⟩
    · exact ⟨rfl, h⟩
  · split_ifs
    · exact ⟨rfl, h⟩
    · obtain ⟨e1, e2⟩ := turn_reflected hG tv (hs.normal _ (hm rfl))
      simp only [turn_step tr tv (hm rfl), e1]
      exact ⟨trivial, hm rfl, e2⟩

theorem turn_refract (m : Medium Dbl) (niter : ℕ) {ray : Ray Dbl} (h : TameRay ray)
    (hm : m.getN ray.wavelength = .nan ∨ ∃ q : ℝ, q ≠ 0 ∧ m.getN ray.wavelength = .fin q) :
    Ray.refract s (CoordTransform.make a b) m none niter (turnRay G ray) = turnRay G (Ray.refract s (CoordTransform.make a b) m none niter ray) ∧
      TameRay (Ray.refract s (CoordTransform.make a b) m none niter ray) := by
  obtain ⟨fr, tr⟩ := turn_forward ha hb h.1
  obtain ⟨fv, tv⟩ := turn_forwardVel ha hb h.2
  unfold Ray.refract
  simp only [turnRay, fr, fv, hs.time _ _ tr tv]
  have hmt := hs.meets _ _ tr tv 0 niter
  revert hmt
  generalize s.timeToIntersect _ _ 0 niter = q
  rcases q with ⟨_ | _, dt⟩ <;> intro hmt
  · split_ifs
    · exact ⟨rfl, h⟩
    · exact ⟨rfl, h⟩
  · split_ifs
    · exact ⟨rfl, h⟩
    · obtain ⟨e1, e2⟩ := turn_refractDir hG hm tv (hs.normal _ (hmt rfl))
      simp only [turn_step tr tv (hmt rfl), e1]
      revert e2
      generalize Ray.refractDir (m.getN ray.wavelength) _ _ = o
      rcases o with _ | u <;> intro e2
      · simp only [Option.map_none]
        refine ⟨?_, hmt rfl, tame_nan⟩
        have := mulVec_nan G
        simp only [Ray.mk.injEq, true_and, and_true]
        exact this.symm
      · exact ⟨rfl, hmt rfl, e2 u rfl⟩

end

/-! ## Phase screens -/

/-- Wherever the reported normal is defined it has length one and points up. -/
def Upright (s : Surface Dbl) : Prop := ∀ (p : V3 Dbl) (w : V3 ℝ), Tame p → s.normal p.x p.y = w.fin → IsUnit' w ∧ 0 < w.z

theorem upright_plane : Upright plane := by
  intro p w _ h
  simp only [plane, Dbl.zero_dbl, Dbl.one_dbl, V3.fin_mk, V3.fin_inj] at h
  subst h
  exact ⟨demo_unit, one_pos⟩

theorem upright_radial {s : Surface Dbl} {dzdr : Dbl → Dbl} (hs : ∀ p, Tame p → s.normal p.x p.y = radialNormal dzdr p.x p.y) : Upright s := by
  intro p w hp h
  rw [hs p hp] at h
  refine ⟨?_, radial_up hp h⟩
  unfold radialNormal at h
  rcases hp with ⟨q, rfl⟩ | rfl
  · have hnn : 0 ≤ q.x * q.x + q.y * q.y := by nlinarith [mul_self_nonneg q.x, mul_self_nonneg q.y]
    have hsq := Real.mul_self_sqrt hnn
    simp only [V3.fin_x, V3.fin_y, Dbl.mul_fin, Dbl.add_fin, Dbl.sqrt_fin hnn, Dbl.zero_dbl, Dbl.one_dbl, Dbl.eq_fin, decide_eq_true_eq] at h
    split_ifs at h with h0
    · rw [V3.fin_mk, V3.fin_inj] at h; rw [← h]; exact demo_unit
    · simp only [Dbl.neg_fin, Dbl.div_fin h0] at h
      revert h
      generalize hk : Real.sqrt (q.x * q.x + q.y * q.y) = k at *
      generalize dzdr (.fin k) = d
      rcases d with _ | _ | _ | d
      · intro h; have := congrArg V3.z h; simp at this
      · intro h
        have := congrArg V3.x h
        have e : Dbl.fin 1 / Arith.sqrt (Dbl.fin 1 + Dbl.pinf * Dbl.pinf) = Dbl.fin 0 := rfl
        rw [e] at this
        simp only [V3.fin_x] at this
        revert this
        change Dbl.infMul (-q.x / k) * Dbl.fin 0 = _ → _
        unfold Dbl.infMul
        split_ifs
        · simp
        · intro h9; change Dbl.infMul 0 = _ at h9; simp [Dbl.infMul] at h9
        · intro h9; change Dbl.infMul (-0) = _ at h9; simp [Dbl.infMul] at h9
      · intro h
        have := congrArg V3.x h
        have e : Dbl.fin 1 / Arith.sqrt (Dbl.fin 1 + Dbl.ninf * Dbl.ninf) = Dbl.fin 0 := rfl
        rw [e] at this
        simp only [V3.fin_x] at this
        revert this
        change Dbl.infMul (-(-q.x / k)) * Dbl.fin 0 = _ → _
        unfold Dbl.infMul
        split_ifs
        · simp
        · intro h9; change Dbl.infMul 0 = _ at h9; simp [Dbl.infMul] at h9
        · intro h9; change Dbl.infMul (-0) = _ at h9; simp [Dbl.infMul] at h9
      · have h1 : 0 < 1 + d * d := by nlinarith [mul_self_nonneg d]
        have h2 := Real.sqrt_pos.2 h1
        have h3 := Real.mul_self_sqrt h1.le
        simp only [Dbl.mul_fin, Dbl.add_fin, Dbl.sqrt_fin h1.le, Dbl.div_fin h2.ne', V3.fin_mk, V3.fin_inj]
        intro h
        subst h
        simp only [IsUnit', V3.dot]
        generalize Real.sqrt (1 + d * d) = m at h2 h3
        have hm := h2.ne'
        field_simp
        linear_combination (-d ^ 2) * hsq - k ^ 2 * h3
  · have := congrArg V3.x h; simp at this

theorem upright_quadric (R k : Dbl) : Upright (quadric R k) := upright_radial (dzdr := quadricDzdr R k) fun _ _ => rfl

theorem upright_asphere (R k : Dbl) (cs : List Dbl) : Upright (asphere R k cs) := upright_radial (dzdr := asphereDzdr R k cs) fun _ _ => rfl

theorem upright_sphere {R : ℝ} (hR : R ≠ 0) : Upright (sphere (.fin R)) :=
  upright_radial (dzdr := sphereDzdr (.fin R)) fun _ hp => sphere_radial axial_flipY hR hp

theorem upright_paraboloid {R : ℝ} (hR : R ≠ 0) : Upright (paraboloid (.fin R)) := by
  intro p w hp h
  refine ⟨?_, (paraboloid_shape axial_flipY hR).up p w hp h⟩
  simp only [paraboloid, paraboloidNormal, Dbl.zero_dbl, Dbl.eq_fin, hR, decide_false, Bool.false_eq_true, if_false] at h
  rcases hp with ⟨q, rfl⟩ | rfl
  · have hp1 : 0 < 1 + (q.x * q.x + q.y * q.y) * (1 / R) * (1 / R) := by
      have : 0 ≤ (q.x * q.x + q.y * q.y) * ((1 / R) * (1 / R)) :=
        mul_nonneg (by nlinarith [mul_self_nonneg q.x, mul_self_nonneg q.y]) (mul_self_nonneg _)
      nlinarith
    have h2 := Real.sqrt_pos.2 hp1
    have h3 := Real.mul_self_sqrt hp1.le
    simp only [V3.fin_x, V3.fin_y, Dbl.mul_fin, Dbl.add_fin, Dbl.one_dbl, Dbl.div_fin hR, Dbl.sqrt_fin hp1.le, Dbl.neg_fin,
      Dbl.div_fin h2.ne', V3.fin_mk, V3.fin_inj] at h
    subst h
    simp only [IsUnit', V3.dot]
    generalize Real.sqrt (1 + (q.x * q.x + q.y * q.y) * (1 / R) * (1 / R)) = m at h2 h3
    have hm := h2.ne'
    field_simp at h3 ⊢
    linear_combination -h3
  · have := congrArg V3.x h; simp at this

section
variable {G : M3 ℝ} (hG : Axial G)
include hG

theorem turn_slope {s : Surface Dbl} (h : SymShape G s.sag s.normal) {p : V3 Dbl} (hp : Tame p) :
    SlopePair G (s.grad p.x p.y) (s.grad (G.fin.mulVec p).x (G.fin.mulVec p).y) := by
  unfold Surface.grad
  rcases h.normal p hp with ⟨w, e1, e2⟩ | ⟨e1, e2, e3⟩
  · have hw := h.up p w hp e1
    simp only [e1, e2, V3.fin_x, V3.fin_y, V3.fin_z, hG.height, Dbl.neg_fin, Dbl.div_fin hw.ne', Dbl.isNaN_fin, Bool.false_eq_true, if_false]
    refine .inl ⟨w.smulR (-1 / w.z), ?_, ?_⟩
    · simp only [V3.smulR_x, V3.smulR_y, Prod.mk.injEq, Dbl.fin_inj]
      constructor <;> ring
    · simp only [M3.mulVec_smulR, V3.smulR_x, V3.smulR_y, Prod.mk.injEq, Dbl.fin_inj]
      constructor <;> ring
  · simp only [e3, e1, Dbl.isNaN_nan, if_true]
    exact .inr ⟨rfl, rfl⟩

theorem turn_sag {s : Surface Dbl} (h : SymShape G s.sag s.normal) {p : V3 Dbl} (hp : Tame p) :
    s.sag (G.fin.mulVec p).x (G.fin.mulVec p).y = s.sag p.x p.y := by
  rcases hp with ⟨w, rfl⟩ | rfl
  · rw [M3.fin_mulVec]; exact h.sag w
  · rw [mulVec_nan]

theorem turn_grad3 (w : V3 ℝ) : grad3 ((G.mulVec w).x, (G.mulVec w).y) = G.mulVec (grad3 (w.x, w.y)) := by
  ext <;> simp [grad3, M3.mulVec, hG.m13, hG.m23, hG.m31, hG.m32]

theorem turn_bent (n v w : V3 ℝ) :
    bentTangent (G.mulVec n) (G.mulVec v) ((G.mulVec w).x, (G.mulVec w).y) = G.mulVec (bentTangent n v (w.x, w.y)) := by
  unfold bentTangent tangential screenSign speed
  rw [turn_grad3 hG]
  simp only [← M3.mulVec_smulR, hG.orth.dot_mulVec, V3.normSq]
  split_ifs <;> (ext <;> simp [M3.mulVec] <;> ring)

omit hG in
theorem screenDir_wild {n v : V3 Dbl} {g : Dbl × Dbl}
    (h : v = V3.fin ⟨0, 0, 0⟩ ∨ v = ⟨.nan, .nan, .nan⟩ ∨ n.x = .nan ∨ g = (.nan, .nan)) : Ray.screenDir n g v = ⟨.nan, .nan, .nan⟩ := by
  have key : v.x * (1 / Arith.sqrt (V3.dot v v)) * (n.z / Arith.sqrt (n.z * n.z + n.x * n.x)) = .nan ∨
      g.1 * (n.z / Arith.sqrt (n.z * n.z + n.x * n.x)) = .nan := by
    rcases h with rfl | rfl | h | rfl
    · left
      have e3 : V3.dot (⟨0, 0, 0⟩ : V3 ℝ) ⟨0, 0, 0⟩ = 0 := by simp [V3.dot]
      have e1 : (Dbl.fin 1 / Dbl.fin 0 : Dbl) = .pinf := Dbl.pos_div_zero one_pos
      simp only [V3.fin_dot, e3, Dbl.sqrt_fin le_rfl, Real.sqrt_zero, Dbl.one_dbl, e1, V3.fin_x]
      have e2 : (Dbl.fin 0 * Dbl.pinf : Dbl) = .nan := by
        change Dbl.infMul 0 = _; simp [Dbl.infMul]
      rw [e2, Dbl.nan_mul]
    · left; simp
    · left; rw [h]; simp
    · right; simp
  unfold Ray.screenDir
  rcases key with e | e
  · simp only [e, Dbl.nan_add, Dbl.nan_sub, ite_self, Dbl.nan_mul]
  · simp only [e, Dbl.nan_add, Dbl.add_nan, Dbl.sub_nan, ite_self, Dbl.nan_mul]

theorem turn_screenDir {n n' : V3 Dbl} (hn : NormalPair G n n') (hu : ∀ w : V3 ℝ, n = w.fin → IsUnit' w ∧ 0 < w.z) {g g' : Dbl × Dbl}
    (hg : SlopePair G g g') {v : V3 Dbl} (hv : Tame v) :
    Ray.screenDir n' g' (G.fin.mulVec v) = G.fin.mulVec (Ray.screenDir n g v) ∧ Tame (Ray.screenDir n g v) := by
  have bad : Ray.screenDir n g v = ⟨.nan, .nan, .nan⟩ → Ray.screenDir n' g' (G.fin.mulVec v) = ⟨.nan, .nan, .nan⟩ →
      Ray.screenDir n' g' (G.fin.mulVec v) = G.fin.mulVec (Ray.screenDir n g v) ∧ Tame (Ray.screenDir n g v) := by
    intro h1 h2
    rw [h1, h2, mulVec_nan]
    exact ⟨rfl, tame_nan⟩
  rcases hv with ⟨b, rfl⟩ | rfl
  · by_cases hb : b = ⟨0, 0, 0⟩
    · subst hb
      have e0 : G.mulVec (⟨0, 0, 0⟩ : V3 ℝ) = ⟨0, 0, 0⟩ := by ext <;> simp [M3.mulVec]
      exact bad (screenDir_wild (.inl rfl)) (screenDir_wild (.inl (by rw [M3.fin_mulVec, e0])))
    · rcases hn with ⟨w, rfl, rfl⟩ | ⟨h1, h2, rfl⟩
      · rcases hg with ⟨q, rfl, rfl⟩ | ⟨rfl, rfl⟩
        · obtain ⟨uw, zw⟩ := hu w rfl
          have uw' : IsUnit' (G.mulVec w) := by unfold IsUnit'; rw [hG.orth.dot_mulVec]; exact uw
          have hb' : G.mulVec b ≠ ⟨0, 0, 0⟩ := by
            intro h
            apply hb
            rw [← hG.orth.tr_mulVec b, h]; ext <;> simp [M3.mulVec]
          have hy : ∀ m : V3 ℝ, 0 < m.z → m.z * m.z + m.x * m.x ≠ 0 := fun m hm => by
            have := mul_pos hm hm
            nlinarith [mul_self_nonneg m.x]
          have e1 := screenDir_gen (g := (q.x, q.y)) hb uw (hy w zw)
          have e2 := screenDir_gen (g := ((G.mulVec q).x, (G.mulVec q).y)) hb' uw' (hy _ (by rw [hG.height]; exact zw))
          have es : speed (G.mulVec b) = speed b := by unfold speed; rw [hG.orth.dot_mulVec]
          have eN : V3.normSq (G.mulVec (bentTangent w b (q.x, q.y))) = V3.normSq (bentTangent w b (q.x, q.y)) := by
            unfold V3.normSq; rw [hG.orth.dot_mulVec]
          have ec : screenCos (G.mulVec w) (G.mulVec b) ((G.mulVec q).x, (G.mulVec q).y) = screenCos w b (q.x, q.y) := by
            unfold screenCos
            rw [turn_bent hG, eN, hG.orth.dot_mulVec]
          rw [turn_bent hG, es, ec] at e2
          simp only [M3.fin_mulVec] at *
          rw [e1, e2]
          by_cases hle : 0 ≤ 1 - V3.normSq (bentTangent w b (q.x, q.y))
          · obtain ⟨c, hc⟩ : ∃ c : ℝ, screenCos w b (q.x, q.y) = .fin c := by
              unfold screenCos
              rw [Dbl.sqrt_fin hle]
              split_ifs
              · exact ⟨_, Dbl.neg_fin _⟩
              · exact ⟨_, rfl⟩
            simp only [hc, Dbl.mul_fin, Dbl.add_fin, V3.fin_mk, M3.fin_mulVec, V3.fin_inj]
            refine ⟨?_, tame_fin _⟩
            ext <;> simp [M3.mulVec] <;> ring
          · have hc : screenCos w b (q.x, q.y) = .nan := by
              unfold screenCos
              rw [Dbl.sqrt_fin_neg (not_le.1 hle)]
              simp
            simp only [hc, Dbl.nan_mul, Dbl.add_nan, mulVec_nan]
            exact ⟨trivial, tame_nan⟩
        · exact bad (screenDir_wild (.inr (.inr (.inr rfl)))) (screenDir_wild (.inr (.inr (.inr rfl))))
      · exact bad (screenDir_wild (.inr (.inr (.inl h1)))) (screenDir_wild (.inr (.inr (.inl h1))))
  · exact bad (screenDir_wild (.inr (.inl rfl))) (screenDir_wild (.inr (.inl (mulVec_nan G))))

variable {a b : CoordSys Dbl} (ha : SymFrame G a) (hb : SymFrame G b) {s : Surface Dbl} (hs : SymSurface G s)
include ha hb hs

theorem turn_refractScreen {screen : Surface Dbl} (hp : SymShape G screen.sag screen.normal) (hu : Upright s) (niter : ℕ) {ray : Ray Dbl} (h : TameRay ray) :
    Ray.refractScreen s (CoordTransform.make a b) screen niter (turnRay G ray) = turnRay G (Ray.refractScreen s (CoordTransform.make a b) screen niter ray) ∧
      TameRay (Ray.refractScreen s (CoordTransform.make a b) screen niter ray) := by
  obtain ⟨fr, tr⟩ := turn_forward ha hb h.1
  obtain ⟨fv, tv⟩ := turn_forwardVel ha hb h.2
  unfold Ray.refractScreen
  simp only [turnRay, fr, fv, hs.time _ _ tr tv]
  have hm := hs.meets _ _ tr tv 0 niter
  revert hm
  generalize s.timeToIntersect _ _ 0 niter = q
  rcases q with ⟨_ | _, dt⟩ <;> intro hm
  · split_ifs
    · exact ⟨rfl, h⟩
    · exact ⟨rfl, h⟩
  · split_ifs
    · exact ⟨rfl, h⟩
    · obtain ⟨e1, e2⟩ := turn_screenDir hG (hs.normal _ (hm rfl)) (fun w hw => hu _ w (hm rfl) hw) (turn_slope hG hp (hm rfl)) tv
      simp only [turn_step tr tv (hm rfl), turn_sag hG hp (hm rfl), e1]
      exact ⟨trivial, hm rfl, e2⟩

end

/-! ## Whole systems -/

/-- An obscuration that `G` does not change. -/
def SymObsc (G : M3 ℝ) (o : Obsc Dbl) : Prop :=
  ∀ p, Tame p → o.contains (G.fin.mulVec p).x (G.fin.mulVec p).y = o.contains p.x p.y

/-- An interface that `G` does not change, with refractive indices that are nonzero numbers (or NaN, outside a table) for the
wavelengths in `W`. -/
structure SymIface (G : M3 ℝ) (W : Dbl → Prop) (d : Iface Dbl) : Prop where
  frame : SymFrame G d.coordSys
  surface : SymSurface G d.surface
  obsc : ∀ o, d.obscuration = some o → SymObsc G o
  screen : ∀ s, d.kind = .screen s → SymShape G s.sag s.normal ∧ Upright d.surface
  inIndex : ∀ w, W w → d.inMedium.getN w = .nan ∨ ∃ q : ℝ, q ≠ 0 ∧ d.inMedium.getN w = .fin q
  outIndex : ∀ w, W w → d.outMedium.getN w = .nan ∨ ∃ q : ℝ, q ≠ 0 ∧ d.outMedium.getN w = .fin q

/-- A bundle with every ray turned. -/
noncomputable def turnRays (G : M3 ℝ) (rv : RayVec Dbl) : RayVec Dbl := ⟨rv.rays.map (turnRay G), rv.coordSys⟩

/-- A bundle whose frame is symmetric and whose rays are tame, with wavelengths in `W`. -/
structure SymBundle (G : M3 ℝ) (W : Dbl → Prop) (rv : RayVec Dbl) : Prop where
  frame : SymFrame G rv.coordSys
  rays : ∀ ray ∈ rv.rays, TameRay ray ∧ W ray.wavelength

theorem onRay_wavelength (d : Iface Dbl) (niter : ℕ) (reverse : Bool) (ct : CoordTransform Dbl) (ray : Ray Dbl) :
    (Iface.onRay d niter reverse ct ray).wavelength = ray.wavelength := by
  unfold Iface.onRay Ray.refract Ray.reflect Ray.refractScreen Ray.intersect
  cases d.kind <;> dsimp only <;> split_ifs <;> try rfl
  all_goals
    generalize d.surface.timeToIntersect _ _ 0 niter = q
    rcases q with ⟨_ | _, dt⟩ <;> try rfl
  all_goals
    dsimp only
    generalize Ray.refractDir (F := Dbl) _ _ _ = o
    cases o <;> rfl

theorem turn_onRay {G : M3 ℝ} (hG : Axial G) {W : Dbl → Prop} {d : Iface Dbl} (hd : SymIface G W d) {c : CoordSys Dbl} (hc : SymFrame G c)
    (niter : ℕ) (reverse : Bool) {ray : Ray Dbl} (h : TameRay ray) (hw : W ray.wavelength) :
    Iface.onRay d niter reverse (CoordTransform.make c d.coordSys) (turnRay G ray)
        = turnRay G (Iface.onRay d niter reverse (CoordTransform.make c d.coordSys) ray) ∧
      TameRay (Iface.onRay d niter reverse (CoordTransform.make c d.coordSys) ray) := by
  unfold Iface.onRay
  cases hk : d.kind with
  | screen s => exact turn_refractScreen hG hc hd.frame hd.surface (hd.screen s hk).1 (hd.screen s hk).2 niter h
  | refractive =>
    refine turn_refract hG hc hd.frame hd.surface _ niter h ?_
    cases reverse
    · exact hd.outIndex _ hw
    · exact hd.inIndex _ hw
  | mirror => exact turn_reflect hG hc hd.frame hd.surface niter h
  | plain => exact turn_intersect hG hc hd.frame hd.surface niter h
  | detector => exact turn_intersect hG hc hd.frame hd.surface niter h
  | baffle => exact turn_intersect hG hc hd.frame hd.surface niter h

theorem turn_trace_iface {G : M3 ℝ} (hG : Axial G) {W : Dbl → Prop} {d : Iface Dbl} (hd : SymIface G W d) (niter : ℕ) (reverse : Bool)
    {rv : RayVec Dbl} (h : SymBundle G W rv) :
    d.trace niter reverse (turnRays G rv) = turnRays G (d.trace niter reverse rv) ∧ SymBundle G W (d.trace niter reverse rv) := by
  have key : ∀ ray ∈ rv.rays, _ := fun ray hr => turn_onRay hG hd h.frame niter reverse (h.rays ray hr).1 (h.rays ray hr).2
  unfold Iface.trace Iface.applyObscuration
  rw [interact_rays, interact_rays]
  cases ho : d.obscuration with
  | none =>
    simp only [turnRays, List.map_map]
    refine ⟨?_, hd.frame, ?_⟩
    · congr 1
      apply List.map_congr_left
      intro ray hr
      exact (key ray hr).1
    · intro out hout
      obtain ⟨ray, hr, rfl⟩ := List.mem_map.1 hout
      exact ⟨(key ray hr).2, by rw [onRay_wavelength]; exact (h.rays ray hr).2⟩
  | some o =>
    simp only [turnRays, RayVec.obscure, List.map_map]
    refine ⟨?_, hd.frame, ?_⟩
    · congr 1
      apply List.map_congr_left
      intro ray hr
      simp only [Function.comp_apply]
      rw [(key ray hr).1]
      simp only [Ray.obscure, turnRay, hd.obsc o ho _ (key ray hr).2.1]
    · intro out hout
      obtain ⟨ray, hr, rfl⟩ := List.mem_map.1 hout
      refine ⟨(key ray hr).2, ?_⟩
      simp only [Function.comp_apply, Ray.obscure]
      rw [onRay_wavelength]; exact (h.rays ray hr).2

theorem turn_fold {G : M3 ℝ} (hG : Axial G) {W : Dbl → Prop} (niter : ℕ) (reverse : Bool) : ∀ (l : List (Iface Dbl)) {rv : RayVec Dbl},
    (∀ d ∈ l, SymIface G W d) → SymBundle G W rv →
    l.foldl (fun rv d => d.trace niter reverse rv) (turnRays G rv) = turnRays G (l.foldl (fun rv d => d.trace niter reverse rv) rv) ∧
      SymBundle G W (l.foldl (fun rv d => d.trace niter reverse rv) rv)
  | [], _, _, h => ⟨rfl, h⟩
  | d :: l, rv, hl, h => by
    obtain ⟨e1, e2⟩ := turn_trace_iface hG (hl d (by simp)) niter reverse h
    simp only [List.foldl_cons, e1]
    exact turn_fold hG niter reverse l (fun d hd => hl d (by simp [hd])) e2

/-- C99: tracing a turned bundle gives the turned result, ray by ray and in both directions: positions and velocities are turned, and
times, fluxes, vignetting and failures are the same.  `G` is any rotation about, or mirror image through, the z axis of the frame
of the telescope that leaves every visited interface as it is. -/
theorem C99_turn_partial {G : M3 ℝ} (hG : Axial G) {W : Dbl → Prop} (o : Optic Dbl) (ho : ∀ d ∈ visits o, SymIface G W d) (niter : ℕ) (reverse : Bool)
    {rv : RayVec Dbl} (h : SymBundle G W rv) :
    o.trace niter reverse (turnRays G rv) = turnRays G (o.trace niter reverse rv) ∧ SymBundle G W (o.trace niter reverse rv) := by
  cases reverse
  · rw [trace_visits, trace_visits]
    exact turn_fold hG niter false _ ho h
  · rw [trace_visits_rev, trace_visits_rev]
    exact turn_fold hG niter true _ (fun d hd => ho d (List.mem_reverse.1 hd)) h

/-- A bundle that a symmetry of the system does not change is still unchanged by it after the trace. -/
theorem turn_fixed {G : M3 ℝ} (hG : Axial G) {W : Dbl → Prop} (o : Optic Dbl) (ho : ∀ d ∈ visits o, SymIface G W d) (niter : ℕ) (reverse : Bool)
    {rv : RayVec Dbl} (h : SymBundle G W rv) (hf : ∀ ray ∈ rv.rays, turnRay G ray = ray) :
    ∀ out ∈ (o.trace niter reverse rv).rays, turnRay G out = out ∧ TameRay out := by
  obtain ⟨e, b⟩ := C99_turn_partial hG o ho niter reverse h
  have e0 : turnRays G rv = rv := by
    unfold turnRays
    have : rv.rays.map (turnRay G) = rv.rays := by
      conv_rhs => rw [← List.map_id rv.rays]
      exact List.map_congr_left hf
    rw [this]
  rw [e0] at e
  intro out hout
  refine ⟨?_, (b.rays out hout).1⟩
  have e1 := congrArg RayVec.rays e
  simp only [turnRays] at e1
  have e2 : (o.trace niter reverse rv).rays.map (turnRay G) = (o.trace niter reverse rv).rays.map id := by rw [← e1, List.map_id]
  exact List.map_inj_left.1 e2 out hout

/-- In the plane `y = 0`, or NaN. -/
def Meridional (p : V3 Dbl) : Prop := (∃ x z : ℝ, p = V3.fin ⟨x, 0, z⟩) ∨ p = ⟨.nan, .nan, .nan⟩

theorem meridional_iff {p : V3 Dbl} (hp : Tame p) : Meridional p ↔ flipY.fin.mulVec p = p := by
  rcases hp with ⟨w, rfl⟩ | rfl
  · rw [M3.fin_mulVec, V3.fin_inj]
    constructor
    · rintro (⟨x, z, h⟩ | h)
      · rw [V3.fin_inj] at h; subst h
        ext <;> simp [flipY, M3.mulVec]
      · have := congrArg V3.x h; simp at this
    · intro h
      have hy := congrArg V3.y h
      simp [flipY, M3.mulVec] at hy
      have : w.y = 0 := by linarith
      exact .inl ⟨w.x, w.z, by rw [← this]⟩
  · exact ⟨fun _ => mulVec_nan _, fun _ => .inr rfl⟩

/-- C99: light in the plane of symmetry stays in it. -/
theorem C99_meridional_partial {W : Dbl → Prop} (o : Optic Dbl) (ho : ∀ d ∈ visits o, SymIface flipY W d) (niter : ℕ) (reverse : Bool)
    {rv : RayVec Dbl} (hc : SymFrame flipY rv.coordSys)
    (h : ∀ ray ∈ rv.rays, Meridional ray.r ∧ Meridional ray.v ∧ W ray.wavelength) :
    ∀ out ∈ (o.trace niter reverse rv).rays, Meridional out.r ∧ Meridional out.v := by
  have tm : ∀ {p}, Meridional p → Tame p := by
    rintro p (⟨x, z, rfl⟩ | rfl)
    exacts [tame_fin _, tame_nan]
  intro out hout
  obtain ⟨e, t⟩ := turn_fixed axial_flipY o ho niter reverse (rv := rv)
    ⟨hc, fun ray hr => ⟨⟨tm (h ray hr).1, tm (h ray hr).2.1⟩, (h ray hr).2.2⟩⟩
    (fun ray hr => by
      unfold turnRay
      rw [(meridional_iff (tm (h ray hr).1)).1 (h ray hr).1, (meridional_iff (tm (h ray hr).2.1)).1 (h ray hr).2.1]) out hout
  exact ⟨(meridional_iff t.1).2 (congrArg Ray.r e), (meridional_iff t.2).2 (congrArg Ray.v e)⟩

/-- On the z axis, or NaN. -/
def OnAxis (p : V3 Dbl) : Prop := (∃ z : ℝ, p = V3.fin ⟨0, 0, z⟩) ∨ p = ⟨.nan, .nan, .nan⟩

theorem onAxis_iff {p : V3 Dbl} (hp : Tame p) : OnAxis p ↔ (spin Real.pi).fin.mulVec p = p := by
  rcases hp with ⟨w, rfl⟩ | rfl
  · rw [M3.fin_mulVec, V3.fin_inj]
    constructor
    · rintro (⟨z, h⟩ | h)
      · rw [V3.fin_inj] at h; subst h
        ext <;> simp [spin, M3.mulVec]
      · have := congrArg V3.x h; simp at this
    · intro h
      have hx := congrArg V3.x h
      have hy := congrArg V3.y h
      simp [spin, M3.mulVec] at hx hy
      have h1 : w.x = 0 := by linarith
      have h2 : w.y = 0 := by linarith
      exact .inl ⟨w.z, by rw [V3.fin_inj]; ext <;> simp [h1, h2]⟩
  · exact ⟨fun _ => mulVec_nan _, fun _ => .inr rfl⟩

/-- C99: light along the axis of a system that a half turn does not change stays on the axis. -/
theorem C99_axis_partial {W : Dbl → Prop} (o : Optic Dbl) (ho : ∀ d ∈ visits o, SymIface (spin Real.pi) W d) (niter : ℕ) (reverse : Bool)
    {rv : RayVec Dbl} (hc : SymFrame (spin Real.pi) rv.coordSys)
    (h : ∀ ray ∈ rv.rays, OnAxis ray.r ∧ OnAxis ray.v ∧ W ray.wavelength) :
    ∀ out ∈ (o.trace niter reverse rv).rays, OnAxis out.r ∧ OnAxis out.v := by
  have tm : ∀ {p}, OnAxis p → Tame p := by
    rintro p (⟨z, rfl⟩ | rfl)
    exacts [tame_fin _, tame_nan]
  intro out hout
  obtain ⟨e, t⟩ := turn_fixed (axial_spin _) o ho niter reverse (rv := rv)
    ⟨hc, fun ray hr => ⟨⟨tm (h ray hr).1, tm (h ray hr).2.1⟩, (h ray hr).2.2⟩⟩
    (fun ray hr => by
      unfold turnRay
      rw [(onAxis_iff (tm (h ray hr).1)).1 (h ray hr).1, (onAxis_iff (tm (h ray hr).2.1)).1 (h ray hr).2.1]) out hout
  exact ⟨(onAxis_iff t.1).2 (congrArg Ray.r e), (onAxis_iff t.2).2 (congrArg Ray.v e)⟩

/-! ## Which frames and obscurations are symmetric -/

/-- Unrotated frames on the axis. -/
theorem symFrame_axis {G : M3 ℝ} (hG : Axial G) (z : ℝ) : SymFrame G (CoordSys.mk ⟨0, 0, z⟩ M3.one).fin := by
  refine ⟨⟨⟨0, 0, z⟩, M3.one⟩, rfl, M3.orth_one, ?_, ?_⟩
  · simp [M3.mul, M3.one]
  · ext <;> simp [M3.mulVec, hG.m13, hG.m23, hG.m33]

/-- Frames on the axis that are rotated about it have the rotational symmetries. -/
theorem symFrame_spin (φ ψ z : ℝ) : SymFrame (spin φ) (CoordSys.mk ⟨0, 0, z⟩ (spin ψ)).fin := by
  refine ⟨⟨⟨0, 0, z⟩, spin ψ⟩, rfl, (axial_spin ψ).orth, ?_, ?_⟩
  · simp only [M3.mul, spin, M3.mk.injEq]
    refine ⟨?_, ?_, ?_, ?_, ?_, ?_, ?_, ?_, ?_⟩ <;> first | ring | simp
  · ext <;> simp [M3.mulVec, spin]

/-- Rotation about the y axis. -/
noncomputable def tipY (θ : ℝ) : M3 ℝ := ⟨Real.cos θ, 0, Real.sin θ, 0, 1, 0, -Real.sin θ, 0, Real.cos θ⟩

/-- Frames shifted in the plane `y = 0` and tipped about the y axis have the mirror symmetry. -/
theorem symFrame_meridional (θ x z : ℝ) : SymFrame flipY (CoordSys.mk ⟨x, 0, z⟩ (tipY θ)).fin := by
  have h := Real.sin_sq_add_cos_sq θ
  refine ⟨⟨⟨x, 0, z⟩, tipY θ⟩, rfl, ?_, ?_, ?_⟩
  · refine ⟨?_, ?_, ?_, ?_, ?_, ?_⟩ <;> simp only [tipY] <;> nlinarith
  · simp [M3.mul, tipY, flipY]
  · ext <;> simp [M3.mulVec, flipY]

section
variable {G : M3 ℝ} (hG : Axial G) {x0 y0 : ℝ} (hc : G.mulVec ⟨x0, y0, 0⟩ = ⟨x0, y0, 0⟩)
include hG hc

theorem turn_hypot {p : V3 Dbl} (hp : Tame p) :
    Arith.hypot ((G.fin.mulVec p).x - .fin x0) ((G.fin.mulVec p).y - .fin y0) = Arith.hypot (p.x - .fin x0) (p.y - .fin y0) := by
  rcases hp with ⟨w, rfl⟩ | rfl
  · rw [M3.fin_mulVec]
    simp only [V3.fin_x, V3.fin_y, Dbl.sub_fin, Dbl.hypot_fin]
    congr 2
    have e := hG.planar (w - ⟨x0, y0, 0⟩) (w - ⟨x0, y0, 0⟩)
    rw [M3.mulVec_sub, hc] at e
    simpa using e
  · rw [mulVec_nan]

/-- Circles and annuli about a point that stays where it is. -/
theorem symObsc_circle (rad : Dbl) : SymObsc G (.circle rad (.fin x0) (.fin y0)) := by
  intro p hp
  simp only [Obsc.contains, Obsc.circleContains, turn_hypot hG hc hp]

theorem symObsc_annulus (inner outer : Dbl) : SymObsc G (.annulus inner outer (.fin x0) (.fin y0)) := by
  intro p hp
  simp only [Obsc.contains, Obsc.annulusContains, turn_hypot hG hc hp]

end

theorem symObsc_negation {G : M3 ℝ} {o : Obsc Dbl} (h : SymObsc G o) : SymObsc G (.negation o) := by
  intro p hp
  simp only [Obsc.contains, h p hp]

theorem symObsc_union {G : M3 ℝ} {os : List (Obsc Dbl)} (h : ∀ o ∈ os, SymObsc G o) : SymObsc G (.union os) := by
  intro p hp
  simp only [Obsc.contains]
  generalize false = b
  induction os generalizing b with
  | nil => rfl
  | cons o os ih =>
    simp only [Obsc.unionContains, h o (by simp) p hp]
    exact ih (fun o ho => h o (by simp [ho])) _

theorem symObsc_intersection {G : M3 ℝ} {os : List (Obsc Dbl)} (h : ∀ o ∈ os, SymObsc G o) : SymObsc G (.intersection os) := by
  intro p hp
  simp only [Obsc.contains]
  generalize true = b
  induction os generalizing b with
  | nil => rfl
  | cons o os ih =>
    simp only [Obsc.interContains, h o (by simp) p hp]
    exact ih (fun o ho => h o (by simp [ho])) _

/-- Rectangles along the axes and centred in the plane of symmetry. -/
theorem symObsc_rectangle (w h x0 : ℝ) : SymObsc flipY (.rectangle (.fin w) (.fin h) (.fin x0) (.fin 0) (.fin 0)) := by
  intro p hp
  rcases hp with ⟨q, rfl⟩ | rfl
  · rw [M3.fin_mulVec]
    simp only [Obsc.contains, Obsc.rectangleContains, V3.fin_x, V3.fin_y, Dbl.sub_fin, Dbl.neg_fin, Dbl.cos_fin, Dbl.sin_fin, Dbl.mul_fin, Dbl.add_fin,
      Dbl.ofNat_dbl', Dbl.div_fin (two_ne_zero : (2 : ℝ) ≠ 0), Dbl.gt_fin, Dbl.lt_fin, Real.cos_zero, Real.sin_zero, flipY, M3.mulVec]
    rw [Bool.eq_iff_iff]
    simp only [Bool.and_eq_true, decide_eq_true_eq]
    constructor
    · rintro ⟨⟨⟨h1, h2⟩, h3⟩, h4⟩
      refine ⟨⟨⟨?_, ?_⟩, ?_⟩, ?_⟩ <;> linarith
    · rintro ⟨⟨⟨h1, h2⟩, h3⟩, h4⟩
      refine ⟨⟨⟨?_, ?_⟩, ?_⟩, ?_⟩ <;> linarith
  · rw [mulVec_nan]

/-! ## Concrete cases -/

/-- The camera of C97 with a stop and a central obstruction on its mirror. -/
noncomputable def demoStopped : Optic Dbl :=
  demoComp "T" [.iface demoWindow,
    .iface { demoBowl with obscuration := some (.union [.circle (.fin 1) (.fin 0) (.fin 0), .negation (.circle (.fin 5) (.fin 0) (.fin 0))]) },
    .iface (demoFlat "D" 2)]

theorem demoStopped_sym {G : M3 ℝ} (hG : Axial G) : ∀ d ∈ visits demoStopped, SymIface G (fun _ => True) d := by
  have hv : visits demoStopped = [demoWindow,
      { demoBowl with obscuration := some (.union [.circle (.fin 1) (.fin 0) (.fin 0), .negation (.circle (.fin 5) (.fin 0) (.fin 0))]) },
      demoFlat "D" 2] := by
    simp [demoStopped, demoComp, visits, visitsItems, Optic.skip, demoWindow, demoBowl, demoFlat, demoMirror]
  rw [hv]
  have h0 : G.mulVec ⟨0, 0, 0⟩ = ⟨0, 0, 0⟩ := by ext <;> simp [M3.mulVec]
  intro d hd
  simp only [List.mem_cons, List.not_mem_nil, or_false] at hd
  rcases hd with rfl | rfl | rfl
  · exact ⟨symFrame_axis hG 10, sym_plane hG, by simp [demoWindow, demoMirror], by simp [demoWindow],
      fun _ _ => .inr ⟨1, one_ne_zero, rfl⟩, fun _ _ => .inr ⟨3 / 2, by norm_num, rfl⟩⟩
  · refine ⟨symFrame_axis hG 0, sym_paraboloid hG four_ne_zero, ?_, by simp [demoBowl, demoMirror],
      fun _ _ => .inr ⟨3 / 2, by norm_num, rfl⟩, fun _ _ => .inr ⟨3 / 2, by norm_num, rfl⟩⟩
    intro o ho
    simp only [Option.some.injEq] at ho
    subst ho
    refine symObsc_union fun o ho => ?_
    simp only [List.mem_cons, List.not_mem_nil, or_false] at ho
    rcases ho with rfl | rfl
    · exact symObsc_circle hG h0 _
    · exact symObsc_negation (symObsc_circle hG h0 _)
  · exact ⟨symFrame_axis hG 2, sym_plane hG, by simp [demoFlat], by simp [demoFlat],
      fun _ _ => .inr ⟨1, one_ne_zero, rfl⟩, fun _ _ => .inr ⟨1, one_ne_zero, rfl⟩⟩

/-- The hypotheses of `C99_turn_partial` hold for every rotation about the axis. -/
example (φ : ℝ) (reverse : Bool) (w : V3 ℝ) :
    demoStopped.trace 5 reverse (turnRays (spin φ) ⟨[demoRay w], (CoordSys.std ℝ).fin⟩)
      = turnRays (spin φ) (demoStopped.trace 5 reverse ⟨[demoRay w], (CoordSys.std ℝ).fin⟩) :=
  (C99_turn_partial (axial_spin φ) demoStopped (demoStopped_sym (axial_spin φ)) 5 reverse
    ⟨symFrame_axis (axial_spin φ) 0, by
      intro ray hr
      simp only [List.mem_singleton] at hr
      subst hr
      exact ⟨⟨tame_fin _, tame_fin _⟩, trivial⟩⟩).1

/-- An atmosphere: a flat screen whose phase is a shallow paraboloid. -/
example (φ : ℝ) : SymIface (spin φ) (fun _ => True) { demoMirror with kind := .screen (paraboloid (.fin 1000)) } := by
  refine ⟨symFrame_axis (axial_spin φ) 0, sym_plane (axial_spin φ), ?_, ?_, fun _ _ => .inr ⟨1, one_ne_zero, rfl⟩, fun _ _ => .inr ⟨1, one_ne_zero, rfl⟩⟩
  · intro o ho
    simp only [demoMirror, Option.some.injEq] at ho
    subst ho
    exact symObsc_circle (axial_spin φ) (by ext <;> simp [M3.mulVec]) _
  · intro s hs
    simp only [Kind.screen.injEq] at hs
    subst hs
    exact ⟨paraboloid_shape (axial_spin φ) (by norm_num), upright_plane⟩

/-- A mirror off the axis and tipped towards it: no rotational symmetry, but the mirror symmetry of `C99_meridional_partial`. -/
noncomputable def demoTipped : Iface Dbl :=
  { demoBowl with coordSys := (CoordSys.mk ⟨3, 0, 1⟩ (tipY (1 / 10))).fin, surface := Surface.asphere (.fin 4) (.fin (-1 / 2)) [.fin 1, .fin (-2)] }

example (x vx vz : ℝ) (out : Ray Dbl)
    (h : out ∈ ((Optic.iface demoTipped).trace 5 false ⟨[{ demoRay ⟨vx, 0, vz⟩ with r := V3.fin ⟨x, 0, 8⟩ }], (CoordSys.std ℝ).fin⟩).rays) :
    Meridional out.r ∧ Meridional out.v := by
  refine C99_meridional_partial (W := fun _ => True) (.iface demoTipped) ?_ 5 false (symFrame_axis axial_flipY 0) ?_ out h
  · intro d hd
    simp only [visits, List.mem_singleton] at hd
    subst hd
    exact ⟨symFrame_meridional _ _ _, sym_asphere axial_flipY four_ne_zero _ _, by simp [demoTipped, demoBowl], by simp [demoTipped, demoBowl, demoMirror],
      fun _ _ => .inr ⟨3 / 2, by norm_num, rfl⟩, fun _ _ => .inr ⟨3 / 2, by norm_num, rfl⟩⟩
  · intro ray hr
    simp only [List.mem_singleton] at hr
    subst hr
    exact ⟨.inl ⟨_, _, rfl⟩, .inl ⟨_, _, rfl⟩, trivial⟩

/-- The hypotheses of `C99_axis_partial`. -/
example (z vz : ℝ) (out : Ray Dbl)
    (h : out ∈ (demoStopped.trace 5 false ⟨[{ demoRay ⟨0, 0, vz⟩ with r := V3.fin ⟨0, 0, z⟩ }], (CoordSys.std ℝ).fin⟩).rays) :
    OnAxis out.r ∧ OnAxis out.v := by
  refine C99_axis_partial (W := fun _ => True) demoStopped (demoStopped_sym (axial_spin _)) 5 false (symFrame_axis (axial_spin _) 0) ?_ out h
  intro ray hr
  simp only [List.mem_singleton] at hr
  subst hr
  exact ⟨.inl ⟨_, rfl⟩, .inl ⟨_, rfl⟩, trivial⟩

/-- A sum of a conicoid, a paraboloid and an asphere. -/
example (G : M3 ℝ) (hG : Axial G) : SymSurface G (Surface.sum [quadric (.fin 10) (.fin 0), paraboloid (.fin 40), asphere (.fin 30) (.fin 1) [.fin 2]]) := by
  refine sym_sum hG (sym_quadric hG (by norm_num)) (fun t ht => ?_) ⟨_, List.mem_cons_self, quadric_curved (by norm_num)⟩
  simp only [List.mem_cons, List.not_mem_nil, or_false] at ht
  rcases ht with rfl | rfl | rfl
  · exact quadric_shape hG _ _
  · exact paraboloid_shape hG (by norm_num)
  · exact asphere_shape hG _ _ _

end Batoid.Props
