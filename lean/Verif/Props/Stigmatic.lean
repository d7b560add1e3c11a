import Verif.Props.Intersect
import Verif.Props.Normals
import Verif.Props.Trace

/-!
# Conic mirrors image their foci (C78)

The specification is the property that defines the conics in geometry: all light from one focus is sent to the other one, and all
paths have the same length.  Rays are described in global coordinates by `RayAt`.
-/

namespace Batoid.Props
open Batoid Batoid.Surface

/-- The ray, given in the frame `cs`, has not failed, and is at the global point `S` with the global velocity `w` at the time `t`. -/
structure RayAt (cs : CoordSys ℝ) (ray : Ray Dbl) (S w : V3 ℝ) (t : ℝ) : Prop where
  live : ray.failed = false
  pos : ray.r = (cs.toLocal S).fin
  vel : ray.v = (cs.rot.tr.mulVec w).fin
  time : ray.t = Dbl.fin t

/-! ## Which point of the conic is reported -/

theorem quadric_focus_time {R e c u sg tau : ℝ} (hR : R ≠ 0) (he : -1 < e) (he1 : e ≠ 1) (hc : 0 < c) (hu : 0 < u)
    (hsg : sg ^ 2 = 1) {r v : V3 ℝ} (hv : V3.normSq v = c ^ 2) (hz : v.z = sg * u) (hne : c ≠ e * u)
    (hfoc : r + v.smulR tau = ⟨0, 0, R / (1 + e)⟩) (hstart : ¬ OnQuadric R (-e ^ 2) r) (niter : ℕ) :
    (quadric (Dbl.fin R) (Dbl.fin (-e ^ 2))).timeToIntersect r.fin v.fin 0 niter = (true, Dbl.fin (tau - sg * R / (c + e * u))) := by
  have he' : 1 + e ≠ 0 := by linarith
  have hk : -e ^ 2 + 1 ≠ 0 := by
    intro h
    have : (1 - e) * (1 + e) = 0 := by linear_combination h
    rcases mul_eq_zero.mp this with h | h
    · exact he1 (by linarith)
    · exact he' h
  have hx : r.x = -(tau * v.x) := by have := congrArg V3.x hfoc; simp at this; linarith
  have hy : r.y = -(tau * v.y) := by have := congrArg V3.y hfoc; simp at this; linarith
  have hrz : r.z = R / (1 + e) - tau * v.z := by have := congrArg V3.z hfoc; simp at this; linarith
  simp only [V3.normSq, V3.dot] at hv
  have hcu : u ≤ c := by
    have : u ^ 2 ≤ c ^ 2 := by
      have : v.z ^ 2 = u ^ 2 := by rw [hz, mul_pow, hsg, one_mul]
      nlinarith [mul_self_nonneg v.x, mul_self_nonneg v.y]
    exact abs_le_of_sq_le_sq' this hc.le |>.2
  have hd1 : 0 < c + e * u := by nlinarith
  have hd2 : c - e * u ≠ 0 := sub_ne_zero.mpr hne
  have hon : ∀ q, (q = tau - sg * R / (c + e * u) ∨ q = tau + sg * R / (c - e * u)) → OnQuadric R (-e ^ 2) (pointAt r v q) := by
    intro q hq
    have hvv : v.x ^ 2 + v.y ^ 2 = c ^ 2 - u ^ 2 := by
      have : v.z ^ 2 = u ^ 2 := by rw [hz, mul_pow, hsg, one_mul]
      linarith
    have e1 : ∀ s, q = tau + s → (OnQuadric R (-e ^ 2) (pointAt r v q) ↔
        (c ^ 2 - u ^ 2) * s ^ 2 = 2 * R * (R / (1 + e) + sg * u * s) - (1 + -e ^ 2) * (R / (1 + e) + sg * u * s) ^ 2) := by
      intro s hs
      unfold OnQuadric pointAt
      simp only
      rw [hx, hy, hrz, hs, hz, ← hvv]
      constructor <;> intro h <;> linear_combination h
    have hf : R / (1 + e) * (1 + e) = R := div_mul_cancel₀ _ he'
    generalize R / (1 + e) = f at hf e1
    have key : ∀ w y, w * c = R - e * y * w → y ^ 2 = u ^ 2 →
        (c ^ 2 - u ^ 2) * w ^ 2 = 2 * R * (f - y * w) - (1 + -e ^ 2) * (f - y * w) ^ 2 := by
      intro w y hw hy
      linear_combination (w * c + R - e * y * w) * hw - (R - (1 - e) * f + 2 * (1 - e) * y * w) * hf + w ^ 2 * hy
    rcases hq with h | h
    · rw [e1 (-(sg * R / (c + e * u))) (by rw [h]; ring)]
      have hw : R / (c + e * u) * c = R - e * u * (R / (c + e * u)) := by
        have := hd1.ne'
        field_simp; ring
      have := key _ u hw rfl
      rw [mul_div_assoc]
      generalize R / (c + e * u) = w at this
      linear_combination this + ((c ^ 2 - u ^ 2) * w ^ 2 + 2 * R * u * w - (1 + -e ^ 2) * (2 * f * u * w - u ^ 2 * w ^ 2 * (sg ^ 2 + 1))) * hsg
    · rw [e1 (sg * R / (c - e * u)) (by rw [h])]
      have hw : R / (c - e * u) * c = R - e * (-u) * (R / (c - e * u)) := by
        field_simp; ring
      have := key _ (-u) hw (by ring)
      rw [mul_div_assoc]
      generalize R / (c - e * u) = w at this
      linear_combination this + ((c ^ 2 - u ^ 2) * w ^ 2 - 2 * R * u * w + (1 + -e ^ 2) * (2 * f * u * w + u ^ 2 * w ^ 2 * (sg ^ 2 + 1))) * hsg
  have hS := (onQuadric_iff hk r v _).mp (hon _ (.inl rfl))
  have hO := (onQuadric_iff hk r v _).mp (hon _ (.inr rfl))
  have hC : quaC R (-e ^ 2) r ≠ 0 := by
    intro h
    apply hstart
    have := (onQuadric_iff (R := R) hk r v 0).mpr (by rw [h]; ring)
    simpa [pointAt] using this
  have hA : quaA (-e ^ 2) v ≠ 0 := by
    have hvv : v.x * v.x + v.y * v.y = c ^ 2 - u ^ 2 := by
      have : v.z * v.z = u ^ 2 := by rw [hz]; linear_combination u ^ 2 * hsg
      linarith
    have hzz : v.z * v.z = u ^ 2 := by rw [hz]; linear_combination u ^ 2 * hsg
    unfold quaA
    rw [hvv, hzz]
    intro h
    field_simp at h
    have : (c + e * u) * (c - e * u) = 0 := by linear_combination h
    rcases mul_eq_zero.mp this with h | h
    · exact hd1.ne' h
    · exact hd2 h
  have hD : ¬ quaB R (-e ^ 2) r v * quaB R (-e ^ 2) r v - 4 * quaA (-e ^ 2) v * quaC R (-e ^ 2) r < 0 := fun h => no_root h hS
  have hz1 : r.z + v.z * (tau - sg * R / (c + e * u)) = R / (1 + e) * ((c - u) / (c + e * u)) := by
    rw [hrz, hz]
    have := hd1.ne'
    field_simp
    linear_combination (-(R * u * (1 + e))) * hsg
  have hz2 : r.z + v.z * (tau + sg * R / (c - e * u)) = R / (1 + e) * ((c + u) / (c - e * u)) := by
    rw [hrz, hz]
    field_simp
    linear_combination (R * u * (1 + e)) * hsg
  have hlt : |r.z + v.z * (tau - sg * R / (c + e * u))| < |r.z + v.z * (tau + sg * R / (c - e * u))| := by
    rw [hz1, hz2, abs_mul, abs_mul]
    apply mul_lt_mul_of_pos_left _ (abs_pos.mpr (div_ne_zero hR he'))
    rw [abs_div, abs_div, abs_of_nonneg (sub_nonneg.mpr hcu), abs_of_pos hd1, abs_of_pos (by linarith : 0 < c + u),
      div_lt_div_iff₀ hd1 (abs_pos.mpr hd2)]
    rcases le_total 0 (c - e * u) with h | h
    · rw [abs_of_nonneg h]; nlinarith [mul_pos hc hu, mul_pos (mul_pos hc hu) (by linarith : 0 < 1 + e)]
    · rw [abs_of_nonpos h]
      have : 0 < e := by
        by_contra hh
        nlinarith [mul_nonneg (not_lt.mp hh |> neg_nonneg.mpr) hu.le]
      nlinarith [mul_pos this (mul_pos hu hu), mul_pos hc hc]
  have hneq : tau - sg * R / (c + e * u) ≠ tau + sg * R / (c - e * u) := fun h => by
    rw [h] at hlt; exact lt_irrefl _ hlt
  change quadricTime _ _ _ _ _ = _
  rw [quadricTime_fin hk, if_neg hD]
  rcases rootPair_cases hA (not_lt.mp hD) with ⟨t1, t2, e, hr, -⟩ | ⟨h, -, -⟩ | ⟨h, -, -⟩
  · simp only [e, Dbl.mul_fin, Dbl.add_fin, Dbl.abs_fin, Dbl.lt_fin, decide_eq_true_eq, Prod.mk.injEq, true_and]
    rcases hr.only hA hS with h1 | h1 <;> rcases hr.only hA hO with h2 | h2
    · exact absurd (h1.trans h2.symm) hneq
    · rw [← h1, ← h2, if_pos hlt]
    · rw [← h1, ← h2, if_neg (not_lt.mpr hlt.le)]
    · exact absurd (h1.trans h2.symm) hneq
  · exact absurd h hC
  · exact absurd h hC

/-! ## Reflection at the reported point -/

theorem mirror_unitNormal (gx gy : ℝ) (v : V3 ℝ) :
    mirror (unitNormal gx gy) v = v - V3.smulR ⟨-gx, -gy, 1⟩ (2 * (v.z - gx * v.x - gy * v.y) / (1 + gx * gx + gy * gy)) := by
  have hp := slope_pos gx gy
  have hs := (Real.sqrt_pos.mpr hp).ne'
  have hss := Real.mul_self_sqrt hp.le
  have e : ∀ q : ℝ, q / (1 + gx * gx + gy * gy) = q * (1 / Real.sqrt (1 + gx * gx + gy * gy)) * (1 / Real.sqrt (1 + gx * gx + gy * gy)) := by
    intro q
    rw [mul_assoc, div_mul_div_comm, hss, mul_one, mul_one_div]
  rw [e]
  generalize hnz : 1 / Real.sqrt (1 + gx * gx + gy * gy) = nz
  simp only [mirror, unitNormal, hnz]
  ext
  · simp only [V3.sub_x, V3.smulR_x, V3.dot, V3.smul]; ring
  · simp only [V3.sub_y, V3.smulR_y, V3.dot, V3.smul]; ring
  · simp only [V3.sub_z, V3.smulR_z, V3.dot, V3.smul]; ring

/-- The reflected velocity at the reported point, for a conic of eccentricity `e` (with sign). -/
theorem conic_normal {R e c u sg tau : ℝ} (hR : R ≠ 0) (hd1 : 0 < c + e * u) (hpos : 0 < u + e * c)
    (hsg : sg ^ 2 = 1) {r v : V3 ℝ} (hv : V3.normSq v = c ^ 2) (hz : v.z = sg * u)
    (hfoc : r + v.smulR tau = ⟨0, 0, R / (1 + e)⟩) :
    (quadric (Dbl.fin R) (Dbl.fin (-e ^ 2))).normal (Dbl.fin (r + v.smulR (tau - sg * R / (c + e * u))).x)
      (Dbl.fin (r + v.smulR (tau - sg * R / (c + e * u))).y) = (unitNormal (-(sg * v.x) / (u + e * c)) (-(sg * v.y) / (u + e * c))).fin := by
  have hx : (r + v.smulR (tau - sg * R / (c + e * u))).x = -(sg * v.x) * (R / (c + e * u)) := by
    have := congrArg V3.x hfoc; simp at this; simp; linear_combination this
  have hy : (r + v.smulR (tau - sg * R / (c + e * u))).y = -(sg * v.y) * (R / (c + e * u)) := by
    have := congrArg V3.y hfoc; simp at this; simp; linear_combination this
  rw [hx, hy]
  simp only [V3.normSq, V3.dot] at hv
  have hvv : v.x * v.x + v.y * v.y = c ^ 2 - u ^ 2 := by
    have : v.z * v.z = u ^ 2 := by rw [hz]; linear_combination u ^ 2 * hsg
    linarith
  set X := -(sg * v.x) * (R / (c + e * u)) with hX
  set Y := -(sg * v.y) * (R / (c + e * u)) with hY
  have hXY : X * X + Y * Y = (c ^ 2 - u ^ 2) * (R / (c + e * u)) ^ 2 := by
    rw [hX, hY]
    linear_combination (R / (c + e * u)) ^ 2 * (sg ^ 2 * hvv + (c ^ 2 - u ^ 2) * hsg)
  have hq : 1 - (X * X + Y * Y) * ((-e ^ 2 + 1) / R / R) = ((u + e * c) / (c + e * u)) ^ 2 := by
    rw [hXY]
    have := hd1.ne'
    rw [div_pow, div_pow, eq_div_iff (pow_ne_zero 2 this)]
    have e1 : (c ^ 2 - u ^ 2) * (R ^ 2 / (c + e * u) ^ 2) * ((-e ^ 2 + 1) / R / R) * (c + e * u) ^ 2 = (c ^ 2 - u ^ 2) * (-e ^ 2 + 1) := by
      generalize c + e * u = D at this
      field_simp
    linear_combination -e1
  have hdom : (X, Y) ∈ quadricDomain R (-e ^ 2) := by
    have h1 : 0 < ((u + e * c) / (c + e * u)) ^ 2 := by positivity
    rw [← hq] at h1
    have hRR : 0 < R * R := mul_self_pos.mpr hR
    have h2 : (X * X + Y * Y) * ((-e ^ 2 + 1) / R / R) = (1 + -e ^ 2) * (X * X + Y * Y) / (R * R) := by field_simp; ring
    rw [h2, sub_pos, div_lt_one hRR] at h1
    exact h1
  change radialNormal _ _ _ = _
  rw [radialNormal_fin (quadricDzdr_at hR hdom), hq, Real.sqrt_sq (by positivity)]
  have := hd1.ne'
  have := hpos.ne'
  congr 2 <;> (simp only [hX, hY]; field_simp)

theorem conic_reflect {R e c u sg tau : ℝ} (he : -1 < e) (he1 : e ≠ 1) (hc : 0 < c) (hd1 : 0 < c + e * u) (hpos : 0 < u + e * c)
    (hsg : sg ^ 2 = 1) {r v : V3 ℝ} (hv : V3.normSq v = c ^ 2) (hz : v.z = sg * u)
    (hfoc : r + v.smulR tau = ⟨0, 0, R / (1 + e)⟩) :
    r + v.smulR (tau - sg * R / (c + e * u)) + (mirror (unitNormal (-(sg * v.x) / (u + e * c)) (-(sg * v.y) / (u + e * c))) v).smulR
      (tau - sg * (2 * R / (1 - e ^ 2)) / c - (tau - sg * R / (c + e * u))) = ⟨0, 0, R / (1 - e)⟩ := by
  have hx : r.x = -(tau * v.x) := by have := congrArg V3.x hfoc; simp at this; linarith
  have hy : r.y = -(tau * v.y) := by have := congrArg V3.y hfoc; simp at this; linarith
  have hrz : r.z = R / (1 + e) - tau * v.z := by have := congrArg V3.z hfoc; simp at this; linarith
  simp only [V3.normSq, V3.dot] at hv
  have hvv : v.x * v.x + v.y * v.y = c ^ 2 - u ^ 2 := by
    have : v.z * v.z = u ^ 2 := by rw [hz]; linear_combination u ^ 2 * hsg
    linarith
  have he' : 1 + e ≠ 0 := by linarith
  have he'' : 1 - e ≠ 0 := sub_ne_zero.mpr he1.symm
  have hee : 1 - e ^ 2 ≠ 0 := by
    rw [show 1 - e ^ 2 = (1 + e) * (1 - e) by ring]; exact mul_ne_zero he' he''
  have hM : 0 < c + 2 * e * u + e ^ 2 * c := by
    have h1 : 0 < (u + e * c) ^ 2 + (v.x * v.x + v.y * v.y) := by nlinarith [mul_self_nonneg v.x, mul_self_nonneg v.y]
    rw [hvv] at h1
    have : c * (c + 2 * e * u + e ^ 2 * c) = (u + e * c) ^ 2 + (c ^ 2 - u ^ 2) := by ring
    rw [← this] at h1
    exact pos_of_mul_pos_right h1 hc.le
  have hpos' := hpos.ne'
  have hd1' := hd1.ne'
  have hM' := hM.ne'
  have hc' := hc.ne'
  have hden : 1 + -(sg * v.x) / (u + e * c) * (-(sg * v.x) / (u + e * c)) + -(sg * v.y) / (u + e * c) * (-(sg * v.y) / (u + e * c)) =
      c * (c + 2 * e * u + e ^ 2 * c) / (u + e * c) ^ 2 := by
    field_simp
    linear_combination (v.x ^ 2 + v.y ^ 2) * hsg + hvv
  have hnum : v.z - -(sg * v.x) / (u + e * c) * v.x - -(sg * v.y) / (u + e * c) * v.y = sg * c * (c + e * u) / (u + e * c) := by
    rw [hz]
    field_simp
    linear_combination sg * hvv
  have hfac : 2 * (sg * c * (c + e * u) / (u + e * c)) / (c * (c + 2 * e * u + e ^ 2 * c) / (u + e * c) ^ 2) =
      2 * sg * (c + e * u) * (u + e * c) / (c + 2 * e * u + e ^ 2 * c) := by
    field_simp
  have htime : tau - sg * (2 * R / (1 - e ^ 2)) / c - (tau - sg * R / (c + e * u)) =
      -(sg * R * (c + 2 * e * u + e ^ 2 * c)) / ((1 - e ^ 2) * (c + e * u) * c) := by
    field_simp
    ring
  rw [mirror_unitNormal, hden, hnum, hfac, htime]
  have hMD : c + 2 * e * u + e ^ 2 * c = 2 * (c + e * u) - c * (1 - e ^ 2) := by ring
  have hPD : u + e * c = e * (c + e * u) + (1 - e ^ 2) * u := by ring
  generalize hMM : c + 2 * e * u + e ^ 2 * c = M at *
  generalize hDD : c + e * u = D at *
  generalize hPP : u + e * c = P at *
  generalize hEE : 1 - e ^ 2 = E at *
  have hs1 : sg * sg = 1 := by rw [← hsg]; ring
  have lat : ∀ q : ℝ, -(tau * q) + (tau - sg * R / D) * q +
      (-(sg * R * M) / (E * D * c)) * (q - 2 * sg * D * P / M * (-(-(sg * q) / P))) = 0 := by
    intro q
    have e1 : 2 * sg * D * P / M * (-(-(sg * q) / P)) = 2 * D / M * q := by
      field_simp
      linear_combination q * hs1
    rw [e1]
    have e2 : q - 2 * D / M * q = -(c * E) / M * q := by
      field_simp
      linear_combination q * hMD
    rw [e2]
    field_simp
    ring
  ext
  · simp only [V3.add_x, V3.sub_x, V3.smulR_x]
    rw [hx]; linear_combination lat v.x
  · simp only [V3.add_y, V3.sub_y, V3.smulR_y]
    rw [hy]; linear_combination lat v.y
  · simp only [V3.add_z, V3.sub_z, V3.smulR_z]
    rw [hrz, hz]
    have e1 : -(sg * R * M) / (E * D * c) * (sg * u - 2 * sg * D * P / M * 1) = -(R * (M * u - 2 * D * P)) / (E * D * c) := by
      have : sg * u - 2 * sg * D * P / M * 1 = sg * (M * u - 2 * D * P) / M := by field_simp
      rw [this, div_mul_div_comm, div_eq_div_iff (by positivity) (by positivity)]
      linear_combination (-(R * M * (M * u - 2 * D * P) * E * D * c)) * hs1
    have e2 : R / (1 + e) = R * (1 - e) / E := by
      rw [div_eq_div_iff he' hee]; rw [← hEE]; ring
    have e3 : R / (1 - e) = R * (1 + e) / E := by
      rw [div_eq_div_iff he'' hee]; rw [← hEE]; ring
    have e4 : sg * R / D * (sg * u) = R * u / D := by
      field_simp; linear_combination (R * u) * hs1
    have e5 : R * (1 - e) / E - R * u / D + -(R * (M * u - 2 * D * P)) / (E * D * c) = R * (1 + e) / E := by
      field_simp
      rw [hMD, hPD]
      subst hDD hEE
      ring
    rw [← e2, ← e3, ← e4, ← e1] at e5
    linear_combination e5

/-! ## The sphere -/

theorem sphere_focus_time {R c u sg tau : ℝ} (hR : R ≠ 0) (hc : 0 < c) (hu : 0 < u) (hsg : sg ^ 2 = 1) {r v : V3 ℝ}
    (hv : V3.normSq v = c ^ 2) (hz : v.z = sg * u) (hfoc : r + v.smulR tau = ⟨0, 0, R⟩) (hstart : ¬ OnSphere R r) (niter : ℕ) :
    (sphere (Dbl.fin R)).timeToIntersect r.fin v.fin 0 niter = (true, Dbl.fin (tau - sg * R / c)) := by
  have hx : r.x = -(tau * v.x) := by have := congrArg V3.x hfoc; simp at this; linarith
  have hy : r.y = -(tau * v.y) := by have := congrArg V3.y hfoc; simp at this; linarith
  have hrz : r.z = R - tau * v.z := by have := congrArg V3.z hfoc; simp at this; linarith
  simp only [V3.normSq, V3.dot] at hv
  have hA : sphA v = c ^ 2 := by unfold sphA; linarith
  have hB : sphB R r v = -(2 * tau * c ^ 2) := by unfold sphB; rw [hx, hy, hrz]; linear_combination (-2 * tau) * hv
  have hC : sphC R r = tau ^ 2 * c ^ 2 - R ^ 2 := by unfold sphC; rw [hx, hy, hrz]; linear_combination tau ^ 2 * hv
  have hC0 : sphC R r ≠ 0 := by
    intro h
    apply hstart
    unfold OnSphere
    unfold sphC at h
    linarith
  have hv0 : v ≠ ⟨0, 0, 0⟩ := by
    rintro rfl
    simp at hv
    nlinarith [pow_pos hc 2]
  have hc2 : c ^ 2 ≠ 0 := (pow_pos hc 2).ne'
  have hr1 : sphA v * (tau - sg * R / c) * (tau - sg * R / c) + sphB R r v * (tau - sg * R / c) + sphC R r = 0 := by
    rw [hA, hB, hC]
    have : (sg * R / c) ^ 2 * c ^ 2 = R ^ 2 := by rw [div_pow, div_mul_cancel₀ _ hc2, mul_pow, hsg, one_mul]
    linear_combination this
  have hr2 : sphA v * (tau + sg * R / c) * (tau + sg * R / c) + sphB R r v * (tau + sg * R / c) + sphC R r = 0 := by
    rw [hA, hB, hC]
    have : (sg * R / c) ^ 2 * c ^ 2 = R ^ 2 := by rw [div_pow, div_mul_cancel₀ _ hc2, mul_pow, hsg, one_mul]
    linear_combination this
  have hD : ¬ sphB R r v * sphB R r v - 4 * sphA v * sphC R r < 0 := fun h => no_root h hr1
  change sphereTime _ _ _ _ = _
  rcases sphereTime_cases hv0 0 (not_lt.mp hD) with ⟨t1, t2, hr, -, e⟩ | ⟨h, -, -⟩ | ⟨h, -, -⟩
  · rw [e]
    have hA0 : sphA v ≠ 0 := by rw [hA]; exact hc2
    have hne : sg * R ≠ 0 := mul_ne_zero (by rintro rfl; norm_num at hsg) hR
    have hneq : tau - sg * R / c ≠ tau + sg * R / c := by
      intro h
      have : sg * R / c = 0 := by linarith
      exact (div_ne_zero hne hc.ne') this
    have hmm : (max t1 t2 = max (tau - sg * R / c) (tau + sg * R / c)) ∧ (min t1 t2 = min (tau - sg * R / c) (tau + sg * R / c)) := by
      rcases hr.only hA0 hr1 with h1 | h1 <;> rcases hr.only hA0 hr2 with h2 | h2
      · exact absurd (h1.trans h2.symm) hneq
      · rw [h1, h2]; exact ⟨rfl, rfl⟩
      · rw [h1, h2]; exact ⟨max_comm _ _, min_comm _ _⟩
      · exact absurd (h1.trans h2.symm) hneq
    rw [hmm.1, hmm.2]
    congr 2
    by_cases hs : v.z * R < 0
    · rw [if_pos hs]
      have : sg * R / c < 0 := by
        apply div_neg_of_neg_of_pos _ hc
        rw [hz] at hs
        nlinarith
      rw [max_eq_left (by linarith)]
    · rw [if_neg hs]
      have : 0 ≤ sg * R / c := by
        apply div_nonneg _ hc.le
        rw [hz] at hs
        by_contra h
        nlinarith
      rw [min_eq_left (by linarith)]
  · exact absurd h hC0
  · exact absurd h hC0

theorem sphere_focus_normal {R x y : ℝ} (hR : R ≠ 0) (h : x * x + y * y < R * R) :
    (sphere (Dbl.fin R)).normal (Dbl.fin x) (Dbl.fin y) = (quadric (Dbl.fin R) (Dbl.fin (-0 ^ 2))).normal (Dbl.fin x) (Dbl.fin y) := by
  change sphereNormal _ _ _ = radialNormal _ _ _
  have hdom : (x, y) ∈ quadricDomain R (-0 ^ 2) := by
    unfold quadricDomain
    simpa using h
  rw [sphereNormal_fin hR h, radialNormal_fin (quadricDzdr_at hR hdom)]
  norm_num

/-! ## The paraboloid -/

theorem parabola_focus_time {R c u sg tau : ℝ} (hR : R ≠ 0) (hc : 0 < c) (hu : 0 < u) (hsg : sg ^ 2 = 1) {r v : V3 ℝ}
    (hv : V3.normSq v = c ^ 2) (hz : v.z = sg * u) (hfoc : r + v.smulR tau = ⟨0, 0, R / 2⟩) (hstart : ¬ OnParaboloid R r) (niter : ℕ) :
    (paraboloid (Dbl.fin R)).timeToIntersect r.fin v.fin 0 niter = (true, Dbl.fin (tau - sg * R / (c + u))) := by
  have hx : r.x = -(tau * v.x) := by have := congrArg V3.x hfoc; simp at this; linarith
  have hy : r.y = -(tau * v.y) := by have := congrArg V3.y hfoc; simp at this; linarith
  have hrz : r.z = R / 2 - tau * v.z := by have := congrArg V3.z hfoc; simp at this; linarith
  simp only [V3.normSq, V3.dot] at hv
  have hzz : v.z * v.z = u ^ 2 := by rw [hz]; linear_combination u ^ 2 * hsg
  have hcu : u ≤ c := by
    have : u ^ 2 ≤ c ^ 2 := by nlinarith [mul_self_nonneg v.x, mul_self_nonneg v.y]
    exact abs_le_of_sq_le_sq' this hc.le |>.2
  have hd : 0 < c + u := by linarith
  have hA : parA R v * (2 * R) = (c - u) * (c + u) := by
    unfold parA
    field_simp
    linear_combination hv - hzz
  have hsg0 : sg ≠ 0 := by rintro rfl; norm_num at hsg
  have hne : sg * R ≠ 0 := mul_ne_zero hsg0 hR
  have hB : parB R r v = -(2 * tau * parA R v) - sg * u := by
    unfold parB parA; rw [hx, hy, hz]; field_simp; ring
  have hC : parC R r = tau ^ 2 * parA R v - R / 2 + tau * (sg * u) := by
    unfold parC parA; rw [hx, hy, hrz, hz]; field_simp; ring
  have hC0 : parC R r ≠ 0 := by
    intro h
    apply hstart
    unfold OnParaboloid
    unfold parC at h
    field_simp at h
    linarith
  change paraboloidTime _ _ _ _ = _
  by_cases ha : parA R v = 0
  · have hcu' : c = u := by
      rw [ha, zero_mul] at hA
      rcases mul_eq_zero.mp hA.symm with h | h <;> linarith
    have hsu : sg * u ≠ 0 := mul_ne_zero hsg0 hu.ne'
    have hb0 : parB R r v ≠ 0 := by rw [hB, ha]; simpa using ⟨hsg0, hu.ne'⟩
    rw [paraboloidTime_fin hR, if_pos ha, Dbl.div_fin hb0, hB, hC, ha, hcu']
    congr 2
    have := hu.ne'
    simp only [mul_zero, neg_zero, zero_sub, zero_add]
    field_simp
    linear_combination (2 * R) * hsg
  · have hcu' : c - u ≠ 0 := by
      intro h
      rw [h, zero_mul] at hA
      rcases mul_eq_zero.mp hA with h | h
      · exact ha h
      · exact hR (by linarith)
    have hA' : parA R v = (c - u) * (c + u) / (2 * R) := by rw [← hA]; field_simp
    have hd' := hd.ne'
    have quad : ∀ s, parA R v * s * s - sg * u * s - R / 2 = 0 → parA R v * (tau + s) * (tau + s) + parB R r v * (tau + s) + parC R r = 0 := by
      intro s hs
      rw [hB, hC]
      linear_combination hs
    have hr1 := quad (-(sg * R / (c + u))) (by
      rw [hA']
      generalize hDD : c + u = D at *
      have : c - u = D - 2 * u := by rw [← hDD]; ring
      rw [this]
      field_simp
      linear_combination (D * R) * hsg)
    have hr2 := quad (sg * R / (c - u)) (by
      rw [hA']
      generalize hDD : c - u = D at *
      have : c + u = D + 2 * u := by rw [← hDD]; ring
      rw [this]
      field_simp
      linear_combination (D * R) * hsg)
    rw [← sub_eq_add_neg] at hr1
    have hD : ¬ parB R r v * parB R r v - 4 * parA R v * parC R r < 0 := fun h => no_root h hr1
    rcases paraboloidTime_cases hR 0 ha (not_lt.mp hD) with ⟨t1, t2, hr, e⟩ | ⟨h, -, -⟩ | ⟨h, -, -⟩
    · rw [e]
      have hpos : 0 < c - u := lt_of_le_of_ne (by linarith) hcu'.symm
      have hneq : tau - sg * R / (c + u) ≠ tau + sg * R / (c - u) := by
        intro h
        have h2 : sg * R * (1 / (c + u) + 1 / (c - u)) = 0 := by
          have : sg * R / (c + u) + sg * R / (c - u) = 0 := by linarith
          rw [← this]; ring
        have : 0 < 1 / (c + u) + 1 / (c - u) := by positivity
        rcases mul_eq_zero.mp h2 with h | h
        · exact hne h
        · exact this.ne' h
      have hmm : (max t1 t2 = max (tau - sg * R / (c + u)) (tau + sg * R / (c - u))) ∧
          (min t1 t2 = min (tau - sg * R / (c + u)) (tau + sg * R / (c - u))) := by
        rcases hr.only ha hr1 with h1 | h1 <;> rcases hr.only ha hr2 with h2 | h2
        · exact absurd (h1.trans h2.symm) hneq
        · rw [h1, h2]; exact ⟨rfl, rfl⟩
        · rw [h1, h2]; exact ⟨max_comm _ _, min_comm _ _⟩
        · exact absurd (h1.trans h2.symm) hneq
      rw [hmm.1, hmm.2]
      congr 2
      by_cases hs : v.z * R < 0
      · rw [if_pos hs]
        have h0 : sg * R < 0 := by
          rw [hz] at hs
          nlinarith
        have h1 := div_neg_of_neg_of_pos h0 hd
        have h2 := div_neg_of_neg_of_pos h0 hpos
        rw [max_eq_left (by linarith)]
      · rw [if_neg hs]
        have h0 : 0 ≤ sg * R := by
          rw [hz] at hs
          by_contra h
          nlinarith
        have h1 := div_nonneg h0 hd.le
        have h2 := div_nonneg h0 hpos.le
        rw [min_eq_left (by linarith)]
    · exact absurd h hC0
    · exact absurd h hC0

theorem parabola_focus_normal {R : ℝ} (hR : R ≠ 0) (x y : ℝ) :
    (paraboloid (Dbl.fin R)).normal (Dbl.fin x) (Dbl.fin y) = (quadric (Dbl.fin R) (Dbl.fin (-1 ^ 2))).normal (Dbl.fin x) (Dbl.fin y) := by
  change paraboloidNormal _ _ _ = radialNormal _ _ _
  have hdom : (x, y) ∈ quadricDomain R (-1 ^ 2) := by
    unfold quadricDomain
    have := mul_self_pos.mpr hR
    simpa using this
  rw [paraboloidNormal_fin hR, radialNormal_fin (quadricDzdr_at hR hdom)]
  norm_num
  congr 2 <;> (field_simp)

theorem parabola_reflect {c u sg : ℝ} (hpos : 0 < u + 1 * c) (hsg : sg ^ 2 = 1) {v : V3 ℝ} (hv : V3.normSq v = c ^ 2) (hz : v.z = sg * u)
    (hc : 0 < c) : mirror (unitNormal (-(sg * v.x) / (u + 1 * c)) (-(sg * v.y) / (u + 1 * c))) v = ⟨0, 0, -(sg * c)⟩ := by
  simp only [V3.normSq, V3.dot] at hv
  have hvv : v.x * v.x + v.y * v.y = c ^ 2 - u ^ 2 := by
    have : v.z * v.z = u ^ 2 := by rw [hz]; linear_combination u ^ 2 * hsg
    linarith
  have hs1 : sg * sg = 1 := by rw [← hsg]; ring
  rw [mirror_unitNormal]
  generalize hP : u + 1 * c = P at *
  have hP' := hpos.ne'
  have hc' := hc.ne'
  have hden : 1 + -(sg * v.x) / P * (-(sg * v.x) / P) + -(sg * v.y) / P * (-(sg * v.y) / P) = 2 * c / P := by
    field_simp
    have : u = P - c := by rw [← hP]; ring
    subst this
    linear_combination (v.x ^ 2 + v.y ^ 2) * hsg + hvv
  have hnum : v.z - -(sg * v.x) / P * v.x - -(sg * v.y) / P * v.y = sg * c := by
    rw [hz]
    field_simp
    rw [← hP]
    linear_combination sg * hvv
  rw [hden, hnum]
  have hfac : 2 * (sg * c) / (2 * c / P) = sg * P := by field_simp
  rw [hfac]
  ext
  · simp only [V3.sub_x, V3.smulR_x]
    field_simp
    linear_combination (-v.x) * hs1
  · simp only [V3.sub_y, V3.smulR_y]
    field_simp
    linear_combination (-v.y) * hs1
  · simp only [V3.sub_z, V3.smulR_z]
    rw [hz, ← hP]; ring

/-! ## Tracing -/

/-- The local description of a ray in the frame of a surface. -/
theorem rayAt_local {a cs : CoordSys ℝ} (ha : a.rot.Orth) {ray : Ray Dbl} {S w : V3 ℝ} {t : ℝ} (h : RayAt a ray S w t) :
    (CoordTransform.make a.fin cs.fin).forward ray.r = (cs.toLocal S).fin ∧
      (CoordTransform.make a.fin cs.fin).forwardVel ray.v = (cs.rot.tr.mulVec w).fin := by
  rw [h.pos, h.vel, CoordTransform.forward_fin, CoordTransform.forwardVel_fin, CoordSys.forward_eq ha, CoordSys.forwardVel_eq,
    CoordSys.toGlobal_toLocal ha, ha.mulVec_tr]
  exact ⟨rfl, rfl⟩

theorem orth_normSq {m : M3 ℝ} (h : m.Orth) (w : V3 ℝ) : V3.normSq (m.mulVec w) = V3.normSq w := by
  unfold V3.normSq
  rw [h.dot_mulVec]

theorem toLocal_line {cs : CoordSys ℝ} (S w : V3 ℝ) (s : ℝ) :
    cs.toLocal (S + w.smulR s) = cs.toLocal S + (cs.rot.tr.mulVec w).smulR s := by
  unfold CoordSys.toLocal
  ext <;> simp [M3.mulVec, V3.dot] <;> ring

theorem toGlobal_line {cs : CoordSys ℝ} (r v : V3 ℝ) (s : ℝ) :
    cs.toGlobal (r + v.smulR s) = cs.toGlobal r + (cs.rot.mulVec v).smulR s := by
  unfold CoordSys.toGlobal
  ext <;> simp [M3.mulVec, V3.dot] <;> ring

/-- A mirror in the frame `cs`. -/
structure MirrorIn (d : Iface Dbl) (surf : Surface Dbl) (cs : CoordSys ℝ) : Prop where
  kind : d.kind = .mirror
  surface : d.surface = surf
  frame : d.coordSys = cs.fin
  orth : cs.rot.Orth

theorem mirror_trace {d : Iface Dbl} {surf : Surface Dbl} {cs a : CoordSys ℝ} (hd : MirrorIn d surf cs) (niter : ℕ) (reverse : Bool)
    {rv : RayVec Dbl} (ha : a.rot.Orth) (hrv : rv.coordSys = a.fin) {i : ℕ} {ray : Ray Dbl} (hi : rv.rays[i]? = some ray)
    {S w : V3 ℝ} {t : ℝ} (hray : RayAt a ray S w t) {dt : ℝ} {n : V3 ℝ}
    (htime : surf.timeToIntersect (cs.toLocal S).fin (cs.rot.tr.mulVec w).fin 0 niter = (true, Dbl.fin dt))
    (hn : surf.normal (Dbl.fin (cs.toLocal S + (cs.rot.tr.mulVec w).smulR dt).x) (Dbl.fin (cs.toLocal S + (cs.rot.tr.mulVec w).smulR dt).y) = n.fin) :
    ∃ out, (d.trace niter reverse rv).rays[i]? = some out ∧ (d.trace niter reverse rv).coordSys = cs.fin ∧
      RayAt cs out (S + w.smulR dt) (cs.rot.mulVec (mirror n (cs.rot.tr.mulVec w))) (t + dt) := by
  obtain ⟨out, h1, h2, -⟩ := trace_ray d niter reverse rv i ray hi
  have hit : Hit d.surface (CoordTransform.make rv.coordSys d.coordSys) niter ray (cs.toLocal S) (cs.rot.tr.mulVec w) n dt := by
    rw [hd.surface, hd.frame, hrv]
    obtain ⟨e1, e2⟩ := rayAt_local (cs := cs) ha hray
    exact ⟨hray.live, e1, e2, htime, hn⟩
  obtain ⟨k1, k2, k3, k4, -⟩ := reflect_hit hit none
  have hk : Iface.onRay d niter reverse (CoordTransform.make rv.coordSys d.coordSys) ray =
      Ray.reflect d.surface (CoordTransform.make rv.coordSys d.coordSys) none niter ray := by
    unfold Iface.onRay; rw [hd.kind]
  rw [hk] at h2
  have hframe : (d.trace niter reverse rv).coordSys = d.coordSys := by
    unfold Iface.trace Iface.applyObscuration
    rw [interact_rays]
    cases d.obscuration <;> rfl
  refine ⟨out, h1, by rw [hframe, hd.frame], ⟨?_, ?_, ?_, ?_⟩⟩
  · rw [h2]; exact k4
  · rw [h2, toLocal_line]; exact k1
  · rw [h2, hd.orth.tr_mulVec]; exact k2
  · rw [h2]
    change (Ray.reflect _ _ _ _ _).t = _
    rw [k3, hray.time, Dbl.add_fin]

theorem mirror_normSq (gx gy : ℝ) (v : V3 ℝ) : V3.normSq (mirror (unitNormal gx gy) v) = V3.normSq v := by
  have hu : V3.dot (unitNormal gx gy) (unitNormal gx gy) = 1 :=
    (unitNormal_spec (f := fun x y => gx * x + gy * y) (x := 0) (y := 0)
      (((hasDerivAt_id' (0 : ℝ)).const_mul gx).add_const (gy * 0) |>.congr_deriv (by ring))
      (((hasDerivAt_id' (0 : ℝ)).const_mul gy).const_add (gx * 0) |>.congr_deriv (by ring))).unit
  have : V3.normSq (mirror (unitNormal gx gy) v) = V3.normSq v +
      4 * V3.dot v (unitNormal gx gy) ^ 2 * (V3.dot (unitNormal gx gy) (unitNormal gx gy) - 1) := by
    simp [mirror, V3.dot, V3.normSq]; ring
  rw [this, hu]; ring

theorem sign_sq {z : ℝ} (hz : z ≠ 0) : (z / |z|) ^ 2 = 1 := by
  rw [div_pow, sq_abs, div_self (pow_ne_zero 2 hz)]

theorem sign_mul_abs' {z : ℝ} (hz : z ≠ 0) : z = z / |z| * |z| := (div_mul_cancel₀ z (abs_ne_zero.mpr hz)).symm

/-- **C78** (conics): a mirror of radius `R` and conic constant `-e^2` (ellipsoid, sphere or hyperboloid) sends a ray that passes,
or would pass, through its focus at `R/(1+e)` at the time `T0` to the other focus, at `R/(1-e)`, where it arrives at the time
`T0 ± 2R/((1-e^2)c)`, whatever its direction. -/
theorem C78_conic {R e : ℝ} (hR : R ≠ 0) (he : -1 < e) (he1 : e ≠ 1) {d : Iface Dbl} {cs a : CoordSys ℝ}
    (hd : MirrorIn d (quadric (Dbl.fin R) (Dbl.fin (-e ^ 2))) cs) (niter : ℕ) (reverse : Bool) {rv : RayVec Dbl} (ha : a.rot.Orth)
    (hrv : rv.coordSys = a.fin) {i : ℕ} {ray : Ray Dbl} (hi : rv.rays[i]? = some ray) {S w : V3 ℝ} {t c T0 : ℝ}
    (hray : RayAt a ray S w t) (hw : V3.normSq w = c ^ 2) (hc : 0 < c)
    (hfoc : S + w.smulR (T0 - t) = cs.toGlobal ⟨0, 0, R / (1 + e)⟩)
    (hz : (cs.rot.tr.mulVec w).z ≠ 0) (hne : c ≠ e * |(cs.rot.tr.mulVec w).z|) (hpos : 0 < |(cs.rot.tr.mulVec w).z| + e * c)
    (hstart : ¬ OnQuadric R (-e ^ 2) (cs.toLocal S)) :
    ∃ out S' w' t', (d.trace niter reverse rv).rays[i]? = some out ∧ (d.trace niter reverse rv).coordSys = cs.fin ∧ RayAt cs out S' w' t' ∧
      OnQuadric R (-e ^ 2) (cs.toLocal S') ∧ V3.normSq w' = c ^ 2 ∧
      S' + w'.smulR (T0 - (cs.rot.tr.mulVec w).z / |(cs.rot.tr.mulVec w).z| * (2 * R / (1 - e ^ 2)) / c - t') = cs.toGlobal ⟨0, 0, R / (1 - e)⟩ := by
  have hl : cs.toLocal S + (cs.rot.tr.mulVec w).smulR (T0 - t) = ⟨0, 0, R / (1 + e)⟩ := by
    rw [← toLocal_line, hfoc, CoordSys.toLocal_toGlobal hd.orth]
  have hv : V3.normSq (cs.rot.tr.mulVec w) = c ^ 2 := by rw [orth_normSq hd.orth.tr, hw]
  have hzu := sign_mul_abs' hz
  have hsg := sign_sq hz
  have hu := abs_pos.mpr hz
  generalize hvd : cs.rot.tr.mulVec w = v at *
  generalize v.z / |v.z| = sg at *
  generalize |v.z| = u at *
  have hcu : u ≤ c := by
    have : u ^ 2 ≤ c ^ 2 := by
      have : v.z * v.z = u ^ 2 := by rw [hzu]; linear_combination u ^ 2 * hsg
      simp only [V3.normSq, V3.dot] at hv
      nlinarith [mul_self_nonneg v.x, mul_self_nonneg v.y]
    exact abs_le_of_sq_le_sq' this hc.le |>.2
  have hd1 : 0 < c + e * u := by nlinarith
  have htime := quadric_focus_time hR he he1 hc hu hsg hv hzu hne hl hstart niter
  have hn := conic_normal hR hd1 hpos hsg hv hzu hl
  obtain ⟨out, h1, h2, h3⟩ := mirror_trace hd niter reverse ha hrv hi hray (hvd ▸ htime) (hvd ▸ hn)
  rw [hvd] at h3
  refine ⟨out, _, _, _, h1, h2, h3, ?_, ?_, ?_⟩
  · have hk : -e ^ 2 + 1 ≠ 0 := by
      intro h
      have : (1 - e) * (1 + e) = 0 := by linear_combination h
      rcases mul_eq_zero.mp this with h | h
      · exact he1 (by linarith)
      · linarith
    have := C20_quadric hk htime
    rw [toLocal_line, hvd]
    convert this using 1
    unfold pointAt; ext <;> simp <;> ring
  · rw [orth_normSq hd.orth, mirror_normSq, hv]
  · have := congrArg cs.toGlobal (conic_reflect he he1 hc hd1 hpos hsg hv hzu hl)
    rw [toGlobal_line] at this
    rw [← this, ← hvd, ← toLocal_line, CoordSys.toGlobal_toLocal hd.orth]
    congr 2
    ring

/-- **C78** (sphere): a ray through the centre of a spherical mirror returns through the centre. -/
theorem C78_sphere {R : ℝ} (hR : R ≠ 0) {d : Iface Dbl} {cs a : CoordSys ℝ} (hd : MirrorIn d (sphere (Dbl.fin R)) cs) (niter : ℕ)
    (reverse : Bool) {rv : RayVec Dbl} (ha : a.rot.Orth) (hrv : rv.coordSys = a.fin) {i : ℕ} {ray : Ray Dbl}
    (hi : rv.rays[i]? = some ray) {S w : V3 ℝ} {t c T0 : ℝ} (hray : RayAt a ray S w t) (hw : V3.normSq w = c ^ 2) (hc : 0 < c)
    (hfoc : S + w.smulR (T0 - t) = cs.toGlobal ⟨0, 0, R⟩) (hz : (cs.rot.tr.mulVec w).z ≠ 0) (hstart : ¬ OnSphere R (cs.toLocal S)) :
    ∃ out S' t', (d.trace niter reverse rv).rays[i]? = some out ∧ (d.trace niter reverse rv).coordSys = cs.fin ∧
      RayAt cs out S' (-w) t' ∧ OnSphere R (cs.toLocal S') ∧
      S' + (-w).smulR (T0 - (cs.rot.tr.mulVec w).z / |(cs.rot.tr.mulVec w).z| * (2 * R) / c - t') = cs.toGlobal ⟨0, 0, R⟩ := by
  have hl : cs.toLocal S + (cs.rot.tr.mulVec w).smulR (T0 - t) = ⟨0, 0, R⟩ := by
    rw [← toLocal_line, hfoc, CoordSys.toLocal_toGlobal hd.orth]
  have hv : V3.normSq (cs.rot.tr.mulVec w) = c ^ 2 := by rw [orth_normSq hd.orth.tr, hw]
  have hzu := sign_mul_abs' hz
  have hsg := sign_sq hz
  have hu := abs_pos.mpr hz
  generalize hvd : cs.rot.tr.mulVec w = v at *
  generalize v.z / |v.z| = sg at *
  generalize |v.z| = u at *
  have hl' : cs.toLocal S + v.smulR (T0 - t) = ⟨0, 0, R / (1 + 0)⟩ := by rw [hl]; simp
  have htime := sphere_focus_time hR hc hu hsg hv hzu hl hstart niter
  have hn := conic_normal (e := 0) hR (by linarith) (by linarith) hsg hv hzu hl'
  simp only [zero_mul, add_zero] at hn
  have hx : (cs.toLocal S + v.smulR (T0 - t - sg * R / c)).x = -(sg * v.x) * (R / c) := by
    have := congrArg V3.x hl; simp at this; simp; linear_combination this
  have hy : (cs.toLocal S + v.smulR (T0 - t - sg * R / c)).y = -(sg * v.y) * (R / c) := by
    have := congrArg V3.y hl; simp at this; simp; linear_combination this
  have hlt : (cs.toLocal S + v.smulR (T0 - t - sg * R / c)).x * (cs.toLocal S + v.smulR (T0 - t - sg * R / c)).x +
      (cs.toLocal S + v.smulR (T0 - t - sg * R / c)).y * (cs.toLocal S + v.smulR (T0 - t - sg * R / c)).y < R * R := by
    have hvv : v.x * v.x + v.y * v.y = c ^ 2 - u ^ 2 := by
      simp only [V3.normSq, V3.dot] at hv
      have : v.z * v.z = u ^ 2 := by rw [hzu]; linear_combination u ^ 2 * hsg
      linarith
    rw [hx, hy]
    have e1 : -(sg * v.x) * (R / c) * (-(sg * v.x) * (R / c)) + -(sg * v.y) * (R / c) * (-(sg * v.y) * (R / c)) =
        (c ^ 2 - u ^ 2) * (R / c) ^ 2 := by
      linear_combination (R / c) ^ 2 * (sg ^ 2 * hvv + (c ^ 2 - u ^ 2) * hsg)
    have e2 : R * R = c ^ 2 * (R / c) ^ 2 := by
      have := hc.ne'
      field_simp
    rw [e1, e2]
    have : 0 < (R / c) ^ 2 := by positivity
    nlinarith [mul_pos (mul_pos hu hu) this]
  rw [← sphere_focus_normal hR hlt] at hn
  obtain ⟨out, h1, h2, h3⟩ := mirror_trace hd niter reverse ha hrv hi hray (hvd ▸ htime) (hvd ▸ hn)
  have hm : cs.rot.mulVec (mirror (unitNormal (-(sg * v.x) / u) (-(sg * v.y) / u)) v) = -w := by
    have hcu : c * c = v.x * v.x + v.y * v.y + u ^ 2 := by
      simp only [V3.normSq, V3.dot] at hv
      have : v.z * v.z = u ^ 2 := by rw [hzu]; linear_combination u ^ 2 * hsg
      linarith
    have : mirror (unitNormal (-(sg * v.x) / u) (-(sg * v.y) / u)) v = -v := by
      have hu' := hu.ne'
      have hc' := hc.ne'
      rw [mirror_unitNormal]
      have hden : 1 + -(sg * v.x) / u * (-(sg * v.x) / u) + -(sg * v.y) / u * (-(sg * v.y) / u) = c ^ 2 / u ^ 2 := by
        field_simp
        linear_combination (v.x ^ 2 + v.y ^ 2) * hsg - hcu
      have hnum : v.z - -(sg * v.x) / u * v.x - -(sg * v.y) / u * v.y = sg * c ^ 2 / u := by
        rw [hzu]
        field_simp
        linear_combination (-sg) * hcu
      have hfac : 2 * (sg * c ^ 2 / u) / (c ^ 2 / u ^ 2) = 2 * sg * u := by field_simp
      rw [hden, hnum, hfac]
      ext
      · simp only [V3.sub_x, V3.smulR_x, V3.neg_x]
        field_simp
        linear_combination (-2 * v.x) * hsg
      · simp only [V3.sub_y, V3.smulR_y, V3.neg_y]
        field_simp
        linear_combination (-2 * v.y) * hsg
      · simp only [V3.sub_z, V3.smulR_z, V3.neg_z]
        linear_combination (2 : ℝ) * hzu
    rw [this, ← hvd]
    have e : cs.rot.mulVec (-(cs.rot.tr.mulVec w)) = -(cs.rot.mulVec (cs.rot.tr.mulVec w)) := by
      ext <;> simp [M3.mulVec, V3.dot] <;> ring
    rw [e, hd.orth.mulVec_tr]
  rw [hvd, hm] at h3
  refine ⟨out, _, _, h1, h2, h3, ?_, ?_⟩
  · have := C20_sphere htime
    rw [toLocal_line, hvd]
    convert this using 1
    unfold pointAt; ext <;> simp <;> ring
  · rw [← hfoc]
    ext <;> simp <;> ring

/-- **C78** (paraboloid, light from the focus): a ray through the focus leaves parallel to the axis, and reaches the plane at the
height `h` at a time that does not depend on its direction. -/
theorem C78_collimate {R : ℝ} (hR : R ≠ 0) {d : Iface Dbl} {cs a : CoordSys ℝ} (hd : MirrorIn d (paraboloid (Dbl.fin R)) cs) (niter : ℕ)
    (reverse : Bool) {rv : RayVec Dbl} (ha : a.rot.Orth) (hrv : rv.coordSys = a.fin) {i : ℕ} {ray : Ray Dbl}
    (hi : rv.rays[i]? = some ray) {S w : V3 ℝ} {t c T0 : ℝ} (hray : RayAt a ray S w t) (hw : V3.normSq w = c ^ 2) (hc : 0 < c)
    (hfoc : S + w.smulR (T0 - t) = cs.toGlobal ⟨0, 0, R / 2⟩) (hz : (cs.rot.tr.mulVec w).z ≠ 0) (hstart : ¬ OnParaboloid R (cs.toLocal S)) :
    ∃ out S' w' t', (d.trace niter reverse rv).rays[i]? = some out ∧ (d.trace niter reverse rv).coordSys = cs.fin ∧ RayAt cs out S' w' t' ∧
      OnParaboloid R (cs.toLocal S') ∧ w' = cs.rot.mulVec ⟨0, 0, -((cs.rot.tr.mulVec w).z / |(cs.rot.tr.mulVec w).z| * c)⟩ ∧
      ∀ h, (cs.toLocal (S' + w'.smulR (T0 - (cs.rot.tr.mulVec w).z / |(cs.rot.tr.mulVec w).z| * (R / 2 + h) / c - t'))).z = h := by
  have hl : cs.toLocal S + (cs.rot.tr.mulVec w).smulR (T0 - t) = ⟨0, 0, R / 2⟩ := by
    rw [← toLocal_line, hfoc, CoordSys.toLocal_toGlobal hd.orth]
  have hv : V3.normSq (cs.rot.tr.mulVec w) = c ^ 2 := by rw [orth_normSq hd.orth.tr, hw]
  have hzu := sign_mul_abs' hz
  have hsg := sign_sq hz
  have hu := abs_pos.mpr hz
  generalize hvd : cs.rot.tr.mulVec w = v at *
  generalize v.z / |v.z| = sg at *
  generalize |v.z| = u at *
  have hl' : cs.toLocal S + v.smulR (T0 - t) = ⟨0, 0, R / (1 + 1)⟩ := by rw [hl]; norm_num
  have htime := parabola_focus_time hR hc hu hsg hv hzu hl hstart niter
  have hn := conic_normal (e := 1) hR (by linarith) (by linarith) hsg hv hzu hl'
  rw [← parabola_focus_normal hR] at hn
  rw [show T0 - t - sg * R / (c + u) = T0 - t - sg * R / (c + 1 * u) by rw [one_mul]] at htime
  obtain ⟨out, h1, h2, h3⟩ := mirror_trace hd niter reverse ha hrv hi hray (hvd ▸ htime) (hvd ▸ hn)
  rw [hvd, parabola_reflect (by linarith) hsg hv hzu hc] at h3
  refine ⟨out, _, _, _, h1, h2, h3, ?_, rfl, ?_⟩
  · have := C20_paraboloid hR htime
    rw [toLocal_line, hvd]
    convert this using 1
    unfold pointAt; ext <;> simp <;> ring
  · intro h
    rw [toLocal_line, hd.orth.tr_mulVec, toLocal_line, hvd]
    have hzz : (cs.toLocal S).z = R / 2 - (T0 - t) * v.z := by have := congrArg V3.z hl; simp at this; linarith
    simp only [V3.add_z, V3.smulR_z, one_mul]
    rw [hzz, hzu]
    have hcu : c + u ≠ 0 := by linarith
    have hc' := hc.ne'
    have e1 : sg * (sg * R / (c + u)) * (u + c) = R := by
      have : sg * R / (c + u) * (c + u) = sg * R := div_mul_cancel₀ _ hcu
      linear_combination sg * this + R * hsg
    have e2 : sg * c * (sg * (R / 2 + h) / c) = R / 2 + h := by
      have : sg * (R / 2 + h) / c * c = sg * (R / 2 + h) := div_mul_cancel₀ _ hc'
      linear_combination sg * this + (R / 2 + h) * hsg
    linear_combination e2 - e1

/-- **C78** (paraboloid, star light): rays parallel to the axis all come to the focus, and the path from a plane perpendicular to the
axis to the focus is the same for all of them. -/
theorem C78_focus {R : ℝ} (hR : R ≠ 0) {d : Iface Dbl} {cs a : CoordSys ℝ} (hd : MirrorIn d (paraboloid (Dbl.fin R)) cs) (niter : ℕ)
    (reverse : Bool) {rv : RayVec Dbl} (ha : a.rot.Orth) (hrv : rv.coordSys = a.fin) {i : ℕ} {ray : Ray Dbl}
    (hi : rv.rays[i]? = some ray) {S w : V3 ℝ} {t b : ℝ} (hray : RayAt a ray S w t) (hw : cs.rot.tr.mulVec w = ⟨0, 0, b⟩) (hb : b ≠ 0) :
    ∃ out S' w' t', (d.trace niter reverse rv).rays[i]? = some out ∧ (d.trace niter reverse rv).coordSys = cs.fin ∧ RayAt cs out S' w' t' ∧
      (OnParaboloid R (cs.toLocal S') ∧ (cs.toLocal S').x = (cs.toLocal S).x ∧ (cs.toLocal S').y = (cs.toLocal S).y) ∧ V3.normSq w' = b ^ 2 ∧
      S' + w'.smulR (t - (R / 2 + (cs.toLocal S).z) / b - t') = cs.toGlobal ⟨0, 0, R / 2⟩ ∧
      cs.rot.tr.mulVec w' = (V3.smulR ⟨2 * R * (cs.toLocal S).x, 2 * R * (cs.toLocal S).y, (cs.toLocal S).x ^ 2 + (cs.toLocal S).y ^ 2 - R ^ 2⟩
        (b / (R ^ 2 + (cs.toLocal S).x ^ 2 + (cs.toLocal S).y ^ 2))) := by
  generalize hr : cs.toLocal S = r at *
  have hpar : parA R ⟨0, 0, b⟩ = 0 := by simp [parA]
  have hB : parB R r ⟨0, 0, b⟩ = -b := by simp [parB]
  have htime : (paraboloid (Dbl.fin R)).timeToIntersect r.fin (⟨0, 0, b⟩ : V3 ℝ).fin 0 niter = (true, Dbl.fin (parC R r / b)) := by
    change paraboloidTime _ _ _ _ = _
    rw [paraboloidTime_fin hR, if_pos hpar, hB, Dbl.div_fin (neg_ne_zero.mpr hb), neg_div_neg_eq]
  have hn := paraboloidNormal_fin hR r.x r.y
  have hp : r + (⟨0, 0, b⟩ : V3 ℝ).smulR (parC R r / b) = ⟨r.x, r.y, r.z + parC R r⟩ := by
    ext <;> simp; field_simp
  obtain ⟨out, h1, h2, h3⟩ := mirror_trace hd niter reverse ha hrv hi hray (dt := parC R r / b)
    (n := unitNormal (2 * r.x * (1 / 2 / R)) (2 * r.y * (1 / 2 / R))) (by rw [hr, hw]; exact htime) (by rw [hr, hw, hp]; exact hn)
  have hQ : R ^ 2 + r.x ^ 2 + r.y ^ 2 ≠ 0 := by positivity
  have hm : mirror (unitNormal (2 * r.x * (1 / 2 / R)) (2 * r.y * (1 / 2 / R))) ⟨0, 0, b⟩ =
      V3.smulR ⟨2 * R * r.x, 2 * R * r.y, r.x ^ 2 + r.y ^ 2 - R ^ 2⟩ (b / (R ^ 2 + r.x ^ 2 + r.y ^ 2)) := by
    rw [mirror_unitNormal]
    have hden : 1 + 2 * r.x * (1 / 2 / R) * (2 * r.x * (1 / 2 / R)) + 2 * r.y * (1 / 2 / R) * (2 * r.y * (1 / 2 / R)) =
        (R ^ 2 + r.x ^ 2 + r.y ^ 2) / R ^ 2 := by
      field_simp
    rw [hden]
    generalize hQQ : R ^ 2 + r.x ^ 2 + r.y ^ 2 = Q at *
    ext
    · simp; field_simp
    · simp; field_simp
    · simp; field_simp; rw [← hQQ]; ring
  rw [hw, hm] at h3
  refine ⟨out, _, _, _, h1, h2, h3, ?_, ?_, ?_, ?_⟩
  · have := C20_paraboloid hR htime
    rw [toLocal_line, hr, hw]
    refine ⟨?_, by simp, by simp⟩
    convert this using 1
    unfold pointAt; ext <;> simp <;> ring
  · rw [orth_normSq hd.orth, ← hm, mirror_normSq]
    simp [V3.normSq, V3.dot]; ring
  · have e : cs.toLocal S + (⟨0, 0, b⟩ : V3 ℝ).smulR (parC R r / b) + (V3.smulR ⟨2 * R * r.x, 2 * R * r.y, r.x ^ 2 + r.y ^ 2 - R ^ 2⟩
        (b / (R ^ 2 + r.x ^ 2 + r.y ^ 2))).smulR (t - (R / 2 + r.z) / b - (t + parC R r / b)) = ⟨0, 0, R / 2⟩ := by
      rw [hr, hp]
      have hc : parC R r = (r.x ^ 2 + r.y ^ 2) / (2 * R) - r.z := by unfold parC; field_simp
      have ht : t - (R / 2 + r.z) / b - (t + parC R r / b) = -(R ^ 2 + r.x ^ 2 + r.y ^ 2) / (2 * R * b) := by
        rw [hc]; field_simp; ring
      rw [ht, hc]
      generalize hQQ : R ^ 2 + r.x ^ 2 + r.y ^ 2 = Q at *
      ext
      · simp; field_simp; ring
      · simp; field_simp; ring
      · simp; field_simp; ring
    have := congrArg cs.toGlobal e
    rw [toGlobal_line, toGlobal_line, CoordSys.toGlobal_toLocal hd.orth] at this
    rw [← this]
    congr 2
    rw [← hw, hd.orth.mulVec_tr]
  · rw [hd.orth.tr_mulVec]

/-- A compound of two interfaces traces one after the other. -/
theorem two_trace (info : Comp Dbl) {d1 d2 : Iface Dbl} (h1 : d1.skip = false) (h2 : d2.skip = false) (niter : ℕ) (rv : RayVec Dbl) :
    (Optic.compound info [.iface d1, .iface d2]).trace niter false rv = d2.trace niter false (d1.trace niter false rv) := by
  simp [Optic.trace, Optic.traceItems, Optic.skip, h1, h2]

/-- **C78** (two mirrors): a paraboloid and a conic of eccentricity `e` on the same axis, with a common focus, send all rays parallel
to the axis to the other focus of the conic, all at the same time after they crossed a plane perpendicular to the axis.  For `e > 1`
this is the Cassegrain telescope, for `e < 1` the Gregorian one. -/
theorem C78_twoMirrors {R1 R2 e : ℝ} (hR1 : R1 ≠ 0) (hR2 : R2 ≠ 0) (he : 0 ≤ e) (he1 : e ≠ 1) {d1 d2 : Iface Dbl} {m1 m2 a : CoordSys ℝ}
    (hd1 : MirrorIn d1 (paraboloid (Dbl.fin R1)) m1) (hd2 : MirrorIn d2 (quadric (Dbl.fin R2) (Dbl.fin (-e ^ 2))) m2)
    (hs1 : d1.skip = false) (hs2 : d2.skip = false) (haxis : m2.rot = m1.rot)
    (hcommon : m2.toGlobal ⟨0, 0, R2 / (1 + e)⟩ = m1.toGlobal ⟨0, 0, R1 / 2⟩)
    (info : Comp Dbl) (niter : ℕ) {rv : RayVec Dbl} (ha : a.rot.Orth) (hrv : rv.coordSys = a.fin) {i : ℕ} {ray : Ray Dbl}
    (hi : rv.rays[i]? = some ray) {S w : V3 ℝ} {t b x y z : ℝ} (hray : RayAt a ray S w t) (hS : m1.toLocal S = ⟨x, y, z⟩)
    (hw : m1.rot.tr.mulVec w = ⟨0, 0, b⟩) (hb : b ≠ 0) (hap : x ^ 2 + y ^ 2 < R1 ^ 2)
    (hasym : R1 ^ 2 + (x ^ 2 + y ^ 2) ≠ e * (R1 ^ 2 - (x ^ 2 + y ^ 2)))
    (hoff : ¬ OnQuadric R2 (-e ^ 2) (m2.toLocal (m1.toGlobal ⟨x, y, (x ^ 2 + y ^ 2) / (2 * R1)⟩))) :
    ∃ out S' w' t', ((Optic.compound info [.iface d1, .iface d2]).trace niter false rv).rays[i]? = some out ∧
      ((Optic.compound info [.iface d1, .iface d2]).trace niter false rv).coordSys = m2.fin ∧ RayAt m2 out S' w' t' ∧
      OnQuadric R2 (-e ^ 2) (m2.toLocal S') ∧ V3.normSq w' = b ^ 2 ∧
      S' + w'.smulR (t - (R1 / 2 + z - 2 * R2 / (1 - e ^ 2)) / b - t') = m2.toGlobal ⟨0, 0, R2 / (1 - e)⟩ := by
  obtain ⟨o1, S1, w1, t1, k1, k2, k3, ⟨k4, k5, k6⟩, k7, k8, k9⟩ := C78_focus hR1 hd1 niter false ha hrv hi hray hw hb
  rw [hS] at k5 k6 k8 k9
  simp only at k5 k6 k8 k9
  have hQ : 0 < R1 ^ 2 + x ^ 2 + y ^ 2 := by positivity
  have hvz : (m2.rot.tr.mulVec w1).z = (x ^ 2 + y ^ 2 - R1 ^ 2) * (b / (R1 ^ 2 + x ^ 2 + y ^ 2)) := by
    rw [haxis, k9]; simp
  have habs : |(m2.rot.tr.mulVec w1).z| = (R1 ^ 2 - (x ^ 2 + y ^ 2)) * (|b| / (R1 ^ 2 + x ^ 2 + y ^ 2)) := by
    rw [hvz, abs_mul, abs_of_neg (by linarith), abs_div, abs_of_pos hQ]; ring
  have hbp := abs_pos.mpr hb
  have hratio : 0 < |b| / (R1 ^ 2 + x ^ 2 + y ^ 2) := div_pos hbp hQ
  have hpos : 0 < |(m2.rot.tr.mulVec w1).z| := by rw [habs]; exact mul_pos (by linarith) hratio
  have hS1 : S1 = m1.toGlobal ⟨x, y, (x ^ 2 + y ^ 2) / (2 * R1)⟩ := by
    rw [← CoordSys.toGlobal_toLocal hd1.orth S1]
    congr 1
    unfold OnParaboloid at k4
    ext
    · exact k5
    · exact k6
    · simp only; rw [← k5, ← k6, ← k4]; field_simp
  obtain ⟨out, S', w', t', j1, j2, j3, j4, j5, j6⟩ := C78_conic hR2 (by linarith) he1 hd2 niter false hd1.orth k2 k1 k3
    (c := |b|) (T0 := t - (R1 / 2 + z) / b) (by rw [k7, sq_abs]) hbp (by rw [hcommon]; exact k8) (abs_pos.mp hpos)
    (by
      rw [habs]
      intro h
      apply hasym
      have : |b| * (R1 ^ 2 + x ^ 2 + y ^ 2) = e * ((R1 ^ 2 - (x ^ 2 + y ^ 2)) * |b|) := by
        have h3 : |b| / (R1 ^ 2 + x ^ 2 + y ^ 2) * (R1 ^ 2 + x ^ 2 + y ^ 2) = |b| := div_mul_cancel₀ _ hQ.ne'
        linear_combination (R1 ^ 2 + x ^ 2 + y ^ 2) * h + e * (R1 ^ 2 - (x ^ 2 + y ^ 2)) * h3
      have h2 : |b| * (R1 ^ 2 + (x ^ 2 + y ^ 2) - e * (R1 ^ 2 - (x ^ 2 + y ^ 2))) = 0 := by linear_combination this
      rcases mul_eq_zero.mp h2 with h3 | h3
      · exact absurd h3 hbp.ne'
      · linarith)
    (by positivity) (by rw [hS1]; exact hoff)
  refine ⟨out, S', w', t', ?_, ?_, j3, j4, by rw [j5, sq_abs], ?_⟩
  · rw [two_trace info hs1 hs2]; exact j1
  · rw [two_trace info hs1 hs2]; exact j2
  · rw [← j6]
    congr 3
    have hsgn : (m2.rot.tr.mulVec w1).z / |(m2.rot.tr.mulVec w1).z| = -(b / |b|) := by
      rw [habs, hvz]
      have h1 : R1 ^ 2 - (x ^ 2 + y ^ 2) ≠ 0 := by linarith
      have h2 : x ^ 2 + y ^ 2 - R1 ^ 2 = -(R1 ^ 2 - (x ^ 2 + y ^ 2)) := by ring
      rw [h2]
      generalize R1 ^ 2 - (x ^ 2 + y ^ 2) = D at *
      have h3 := hQ.ne'
      generalize R1 ^ 2 + x ^ 2 + y ^ 2 = Q at *
      have h4 := hbp.ne'
      field_simp
    rw [hsgn]
    have h5 : b / |b| / |b| = 1 / b := by
      rw [div_div, abs_mul_abs_self]; field_simp
    have h6 : -(b / |b|) * (2 * R2 / (1 - e ^ 2)) / |b| = -(2 * R2 / (1 - e ^ 2)) * (b / |b| / |b|) := by ring
    rw [h6, h5]
    ring

/-! ## Concrete cases -/

/-- A ray given in the global frame. -/
noncomputable def freeRay (S w : V3 ℝ) : Ray Dbl := ⟨S.fin, w.fin, Dbl.fin 0, Dbl.fin 1, Dbl.fin 1, false, false⟩

theorem std_toLocal (S : V3 ℝ) : (CoordSys.std ℝ).toLocal S = S := by
  ext <;> simp [CoordSys.std, CoordSys.toLocal, M3.mulVec, M3.tr, M3.one, V3.dot]

theorem std_toGlobal (S : V3 ℝ) : (CoordSys.std ℝ).toGlobal S = S := by
  ext <;> simp [CoordSys.std, CoordSys.toGlobal, M3.mulVec, M3.one, V3.dot]

theorem std_tr (w : V3 ℝ) : (CoordSys.std ℝ).rot.tr.mulVec w = w := by
  ext <;> simp [CoordSys.std, M3.mulVec, M3.tr, M3.one, V3.dot]

theorem std_orth : (CoordSys.std ℝ).rot.Orth := M3.orth_one

theorem freeRay_at (S w : V3 ℝ) : RayAt (CoordSys.std ℝ) (freeRay S w) S w 0 :=
  ⟨rfl, by rw [std_toLocal]; rfl, by rw [std_tr]; rfl, rfl⟩

/-- A mirror in the global frame. -/
theorem demo_mirrorIn (surf : Surface Dbl) : MirrorIn { demoMirror with surface := surf } surf (CoordSys.std ℝ) := ⟨rfl, rfl, rfl, std_orth⟩

/-- Light from one focus of an ellipsoid, at z = 2, comes to the other one, at z = 6. -/
example : ∃ out S' w' t', (({ demoMirror with surface := quadric (Dbl.fin 3) (Dbl.fin (-(1 / 2) ^ 2)) } : Iface Dbl).trace 5 false
    ⟨[freeRay ⟨0, 0, 2⟩ ⟨3 / 5, 0, -4 / 5⟩], (CoordSys.std ℝ).fin⟩).rays[0]? = some out ∧ RayAt (CoordSys.std ℝ) out S' w' t' ∧
    S' + w'.smulR (8 - t') = ⟨0, 0, 6⟩ := by
  obtain ⟨out, S', w', t', h1, -, h2, -, -, h3⟩ := C78_conic (R := 3) (e := 1 / 2) (by norm_num) (by norm_num) (by norm_num)
    (demo_mirrorIn _) 5 false std_orth (rv := ⟨[freeRay ⟨0, 0, 2⟩ ⟨3 / 5, 0, -4 / 5⟩], (CoordSys.std ℝ).fin⟩) rfl (i := 0) rfl (freeRay_at _ _)
    (c := 1) (T0 := 0) (by norm_num [V3.normSq, V3.dot]) one_pos (by rw [std_toGlobal]; ext <;> norm_num) (by rw [std_tr]; norm_num)
    (by rw [std_tr]; norm_num) (by rw [std_tr]; norm_num) (by rw [std_toLocal]; norm_num [OnQuadric])
  refine ⟨out, S', w', t', h1, h2, ?_⟩
  rw [std_tr, std_toGlobal] at h3
  norm_num at h3
  convert h3 using 3

/-- Light from the centre of a sphere of radius 2 returns after a path of 4. -/
example : ∃ out S' t', (({ demoMirror with surface := sphere (Dbl.fin 2) } : Iface Dbl).trace 5 false
    ⟨[freeRay ⟨0, 0, 2⟩ ⟨3 / 5, 0, -4 / 5⟩], (CoordSys.std ℝ).fin⟩).rays[0]? = some out ∧
    RayAt (CoordSys.std ℝ) out S' (-⟨3 / 5, 0, -4 / 5⟩) t' ∧ S' + (-(⟨3 / 5, 0, -4 / 5⟩ : V3 ℝ)).smulR (4 - t') = ⟨0, 0, 2⟩ := by
  obtain ⟨out, S', t', h1, -, h2, -, h3⟩ := C78_sphere (R := 2) (by norm_num)
    (demo_mirrorIn _) 5 false std_orth (rv := ⟨[freeRay ⟨0, 0, 2⟩ ⟨3 / 5, 0, -4 / 5⟩], (CoordSys.std ℝ).fin⟩) rfl (i := 0) rfl (freeRay_at _ _)
    (c := 1) (T0 := 0) (by norm_num [V3.normSq, V3.dot]) one_pos (by rw [std_toGlobal]; ext <;> norm_num) (by rw [std_tr]; norm_num)
    (by rw [std_toLocal]; norm_num [OnSphere])
  refine ⟨out, S', t', h1, h2, ?_⟩
  rw [std_tr, std_toGlobal] at h3
  rw [← h3]
  norm_num

/-- Light from the focus of a paraboloid leaves upwards. -/
example : ∃ out S' t', (({ demoMirror with surface := paraboloid (Dbl.fin 2) } : Iface Dbl).trace 5 false
    ⟨[freeRay ⟨0, 0, 1⟩ ⟨3 / 5, 0, -4 / 5⟩], (CoordSys.std ℝ).fin⟩).rays[0]? = some out ∧
    RayAt (CoordSys.std ℝ) out S' ⟨0, 0, 1⟩ t' := by
  obtain ⟨out, S', w', t', h1, -, h2, -, h3, -⟩ := C78_collimate (R := 2) (by norm_num)
    (demo_mirrorIn _) 5 false std_orth (rv := ⟨[freeRay ⟨0, 0, 1⟩ ⟨3 / 5, 0, -4 / 5⟩], (CoordSys.std ℝ).fin⟩) rfl (i := 0) rfl (freeRay_at _ _)
    (c := 1) (T0 := 0) (by norm_num [V3.normSq, V3.dot]) one_pos (by rw [std_toGlobal]; ext <;> norm_num) (by rw [std_tr]; norm_num)
    (by rw [std_toLocal]; norm_num [OnParaboloid])
  refine ⟨out, S', t', h1, ?_⟩
  have : w' = ⟨0, 0, 1⟩ := by
    rw [h3, std_tr]
    ext <;> norm_num [CoordSys.std, M3.mulVec, M3.one, V3.dot]
  rwa [this] at h2

/-- A Cassegrain telescope: primary of focal length 1, secondary of eccentricity 2 with its vertex at z = 4/5; the ray at x = 1 comes
to z = 1/5 on the axis. -/
example : ∃ out S' w' t', ((demoComp "T" [.iface { demoMirror with surface := paraboloid (Dbl.fin 2) },
      .iface { demoMirror with surface := quadric (Dbl.fin (3 / 5)) (Dbl.fin (-2 ^ 2)), coordSys := (CoordSys.mk ⟨0, 0, 4 / 5⟩ M3.one).fin }]).trace 5 false
      ⟨[freeRay ⟨1, 0, 5⟩ ⟨0, 0, -1⟩], (CoordSys.std ℝ).fin⟩).rays[0]? = some out ∧
    RayAt ⟨⟨0, 0, 4 / 5⟩, M3.one⟩ out S' w' t' ∧ S' + w'.smulR (32 / 5 - t') = ⟨0, 0, 1 / 5⟩ := by
  have hm2 : MirrorIn { demoMirror with surface := quadric (Dbl.fin (3 / 5)) (Dbl.fin (-2 ^ 2)), coordSys := (CoordSys.mk ⟨0, 0, 4 / 5⟩ M3.one).fin }
      (quadric (Dbl.fin (3 / 5)) (Dbl.fin (-2 ^ 2))) ⟨⟨0, 0, 4 / 5⟩, M3.one⟩ := ⟨rfl, rfl, rfl, M3.orth_one⟩
  obtain ⟨out, S', w', t', h1, -, h2, -, -, h3⟩ := C78_twoMirrors (R1 := 2) (R2 := 3 / 5) (e := 2) (x := 1) (y := 0) (z := 5) (b := -1)
    (by norm_num) (by norm_num) (by norm_num) (by norm_num) (demo_mirrorIn _) hm2 rfl rfl rfl
    (by rw [std_toGlobal]; ext <;> norm_num [CoordSys.toGlobal, M3.mulVec, M3.one, V3.dot])
    ⟨false, "T".toList, (CoordSys.std ℝ).fin, ⟨fun _ => Dbl.fin 1⟩, ⟨fun _ => Dbl.fin 1⟩, false, none⟩ 5 std_orth
    (rv := ⟨[freeRay ⟨1, 0, 5⟩ ⟨0, 0, -1⟩], (CoordSys.std ℝ).fin⟩) rfl (i := 0) rfl (freeRay_at _ _) (by rw [std_toLocal]) (by rw [std_tr])
    (by norm_num) (by norm_num) (by norm_num)
    (by rw [std_toGlobal]; norm_num [OnQuadric, CoordSys.toLocal, M3.mulVec, M3.tr, M3.one, V3.dot])
  refine ⟨out, S', w', t', h1, h2, ?_⟩
  norm_num at h3
  rw [show (32 / 5 : ℝ) - t' = 32 / 5 - t' from rfl, h3]
  ext <;> norm_num [CoordSys.toGlobal, M3.mulVec, M3.one, V3.dot]

end Batoid.Props
