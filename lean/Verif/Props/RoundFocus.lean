import Verif.Props.RoundSag
import Verif.Props.RoundSnell

/-!
# Property C126: point images in arithmetic with rounding

Specification vocabulary: `Arrives p w t F d` says that what leaves `p` with velocity `w` is within `d` of the point `F` after the time `t`.
-/

namespace Batoid.Props
open Batoid

section spec

/-- After the time `t` a ray that leaves `p` with velocity `w` is within `d` of `F`. -/
def Arrives (p w : V3 ℝ) (t : ℝ) (F : V3 ℝ) (d : ℝ) : Prop := nrm (p + w.smulR t - F) ≤ d

/-- How far from the conic a computed landing point may be, if rounding errors are `u` and lengths up to `S` are involved. -/
noncomputable def landSlack (u : ℝ) (c : ℕ) (κ R S : ℝ) : ℝ :=
  210 * u * (c + 1) / |R| * (S ^ 2 + |κ + 1| * S ^ 2 + R ^ 2 / |κ + 1|)

end spec

section lemmas
variable {u : ℝ} {rd : ℝ → ℝ} {κ R x y z : ℝ} {c : ℕ} {n : V3 ℝ}

/-- A reflected ray leaves where the ray lands. -/
theorem reflect_lands {F : Type} [Arith F] (s : Surface F) (ct : CoordTransform F) (co : Option (Coating F)) (niter : ℕ) (ray : Ray F) :
    (ray.reflect s ct co niter).failed = (ray.intersect s ct none niter).failed ∧
    ((ray.intersect s ct none niter).failed = false → (ray.reflect s ct co niter).r = (ray.intersect s ct none niter).r) := by
  unfold Ray.reflect Ray.intersect
  by_cases hf : ray.failed
  · simp [hf]
  · simp only [hf, Bool.false_eq_true, if_false]
    generalize s.timeToIntersect (ct.forward ray.r) (ct.forwardVel ray.v) 0 niter = tt
    obtain ⟨ok, dt⟩ := tt
    cases ok <;> simp

theorem mirrorImage_add (n a b : V3 ℝ) : mirrorImage n (a + b) = mirrorImage n a + mirrorImage n b := by
  ext <;> simp [mirrorImage, V3.dot] <;> ring

theorem mirrorImage_smulR (n a : V3 ℝ) (t : ℝ) : mirrorImage n (a.smulR t) = (mirrorImage n a).smulR t := by
  ext <;> simp [mirrorImage, V3.dot] <;> ring

/-- The reflecting property of the parabola. -/
theorem mirror_parabola (hz : OnConic (-1) R x y z) (hn : ConicNormal (-1) R x y z n) (s : ℝ) :
    (mirrorImage n ⟨0, 0, s⟩).smulR (-((x ^ 2 + y ^ 2 + R ^ 2) / 2)) = (⟨0, 0, R / 2⟩ - ⟨x, y, z⟩ : V3 ℝ).smulR (R * s) := by
  obtain ⟨⟨t, rfl⟩, h1, -⟩ := hn
  have k := nrm_sq (⟨t * x, t * y, t * ((1 + -1) * z - R)⟩ : V3 ℝ)
  rw [h1] at k
  simp only at k
  have e := hz.1
  have D : t * x * (t * x) + t * y * (t * y) + t * ((1 + -1) * z - R) * (t * ((1 + -1) * z - R)) = 1 := by linarith
  have k' : t ^ 2 * (x ^ 2 + y ^ 2 + R ^ 2) = 1 := by linarith
  ext <;> simp only [mirrorImage, V3.dot, V3.smulR_x, V3.smulR_y, V3.smulR_z, V3.sub_x, V3.sub_y, V3.sub_z, V3.smul_x, V3.smul_y, V3.smul_z, D]
  · linear_combination (-s * R * x) * k'
  · linear_combination (-s * R * y) * k'
  · linear_combination (s * R ^ 2) * k' - s / 2 * e

/-- The reflecting property of conics. -/
theorem mirror_conic {e : ℝ} (e1 : 1 + e ≠ 0) (e2 : 1 - e ≠ 0) (hz : OnConic (-e ^ 2) R x y z) (hn : ConicNormal (-e ^ 2) R x y z n) :
    R / (1 + e) + e * z ≠ 0 ∧ R / (1 - e) - e * z ≠ 0 ∧
    (mirrorImage n (⟨x, y, z⟩ - ⟨0, 0, R / (1 + e)⟩)).smulR (R / (1 - e) - e * z) =
      (⟨0, 0, R / (1 - e)⟩ - ⟨x, y, z⟩ : V3 ℝ).smulR (R / (1 + e) + e * z) := by
  obtain ⟨⟨t, rfl⟩, h1, -⟩ := hn
  have k := nrm_sq (⟨t * x, t * y, t * ((1 + -e ^ 2) * z - R)⟩ : V3 ℝ)
  rw [h1] at k
  simp only at k
  have q := hz.1
  have D : t * x * (t * x) + t * y * (t * y) + t * ((1 + -e ^ 2) * z - R) * (t * ((1 + -e ^ 2) * z - R)) = 1 := by linarith
  obtain ⟨a, ha⟩ : ∃ a, a = R / (1 + e) := ⟨_, rfl⟩
  obtain ⟨b, hb⟩ : ∃ b, b = R / (1 - e) := ⟨_, rfl⟩
  rw [← ha, ← hb]
  have ea : a * (1 + e) = R := by rw [ha, div_mul_cancel₀ _ e1]
  have eb : b * (1 - e) = R := by rw [hb, div_mul_cancel₀ _ e2]
  clear ha hb
  have g : t ^ 2 * ((1 - e ^ 2) * (a + e * z) * (b - e * z)) = 1 := by
    have : t ^ 2 * (x ^ 2 + y ^ 2 + ((1 - e ^ 2) * z - R) ^ 2) = 1 := by linarith
    have q' : x ^ 2 + y ^ 2 = 2 * R * z - (1 - e ^ 2) * z ^ 2 := by linarith
    rw [q'] at this
    refine Eq.trans ?_ this
    congr 1
    linear_combination (b * (1 - e) - e * z * (1 - e)) * ea + (R + e * z * (1 + e)) * eb
  refine ⟨fun hh => by rw [hh] at g; simp at g, fun hh => by rw [hh] at g; simp at g, ?_⟩
  have hG : a + b = 2 * R * (t ^ 2 * ((a + e * z) * (b - e * z))) := by
    linear_combination -(a + b) * g + t ^ 2 * ((a + e * z) * (b - e * z)) * ((1 - e) * ea + (1 + e) * eb)
  have hd : (x - 0) * (t * x) + (y - 0) * (t * y) + (z - a) * (t * ((1 + -e ^ 2) * z - R)) = t * R * (a + e * z) := by
    linear_combination t * q - t * z * (1 - e) * ea
  ext <;> simp only [mirrorImage, V3.dot, V3.smulR_x, V3.smulR_y, V3.smulR_z, V3.sub_x, V3.sub_y, V3.sub_z, V3.smul_x, V3.smul_y, V3.smul_z, D, hd]
  · linear_combination x * hG
  · linear_combination y * hG
  · linear_combination ((1 - e ^ 2) * z - R) * hG + (e * z - b) * ea - (e * z + a) * eb

theorem conic_unit (hn : ConicNormal κ R x y z n) : V3.dot n n ≠ 0 := by
  rw [← nrm_sq_dot, hn.2.1]; norm_num

/-- Near the conic in its equation and on the sheet of the vertex means near it in height. -/
theorem height_near (hR : R ≠ 0) (ho : OffRim c κ R x y) (hz : OnConic κ R x y z) {z' : ℝ} (hs : 0 < R * (R - (1 + κ) * z')) {E : ℝ}
    (hE : |x ^ 2 + y ^ 2 + (κ + 1) * z' ^ 2 - 2 * R * z'| ≤ E) : |z' - z| ≤ (c + 1) / |R| * E := by
  obtain ⟨h1, h2⟩ := hz
  have c0 : (0 : ℝ) ≤ c := Nat.cast_nonneg c
  have Rp := abs_pos.2 hR
  have f : x ^ 2 + y ^ 2 + (κ + 1) * z' ^ 2 - 2 * R * z' = (z' - z) * (-(R - (1 + κ) * z') - (R - (1 + κ) * z)) := by
    linear_combination h1
  have g : (R - (1 + κ) * z) ^ 2 = R ^ 2 - (1 + κ) * (x ^ 2 + y ^ 2) := by linear_combination (1 + κ) * h1
  have k1 : R ^ 2 ≤ (c + 1) * (R - (1 + κ) * z) ^ 2 := by
    unfold OffRim at ho
    rw [g]; linarith
  have k2 : |R| ≤ (c + 1) * |R - (1 + κ) * z| := by
    refine abs_le_of_sq_le_sq' ?_ (by positivity) |>.2
    rw [sq_abs, mul_pow, sq_abs]
    have : (c + 1) * (R - (1 + κ) * z) ^ 2 ≤ (c + 1) ^ 2 * (R - (1 + κ) * z) ^ 2 :=
      mul_le_mul_of_nonneg_right (by nlinarith) (sq_nonneg _)
    linarith
  have k3 : |R - (1 + κ) * z| ≤ |-(R - (1 + κ) * z') - (R - (1 + κ) * z)| := by
    rw [← neg_add', abs_neg]
    rcases lt_or_gt_of_ne hR with h | h
    · have a1 : R - (1 + κ) * z < 0 := by nlinarith
      have a2 : R - (1 + κ) * z' < 0 := by nlinarith
      rw [abs_of_neg a1, abs_of_neg (by linarith)]; linarith
    · have a1 : 0 < R - (1 + κ) * z := by nlinarith
      have a2 : 0 < R - (1 + κ) * z' := by nlinarith
      rw [abs_of_pos a1, abs_of_pos (by linarith)]; linarith
  rw [f, abs_mul] at hE
  rw [div_mul_eq_mul_div, le_div_iff₀ Rp]
  have d0 := abs_nonneg (z' - z)
  calc |z' - z| * |R| ≤ |z' - z| * ((c + 1) * |R - (1 + κ) * z|) := mul_le_mul_of_nonneg_left k2 d0
    _ ≤ |z' - z| * ((c + 1) * |-(R - (1 + κ) * z') - (R - (1 + κ) * z)|) :=
      mul_le_mul_of_nonneg_left (mul_le_mul_of_nonneg_left k3 (by linarith)) d0
    _ = (c + 1) * (|z' - z| * |-(R - (1 + κ) * z') - (R - (1 + κ) * z)|) := by ring
    _ ≤ (c + 1) * E := mul_le_mul_of_nonneg_left hE (by linarith)

theorem vertical (x y z z' : ℝ) : nrm ((⟨x, y, z'⟩ : V3 ℝ) - ⟨x, y, z⟩) = |z' - z| := by
  have : ((⟨x, y, z'⟩ : V3 ℝ) - ⟨x, y, z⟩) = ⟨0, 0, z' - z⟩ := by ext <;> simp
  rw [this, nrm, ← Real.sqrt_sq_eq_abs]
  congr 1
  simp [V3.normSq, V3.dot]; ring

/-- How a reflection carries a bundle through one point into a bundle through another, with errors: `p` is the landing point, `p0` the
point of the surface, `m` the mirror image of the velocity, `w` the velocity computed. -/
theorem carry {p p0 v w F G : V3 ℝ} {ε a b t d δ : ℝ} (hN : V3.dot n n ≠ 0) (ha : a ≠ 0)
    (hF : nrm (p0 - F) = |a|)
    (hm : (mirrorImage n (p0 - F)).smulR b = (G - p0).smulR a)
    (hp : nrm (p - (F + v.smulR t)) ≤ d) (hδ : nrm (p - p0) ≤ δ) (hw : nrm (w - mirrorImage n v) ≤ ε * nrm v) (hε : 0 ≤ ε) :
    Arrives p w (b / a * t) G (δ + ε * |b| + (1 + ε) * (|b / a| * (δ + d))) := by
  have a0 := abs_pos.2 ha
  have eξ : v.smulR t - (p0 - F) = (p - p0) - (p - (F + v.smulR t)) := by ext <;> simp <;> ring
  have hξ : nrm (v.smulR t - (p0 - F)) ≤ δ + d := by
    rw [eξ]; exact (nrm_sub _ _).trans (add_le_add hδ hp)
  have e1 : (mirrorImage n v).smulR (b / a * t) = (G - p0) + (mirrorImage n (v.smulR t - (p0 - F))).smulR (b / a) := by
    have l1 : mirrorImage n (v.smulR t) = mirrorImage n (p0 - F) + mirrorImage n (v.smulR t - (p0 - F)) := by
      rw [← mirrorImage_add]; congr 1; ext <;> simp
    rw [mirrorImage_smulR] at l1
    have x1 := congrArg V3.x l1
    have y1 := congrArg V3.y l1
    have z1 := congrArg V3.z l1
    have x2 := congrArg V3.x hm
    have y2 := congrArg V3.y hm
    have z2 := congrArg V3.z hm
    simp only [V3.smulR_x, V3.smulR_y, V3.smulR_z, V3.add_x, V3.add_y, V3.add_z] at x1 y1 z1 x2 y2 z2
    ext <;> simp only [V3.smulR_x, V3.smulR_y, V3.smulR_z, V3.add_x, V3.add_y, V3.add_z] <;> field_simp
    · linear_combination b * x1 + x2
    · linear_combination b * y1 + y2
    · linear_combination b * z1 + z2
  have e2 : p + w.smulR (b / a * t) - G = (p - p0) + ((w - mirrorImage n v).smulR (b / a * t) +
      (mirrorImage n (v.smulR t - (p0 - F))).smulR (b / a)) := by
    have x1 := congrArg V3.x e1
    have y1 := congrArg V3.y e1
    have z1 := congrArg V3.z e1
    simp only [V3.smulR_x, V3.smulR_y, V3.smulR_z, V3.add_x, V3.add_y, V3.add_z, V3.sub_x, V3.sub_y, V3.sub_z] at x1 y1 z1
    ext <;> simp only [V3.smulR_x, V3.smulR_y, V3.smulR_z, V3.add_x, V3.add_y, V3.add_z, V3.sub_x, V3.sub_y, V3.sub_z]
    · linear_combination x1
    · linear_combination y1
    · linear_combination z1
  have t1 : |t| * nrm v ≤ |a| + (δ + d) := by
    rw [← nrm_smulR, ← hF]
    have := nrm_close (v.smulR t) (p0 - F)
    linarith
  have ba := abs_nonneg (b / a)
  have n1 := nrm_add (p - p0) ((w - mirrorImage n v).smulR (b / a * t) + (mirrorImage n (v.smulR t - (p0 - F))).smulR (b / a))
  have n2 := nrm_add ((w - mirrorImage n v).smulR (b / a * t)) ((mirrorImage n (v.smulR t - (p0 - F))).smulR (b / a))
  rw [nrm_smulR, nrm_smulR, mirrorImage_len hN] at n2
  have n3 : |b / a * t| * nrm (w - mirrorImage n v) ≤ |b / a| * (ε * (|a| + (δ + d))) := by
    rw [abs_mul, mul_assoc]
    refine mul_le_mul_of_nonneg_left ?_ ba
    calc |t| * nrm (w - mirrorImage n v) ≤ |t| * (ε * nrm v) := mul_le_mul_of_nonneg_left hw (abs_nonneg t)
      _ = ε * (|t| * nrm v) := by ring
      _ ≤ _ := mul_le_mul_of_nonneg_left t1 hε
  have n4 : |b / a| * nrm (v.smulR t - (p0 - F)) ≤ |b / a| * (δ + d) := mul_le_mul_of_nonneg_left hξ ba
  have n5 : |b / a| * |a| = |b| := by rw [abs_div, div_mul_cancel₀ _ a0.ne']
  unfold Arrives
  rw [e2]
  have : |b / a| * (ε * (|a| + (δ + d))) = ε * |b| + ε * (|b / a| * (δ + d)) := by rw [← n5]; ring
  linarith

theorem focal_distance {e : ℝ} (e1 : 1 + e ≠ 0) (hz : OnConic (-e ^ 2) R x y z) :
    nrm ((⟨x, y, z⟩ : V3 ℝ) - ⟨0, 0, R / (1 + e)⟩) = |R / (1 + e) + e * z| := by
  rw [nrm, ← Real.sqrt_sq_eq_abs]
  congr 1
  have ea : R / (1 + e) * (1 + e) = R := div_mul_cancel₀ _ e1
  generalize R / (1 + e) = a at *
  simp only [V3.normSq, V3.dot, V3.sub_x, V3.sub_y, V3.sub_z]
  linear_combination hz.1 - 2 * z * ea

end lemmas

section c126
variable {u : ℝ} {rd : ℝ → ℝ} {κ R z : ℝ} {c : ℕ}

/-- **C126** (parabolic mirrors).  A ray that comes in along the axis leaves the mirror for the focus: after the time `(ρ² + R²) / 2 R` over
its speed it is within a few hundred roundings of it. -/
theorem C126_parabola (h : Rounds u rd) (hu : u ≤ 1 / 1000) (hR : R ≠ 0) (ct : CoordTransform (Flt rd)) (co : Option (Coating (Flt rd)))
    (niter : ℕ) (ray : Ray (Flt rd)) {r q w : V3 ℝ} {s : ℝ} (hs : s ≠ 0) (hr : ct.forward ray.r = r.flt rd)
    (hv : ct.forwardVel ray.v = (⟨0, 0, s⟩ : V3 ℝ).flt rd)
    (hok : (ray.reflect (.paraboloid (Flt.fin rd R)) ct co niter).failed = false)
    (hq : (ray.reflect (.paraboloid (Flt.fin rd R)) ct co niter).r = q.flt rd)
    (hw : (ray.reflect (.paraboloid (Flt.fin rd R)) ct co niter).v = w.flt rd) :
    Arrives q w (-((q.x ^ 2 + q.y ^ 2 + R ^ 2) / (2 * (R * s)))) ⟨0, 0, R / 2⟩
      (80 * u * ((nrm r + nrm (q - r)) ^ 2 / (2 * |R|) + (nrm r + nrm (q - r))) + 574 * u * ((q.x ^ 2 + q.y ^ 2 + R ^ 2) / (2 * |R|))) := by
  have hu0 := h.nonneg
  obtain ⟨l1, l2⟩ := reflect_lands (.paraboloid (Flt.fin rd R)) ct co niter ray
  have hok' := l1.symm.trans hok
  have hq' := (l2 hok').symm.trans hq
  have hf : ray.failed = false := by
    by_contra hf
    rw [Bool.not_eq_false] at hf
    simp [Ray.reflect, hf] at hok
  have k1 := C118_paraboloid h hu hR ct none niter ray hf hr hv hok' hq'
  obtain ⟨z, n, hz, hn⟩ := conic_exists (c := 1) (κ := -1) (x := q.x) (y := q.y) hR (by unfold OffRim; nlinarith [sq_nonneg R])
  obtain ⟨v, hv', hd⟩ := C125_reflect h hu (C114_paraboloid h (by linarith) R) (by linarith) ct co niter ray hw hok (by rw [hq]; rfl)
    (by rw [hq]; rfl) (C125_paraboloid_normal h (by linarith) hz hn) hn.2.1 (by linarith)
  obtain rfl : v = ⟨0, 0, s⟩ := V3.flt_inj (hv'.symm.trans hv)
  have m := mirror_parabola hz hn s
  have Rs : R * s ≠ 0 := mul_ne_zero hR hs
  have D0 : 0 ≤ q.x ^ 2 + q.y ^ 2 + R ^ 2 := by positivity
  have hzz : z = (q.x ^ 2 + q.y ^ 2) / (2 * R) := by
    rw [eq_div_iff (by positivity)]; linear_combination -hz.1
  have e2 : q + w.smulR (-((q.x ^ 2 + q.y ^ 2 + R ^ 2) / (2 * (R * s)))) - ⟨0, 0, R / 2⟩ =
      (⟨q.x, q.y, q.z⟩ - ⟨q.x, q.y, z⟩) + (w - mirrorImage n ⟨0, 0, s⟩).smulR (-((q.x ^ 2 + q.y ^ 2 + R ^ 2) / (2 * (R * s)))) := by
    have x2 := congrArg V3.x m
    have y2 := congrArg V3.y m
    have z2 := congrArg V3.z m
    simp only [V3.smulR_x, V3.smulR_y, V3.smulR_z, V3.sub_x, V3.sub_y, V3.sub_z] at x2 y2 z2
    ext <;> simp only [V3.smulR_x, V3.smulR_y, V3.smulR_z, V3.add_x, V3.add_y, V3.add_z, V3.sub_x, V3.sub_y, V3.sub_z] <;> field_simp
    · linear_combination 2 * x2
    · linear_combination 2 * y2
    · linear_combination 2 * z2
  unfold Arrives
  rw [e2]
  refine (nrm_add _ _).trans (add_le_add ?_ ?_)
  · rw [vertical, hzz]; exact k1
  · rw [nrm_smulR]
    have ns : nrm (⟨0, 0, s⟩ : V3 ℝ) = |s| := by
      rw [nrm, ← Real.sqrt_sq_eq_abs]; congr 1; simp [V3.normSq, V3.dot]; ring
    rw [ns] at hd
    have sp := abs_pos.2 hs
    have Rp := abs_pos.2 hR
    rw [abs_neg, abs_div, abs_of_nonneg D0, abs_mul, abs_mul, abs_two]
    calc (q.x ^ 2 + q.y ^ 2 + R ^ 2) / (2 * (|R| * |s|)) * nrm (w - mirrorImage n ⟨0, 0, s⟩)
        ≤ (q.x ^ 2 + q.y ^ 2 + R ^ 2) / (2 * (|R| * |s|)) * ((30 * u + 3 * (64 * u) + 11 * (32 * u)) * |s|) :=
          mul_le_mul_of_nonneg_left hd (by positivity)
      _ = 574 * u * ((q.x ^ 2 + q.y ^ 2 + R ^ 2) / (2 * |R|)) := by field_simp; ring

/-- The general case of the next two, for a surface whose landing points and normals are those of a conic up to errors. -/
theorem conic_images (h : Rounds u rd) (hu : u ≤ 1 / 1000) {e : ℝ} (e1 : 1 + e ≠ 0) (e2 : 1 - e ≠ 0) {s : Surface (Flt rd)} {η ν : ℝ}
    (hs : UnitNormals rd η s) (hη : η ≤ 1 / 10) (hη0 : 0 ≤ η) (hν : ν ≤ 1 / 10)
    (ct : CoordTransform (Flt rd)) (co : Option (Coating (Flt rd))) (niter : ℕ) (ray : Ray (Flt rd)) {r v q w n : V3 ℝ}
    (hr : ct.forward ray.r = r.flt rd) (hv : ct.forwardVel ray.v = v.flt rd)
    (hok : (ray.reflect s ct co niter).failed = false)
    (hq : (ray.reflect s ct co niter).r = q.flt rd) (hw : (ray.reflect s ct co niter).v = w.flt rd)
    (hz : OnConic (-e ^ 2) R q.x q.y z) (hn : ConicNormal (-e ^ 2) R q.x q.y z n) (hN : NormalWithin rd s q.x q.y n ν) {τ d δ : ℝ}
    (hδ : |q.z - z| ≤ δ) (hτ : Arrives r v τ ⟨0, 0, R / (1 + e)⟩ d) :
    ∃ t, nrm (q - (r + v.smulR t)) ≤ 7 * u * (nrm r + nrm (q - r)) ∧
      Arrives q w ((R / (1 - e) - e * z) / (R / (1 + e) + e * z) * (t - τ)) ⟨0, 0, R / (1 - e)⟩
        (δ + (30 * u + 3 * η + 11 * ν) * |R / (1 - e) - e * z| + (1 + (30 * u + 3 * η + 11 * ν)) *
          (|(R / (1 - e) - e * z) / (R / (1 + e) + e * z)| * (δ + (d + 7 * u * (nrm r + nrm (q - r)))))) := by
  have hu0 := h.nonneg
  obtain ⟨l1, l2⟩ := reflect_lands s ct co niter ray
  have hok' := l1.symm.trans hok
  have hq' := (l2 hok').symm.trans hq
  have hf : ray.failed = false := by
    by_contra hf
    rw [Bool.not_eq_false] at hf
    simp [Ray.reflect, hf] at hok
  obtain ⟨t, -, hp⟩ := landing_time hf hr hv hok' hq'
  obtain ⟨k2, k3⟩ := landing_point h hu hp
  have r0 := nrm_nonneg r
  have q0 := nrm_nonneg (q - r)
  have k4 : nrm (q - (r + v.smulR t)) ≤ 7 * u * (nrm r + nrm (q - r)) := by
    refine k2.trans ?_
    have := mul_le_mul_of_nonneg_left k3 (show 0 ≤ 5 * u by positivity)
    have h1 : u * (u * nrm r) ≤ 1 / 1000 * (u * nrm r) := mul_le_mul_of_nonneg_right hu (by positivity)
    have := mul_nonneg hu0 r0
    have := mul_nonneg hu0 q0
    nlinarith
  obtain ⟨v', hv', hd⟩ := C125_reflect h hu hs hη ct co niter ray hw hok (by rw [hq]; rfl) (by rw [hq]; rfl) hN hn.2.1 hν
  obtain rfl : v' = v := V3.flt_inj (hv'.symm.trans hv)
  obtain ⟨m1, -, m3⟩ := mirror_conic e1 e2 hz hn
  have ν0 : 0 ≤ ν := by
    obtain ⟨_, -, k⟩ := hN
    exact (nrm_nonneg _).trans k
  refine ⟨t, k4, carry (conic_unit hn) m1 (focal_distance e1 hz) m3 (d := d + 7 * u * (nrm r + nrm (q - r))) ?_ ?_ hd (by positivity)⟩
  · have e3 : q - (⟨0, 0, R / (1 + e)⟩ + v'.smulR (t - τ)) = (q - (r + v'.smulR t)) + (r + v'.smulR τ - ⟨0, 0, R / (1 + e)⟩) := by
      ext <;> simp <;> ring
    rw [e3]
    have := nrm_add (q - (r + v'.smulR t)) (r + v'.smulR τ - ⟨0, 0, R / (1 + e)⟩)
    unfold Arrives at hτ
    linarith
  · rw [← vertical q.x q.y] at hδ
    exact hδ

/-- **C126** (ellipsoidal and hyperbolic mirrors, `Quadric`).  Rays through one focus, up to `d`, leave for the other, up to `d` times the
magnification and roundings. -/
theorem C126_conic (h : Rounds u rd) (h1 : rd 1 = 1) (hc : 1 ≤ c) (hcu : (1320 * c + 1000) * u ≤ 1) (hR : R ≠ 0) {e : ℝ} (e1 : 1 + e ≠ 0)
    (e2 : 1 - e ≠ 0) (ct : CoordTransform (Flt rd)) (co : Option (Coating (Flt rd))) (niter : ℕ) (ray : Ray (Flt rd)) {r v q w : V3 ℝ}
    (hr : ct.forward ray.r = r.flt rd) (hv : ct.forwardVel ray.v = v.flt rd)
    (hok : (ray.reflect (.quadric (Flt.fin rd R) (Flt.fin rd (-e ^ 2))) ct co niter).failed = false)
    (hq : (ray.reflect (.quadric (Flt.fin rd R) (Flt.fin rd (-e ^ 2))) ct co niter).r = q.flt rd)
    (hw : (ray.reflect (.quadric (Flt.fin rd R) (Flt.fin rd (-e ^ 2))) ct co niter).v = w.flt rd)
    (ho : OffRim c (-e ^ 2) R q.x q.y) (hz : OnConic (-e ^ 2) R q.x q.y z) (hs : 0 < R * (R - (1 + -e ^ 2) * q.z)) {τ d : ℝ}
    (hτ : Arrives r v τ ⟨0, 0, R / (1 + e)⟩ d) :
    ∃ t, nrm (q - (r + v.smulR t)) ≤ 7 * u * (nrm r + nrm (q - r)) ∧
      Arrives q w ((R / (1 - e) - e * z) / (R / (1 + e) + e * z) * (t - τ)) ⟨0, 0, R / (1 - e)⟩
        (landSlack u c (-e ^ 2) R (nrm r + nrm (q - r)) + (1452 * c + 844) * u * |R / (1 - e) - e * z| +
          (1 + (1452 * c + 844) * u) * (|(R / (1 - e) - e * z) / (R / (1 + e) + e * z)| *
            (landSlack u c (-e ^ 2) R (nrm r + nrm (q - r)) + (d + 7 * u * (nrm r + nrm (q - r)))))) := by
  have hc' : (1 : ℝ) ≤ c := by exact_mod_cast hc
  have hu0 := h.nonneg
  have cu : 0 ≤ c * u := by positivity
  obtain ⟨l1, l2⟩ := reflect_lands (.quadric (Flt.fin rd R) (Flt.fin rd (-e ^ 2))) ct co niter ray
  have hok' := l1.symm.trans hok
  have hq' := (l2 hok').symm.trans hq
  have hf : ray.failed = false := by
    by_contra hf
    rw [Bool.not_eq_false] at hf
    simp [Ray.reflect, hf] at hok
  have κ1 : -e ^ 2 + 1 ≠ 0 := by
    have := mul_ne_zero e1 e2
    intro hh; apply this; linear_combination hh
  have k1 := height_near hR ho hz hs (C118_quadric h (by nlinarith) h1 R κ1 ct none niter ray hf hr hv hok' hq')
  obtain ⟨z', n, hz', hn⟩ := conic_exists hR ho
  obtain rfl : z' = z := by
    have := height_near hR ho hz hz'.2 (E := 0) (by rw [abs_le]; constructor <;> linarith [hz'.1])
    rw [mul_zero] at this
    exact sub_eq_zero.1 (abs_nonpos_iff.1 this)
  have := conic_images h (by nlinarith) e1 e2 (C114_quadric h (by nlinarith) _ _) (by nlinarith) (by positivity) (ν := (132 * c + 62) * u)
    (by nlinarith) ct co niter ray hr hv hok hq hw hz hn (C125_quadric_normal h h1 hc (by nlinarith) ho hz hn) k1 hτ
  rw [show 30 * u + 3 * (44 * u) + 11 * ((132 * c + 62) * u) = (1452 * c + 844) * u by ring,
    show (↑c + 1) / |R| * (210 * u * ((nrm r + nrm (q - r)) ^ 2 + |-e ^ 2 + 1| * (nrm r + nrm (q - r)) ^ 2 + R ^ 2 / |-e ^ 2 + 1|)) =
      landSlack u c (-e ^ 2) R (nrm r + nrm (q - r)) by unfold landSlack; ring] at this
  exact this

/-- **C126** (spherical mirrors, `Sphere`).  Rays through the centre come back to it. -/
theorem C126_sphere (h : Rounds u rd) (h1 : rd 1 = 1) (hc : 1 ≤ c) (hcu : (1320 * c + 1000) * u ≤ 1) (hR : R ≠ 0)
    (ct : CoordTransform (Flt rd)) (co : Option (Coating (Flt rd))) (niter : ℕ) (ray : Ray (Flt rd)) {r v q w : V3 ℝ}
    (hr : ct.forward ray.r = r.flt rd) (hv : ct.forwardVel ray.v = v.flt rd) (hv0 : v ≠ ⟨0, 0, 0⟩)
    (hok : (ray.reflect (.sphere (Flt.fin rd R)) ct co niter).failed = false)
    (hq : (ray.reflect (.sphere (Flt.fin rd R)) ct co niter).r = q.flt rd)
    (hw : (ray.reflect (.sphere (Flt.fin rd R)) ct co niter).v = w.flt rd)
    (ho : OffRim c 0 R q.x q.y) (hs : 0 < R * (R - q.z)) {τ d : ℝ}
    (hτ : Arrives r v τ ⟨0, 0, R⟩ d) :
    ∃ t, nrm (q - (r + v.smulR t)) ≤ 7 * u * (nrm r + nrm (q - r)) ∧
      Arrives q w (t - τ) ⟨0, 0, R⟩ ((1 + (1452 * c + 910) * u) * d + 4 * ((c + 1) / |R| * (150 * u * (nrm r + |R| + nrm (q - r)) ^ 2)) +
        (1452 * c + 910) * u * |R| + 15 * u * (nrm r + nrm (q - r))) := by
  have hc' : (1 : ℝ) ≤ c := by exact_mod_cast hc
  have hu0 := h.nonneg
  have cu : 0 ≤ c * u := by positivity
  obtain ⟨l1, l2⟩ := reflect_lands (.sphere (Flt.fin rd R)) ct co niter ray
  have hok' := l1.symm.trans hok
  have hq' := (l2 hok').symm.trans hq
  have hf : ray.failed = false := by
    by_contra hf
    rw [Bool.not_eq_false] at hf
    simp [Ray.reflect, hf] at hok
  obtain ⟨z, n, hz, hn⟩ := conic_exists hR ho
  have k0 := C118_sphere h (by nlinarith) R ct none niter ray hf hr hv hv0 hok' hq'
  have k1 := height_near hR ho hz (z' := q.z) (by rw [show R - (1 + 0) * q.z = R - q.z by ring]; exact hs)
    (E := 150 * u * (nrm r + |R| + nrm (q - r)) ^ 2) (by
      refine le_trans (le_of_eq ?_) k0
      congr 1
      rw [nrm_sq]
      simp only [V3.sub_x, V3.sub_y, V3.sub_z]
      ring)
  have z0 : (0 : ℝ) = -0 ^ 2 := by norm_num
  have hN := C125_sphere_normal h h1 hc (by nlinarith) ho hz hn
  rw [z0] at hz hn
  obtain ⟨t, a1, a2⟩ := conic_images (e := 0) h (by nlinarith) (by norm_num) (by norm_num) (C114_sphere h (by nlinarith) _) (by nlinarith) (by positivity)
    (ν := (132 * c + 68) * u) (by nlinarith) ct co niter ray hr hv hok hq hw hz hn hN k1 (τ := τ) (d := d)
    (by rw [add_zero, div_one]; exact hτ)
  refine ⟨t, a1, ?_⟩
  rw [add_zero, sub_zero, div_one, zero_mul, add_zero, sub_zero, div_self hR, one_mul, abs_one, one_mul] at a2
  have d0 : 0 ≤ d := (nrm_nonneg _).trans hτ
  refine le_trans a2 ?_
  have δ0 := (abs_nonneg _).trans k1
  generalize (↑c + 1) / |R| * (150 * u * (nrm r + |R| + nrm (q - r)) ^ 2) = δ at *
  have S0 : 0 ≤ u * (nrm r + nrm (q - r)) := mul_nonneg hu0 (add_nonneg (nrm_nonneg _) (nrm_nonneg _))
  rw [show 30 * u + 3 * (44 * u) + 11 * ((132 * c + 68) * u) = (1452 * c + 910) * u by ring]
  have ε1 : (1452 * c + 910) * u ≤ 11 / 10 := by nlinarith
  have e1 := mul_le_mul_of_nonneg_right ε1 δ0
  have e2 := mul_le_mul_of_nonneg_right ε1 S0
  nlinarith

/-- **C126** (frames).  A bundle stays one when it is carried, with errors, into a frame displaced by `o`. -/
theorem C126_shift {p w p' w' F o : V3 ℝ} {t d a b : ℝ} (hm : Arrives p w t F d) (hp : nrm (p' - (p - o)) ≤ a) (hw : nrm (w' - w) ≤ b) :
    Arrives p' w' t (F - o) (d + a + |t| * b) := by
  unfold Arrives at *
  have e : p' + w'.smulR t - (F - o) = (p + w.smulR t - F) + ((p' - (p - o)) + (w' - w).smulR t) := by ext <;> simp <;> ring
  rw [e]
  have n1 := nrm_add (p + w.smulR t - F) ((p' - (p - o)) + (w' - w).smulR t)
  have n2 := nrm_add (p' - (p - o)) ((w' - w).smulR t)
  rw [nrm_smulR] at n2
  have := mul_le_mul_of_nonneg_left hw (abs_nonneg t)
  linarith

/-- **C126** (spots).  A ray that meets the origin of the detector's frame up to `d` is recorded there, up to `d` over the cosine of the angle
of incidence and roundings. -/
theorem C126_spot (h : Rounds u rd) (hu : u ≤ 1 / 1000) (ct : CoordTransform (Flt rd)) (co : Option (Coating (Flt rd))) (niter : ℕ)
    (ray : Ray (Flt rd)) (hf : ray.failed = false) {r v : V3 ℝ} (hr : ct.forward ray.r = r.flt rd)
    (hv : ct.forwardVel ray.v = v.flt rd) (hz : v.z ≠ 0) {t d : ℝ} (hm : Arrives r v t ⟨0, 0, 0⟩ d) :
    ∃ q : V3 ℝ, (ray.intersect Surface.plane ct co niter).r = q.flt rd ∧
      nrm q ≤ (d + 5 * u * |r.z|) * (nrm v / |v.z|) + u * nrm r := by
  have hu0 := h.nonneg
  obtain ⟨q, hq, -, hd⟩ := C115_plane h hu ct co niter ray hf hr hv hz
  refine ⟨q, hq, ?_⟩
  have zp := abs_pos.2 hz
  have k : nrm (r + v.smulR (-r.z / v.z)) ≤ d * (nrm v / |v.z|) := by
    have c1 := nrm_cross (r + v.smulR t - ⟨0, 0, 0⟩) v
    have c2 : nrm (r + v.smulR (-r.z / v.z)) * |v.z| ≤ nrm (V3.cross (r + v.smulR t - ⟨0, 0, 0⟩) v) := by
      refine abs_le_of_sq_le_sq' ?_ (nrm_nonneg _) |>.2
      rw [mul_pow, sq_abs, nrm_sq, nrm_sq]
      simp only [V3.cross, V3.add_x, V3.add_y, V3.add_z, V3.sub_x, V3.sub_y, V3.sub_z, V3.smulR_x, V3.smulR_y, V3.smulR_z]
      have e : ((r.x + v.x * (-r.z / v.z)) ^ 2 + (r.y + v.y * (-r.z / v.z)) ^ 2 + (r.z + v.z * (-r.z / v.z)) ^ 2) * v.z ^ 2 =
          (r.x * v.z - v.x * r.z) ^ 2 + (r.y * v.z - v.y * r.z) ^ 2 := by field_simp; ring
      rw [e]
      nlinarith [sq_nonneg ((r.x + v.x * t - 0) * v.y - (r.y + v.y * t - 0) * v.x)]
    rw [← mul_div_assoc, le_div_iff₀ zp]
    exact c2.trans (c1.trans (mul_le_mul_of_nonneg_right hm (nrm_nonneg _)))
  have n1 := nrm_close q (r + v.smulR (-r.z / v.z))
  have e3 : |-r.z / v.z| * nrm v = |r.z| * (nrm v / |v.z|) := by rw [abs_div, abs_neg]; ring
  rw [e3] at hd
  linarith

/-- What rounding does to an on-axis bundle at a parabolic mirror. -/
noncomputable def parabolaSlack (u R : ℝ) (r q : V3 ℝ) : ℝ :=
  80 * u * ((nrm r + nrm (q - r)) ^ 2 / (2 * |R|) + (nrm r + nrm (q - r))) + 574 * u * ((q.x ^ 2 + q.y ^ 2 + R ^ 2) / (2 * |R|))

/-- **C126** (prime focus).  A parabolic mirror and a plane detector through its focus: every on-axis ray that reaches the detector is
recorded at the focus, up to roundings, however large the mirror.  `a` and `b` bound the errors of the change of frame in between. -/
theorem C126_prime_focus (h : Rounds u rd) (hu : u ≤ 1 / 1000) (hR : R ≠ 0) (ct ct' : CoordTransform (Flt rd))
    (co co' : Option (Coating (Flt rd))) (niter : ℕ) (ray : Ray (Flt rd)) {r q w r' w' : V3 ℝ} {s a b : ℝ} (hs : s ≠ 0)
    (hr : ct.forward ray.r = r.flt rd) (hv : ct.forwardVel ray.v = (⟨0, 0, s⟩ : V3 ℝ).flt rd)
    (hok : (ray.reflect (.paraboloid (Flt.fin rd R)) ct co niter).failed = false)
    (hq : (ray.reflect (.paraboloid (Flt.fin rd R)) ct co niter).r = q.flt rd)
    (hw : (ray.reflect (.paraboloid (Flt.fin rd R)) ct co niter).v = w.flt rd)
    (hr' : ct'.forward (q.flt rd) = r'.flt rd) (hw' : ct'.forwardVel (w.flt rd) = w'.flt rd)
    (ha : nrm (r' - (q - ⟨0, 0, R / 2⟩)) ≤ a) (hb : nrm (w' - w) ≤ b * |s|) (hz : w'.z ≠ 0) :
    ∃ p : V3 ℝ, ((ray.reflect (.paraboloid (Flt.fin rd R)) ct co niter).intersect Surface.plane ct' co' niter).r = p.flt rd ∧
      nrm p ≤ (parabolaSlack u R r q + a + (q.x ^ 2 + q.y ^ 2 + R ^ 2) / (2 * |R|) * b + 5 * u * |r'.z|) * (nrm w' / |w'.z|) + u * nrm r' := by
  have m := C126_parabola h hu hR ct co niter ray hs hr hv hok hq hw
  have m' := C126_shift m ha hb
  have D0 : 0 ≤ q.x ^ 2 + q.y ^ 2 + R ^ 2 := by positivity
  have sp := abs_pos.2 hs
  have Rp := abs_pos.2 hR
  have e : |-((q.x ^ 2 + q.y ^ 2 + R ^ 2) / (2 * (R * s)))| * (b * |s|) = (q.x ^ 2 + q.y ^ 2 + R ^ 2) / (2 * |R|) * b := by
    rw [abs_neg, abs_div, abs_of_nonneg D0, abs_mul, abs_mul, abs_two]; field_simp
  rw [e, show (⟨0, 0, R / 2⟩ - ⟨0, 0, R / 2⟩ : V3 ℝ) = ⟨0, 0, 0⟩ by ext <;> simp] at m'
  exact C126_spot h hu ct' co' niter _ hok (by rw [hq]; exact hr') (by rw [hw]; exact hw') hz m'

/-- **C126** (Cassegrain and Gregorian).  A parabolic primary and a secondary with one focus where that of the primary is: every on-axis
ray that survives both leaves for the other focus of the secondary, up to roundings and, magnified, those of the primary. -/
theorem C126_cassegrain (h : Rounds u rd) (h1 : rd 1 = 1) (hc : 1 ≤ c) (hcu : (1320 * c + 1000) * u ≤ 1) (hR : R ≠ 0) {R' : ℝ} (hR' : R' ≠ 0)
    {e : ℝ} (e1 : 1 + e ≠ 0) (e2 : 1 - e ≠ 0) (ct ct' : CoordTransform (Flt rd))
    (co co' : Option (Coating (Flt rd))) (niter : ℕ) (ray : Ray (Flt rd)) {r q w r' w' q' w'' o : V3 ℝ} {s a b : ℝ} (hs : s ≠ 0)
    (hr : ct.forward ray.r = r.flt rd) (hv : ct.forwardVel ray.v = (⟨0, 0, s⟩ : V3 ℝ).flt rd)
    (hok : (ray.reflect (.paraboloid (Flt.fin rd R)) ct co niter).failed = false)
    (hq : (ray.reflect (.paraboloid (Flt.fin rd R)) ct co niter).r = q.flt rd)
    (hw : (ray.reflect (.paraboloid (Flt.fin rd R)) ct co niter).v = w.flt rd)
    (hr' : ct'.forward (q.flt rd) = r'.flt rd) (hw' : ct'.forwardVel (w.flt rd) = w'.flt rd)
    (ha : nrm (r' - (q - o)) ≤ a) (hb : nrm (w' - w) ≤ b * |s|) (ho : (⟨0, 0, R / 2⟩ - o : V3 ℝ) = ⟨0, 0, R' / (1 + e)⟩)
    (hok' : ((ray.reflect (.paraboloid (Flt.fin rd R)) ct co niter).reflect (.quadric (Flt.fin rd R') (Flt.fin rd (-e ^ 2))) ct' co' niter).failed =
      false)
    (hq' : ((ray.reflect (.paraboloid (Flt.fin rd R)) ct co niter).reflect (.quadric (Flt.fin rd R') (Flt.fin rd (-e ^ 2))) ct' co' niter).r =
      q'.flt rd)
    (hw'' : ((ray.reflect (.paraboloid (Flt.fin rd R)) ct co niter).reflect (.quadric (Flt.fin rd R') (Flt.fin rd (-e ^ 2))) ct' co' niter).v =
      w''.flt rd)
    (hO : OffRim c (-e ^ 2) R' q'.x q'.y) (hz : OnConic (-e ^ 2) R' q'.x q'.y z) (hsh : 0 < R' * (R' - (1 + -e ^ 2) * q'.z)) :
    ∃ t, Arrives q' w'' t ⟨0, 0, R' / (1 - e)⟩
      (landSlack u c (-e ^ 2) R' (nrm r' + nrm (q' - r')) + (1452 * c + 844) * u * |R' / (1 - e) - e * z| +
        (1 + (1452 * c + 844) * u) * (|(R' / (1 - e) - e * z) / (R' / (1 + e) + e * z)| *
          (landSlack u c (-e ^ 2) R' (nrm r' + nrm (q' - r')) +
            (parabolaSlack u R r q + a + (q.x ^ 2 + q.y ^ 2 + R ^ 2) / (2 * |R|) * b + 7 * u * (nrm r' + nrm (q' - r')))))) := by
  have hc' : (1 : ℝ) ≤ c := by exact_mod_cast hc
  have hu0 := h.nonneg
  have cu : 0 ≤ c * u := by positivity
  have m := C126_parabola h (by nlinarith) hR ct co niter ray hs hr hv hok hq hw
  have m' := C126_shift m ha hb
  have D0 : 0 ≤ q.x ^ 2 + q.y ^ 2 + R ^ 2 := by positivity
  have sp := abs_pos.2 hs
  have Rp := abs_pos.2 hR
  have e3 : |-((q.x ^ 2 + q.y ^ 2 + R ^ 2) / (2 * (R * s)))| * (b * |s|) = (q.x ^ 2 + q.y ^ 2 + R ^ 2) / (2 * |R|) * b := by
    rw [abs_neg, abs_div, abs_of_nonneg D0, abs_mul, abs_mul, abs_two]; field_simp
  rw [e3, ho] at m'
  obtain ⟨t, -, k⟩ := C126_conic h h1 hc hcu hR' e1 e2 ct' co' niter _ (by rw [hq]; exact hr') (by rw [hw]; exact hw') hok' hq' hw'' hO hz hsh m'
  exact ⟨_, k⟩

end c126
/-! ## Concrete cases, in double precision -/

section cases

/-- A ray of unit flux and wavelength. -/
noncomputable def bareRay (r v : V3 ℝ) : Ray (Flt rd53) := ⟨r.flt rd53, v.flt rd53, 0, 1, 1, false, false⟩

/-- A reflection whose landing point is known. -/
theorem bareRay_reflects {s : Surface (Flt rd53)} {r v q : V3 ℝ} {t ν : ℝ} {n : V3 ℝ} (hr : hereT.forward (r.flt rd53) = r.flt rd53)
    (hv : hereT.forwardVel (v.flt rd53) = v.flt rd53) (ht : s.timeToIntersect (r.flt rd53) (v.flt rd53) 0 0 = (true, Flt.fin rd53 t))
    (hq : r.flt rd53 + (v.flt rd53).smulR (Flt.fin rd53 t) = q.flt rd53) (hn : NormalWithin rd53 s q.x q.y n ν) :
    hereT.forward (bareRay r v).r = r.flt rd53 ∧ hereT.forwardVel (bareRay r v).v = v.flt rd53 ∧
    ((bareRay r v).reflect s hereT none 0).failed = false ∧ ((bareRay r v).reflect s hereT none 0).r = q.flt rd53 ∧
    ∃ w : V3 ℝ, ((bareRay r v).reflect s hereT none 0).v = w.flt rd53 := by
  obtain ⟨n', en, -⟩ := hn
  have e2 : (2 : Flt rd53) = Flt.fin rd53 2 := by exact_mod_cast lit53 (n := 2) (by norm_num)
  have er : (bareRay r v).reflect s hereT none 0 =
      { bareRay r v with
        r := q.flt rd53
        v := v.flt rd53 - V3.smul (2 * V3.dot (v.flt rd53) (n'.flt rd53)) (n'.flt rd53)
        t := 0 + Flt.fin rd53 t } := by
    unfold Ray.reflect
    simp only [bareRay, hr, hv, ht, Bool.false_eq_true, if_false, hq]
    rw [show (q.flt rd53).x = Flt.fin rd53 q.x from rfl, show (q.flt rd53).y = Flt.fin rd53 q.y from rfl, en]
  refine ⟨hr, hv, by rw [er]; rfl, by rw [er], ?_⟩
  rw [er]
  refine V3.stored ?_ ?_ ?_ <;>
  · simp only [V3.dot, V3.sub_x, V3.sub_y, V3.sub_z, V3.smul_x, V3.smul_y, V3.smul_z, V3.flt, V3.map, e2, Flt.mul_fin, Flt.add_fin, Flt.sub_fin]
    exact stored_fin _

/-- The ray along the axis of a paraboloid with radius of curvature 2 at `(2, 0)` meets the focus `(0, 0, 1)`, up to `2 ∙ 10⁻¹²`. -/
example : ∃ w : V3 ℝ, ((bareRay ⟨2, 0, -1⟩ ⟨0, 0, 1⟩).reflect (.paraboloid (Flt.fin rd53 2)) hereT none 0).v = w.flt rd53 ∧
    Arrives ⟨2, 0, 1⟩ w (-2) ⟨0, 0, 1⟩ (2 / 10 ^ 12) := by
  have h0 := rd53_rounds.zero
  have e2 : (2 : Flt rd53) = Flt.fin rd53 2 := by exact_mod_cast lit53 (n := 2) (by norm_num)
  have e4 : (4 : Flt rd53) = Flt.fin rd53 4 := by exact_mod_cast lit53 (n := 4) (by norm_num)
  have e1 : (1 : Flt rd53) = Flt.fin rd53 1 := by exact_mod_cast lit53 (n := 1) (by norm_num)
  have i1 := rd53_one
  have i2 : rd53 2 = 2 := by exact_mod_cast rd53_nat 2 (by norm_num)
  have i4 : rd53 4 = 4 := by exact_mod_cast rd53_nat 4 (by norm_num)
  have j1 : rd53 (-1) = -1 := by exact_mod_cast rd53_negNat 1 (by norm_num)
  have j2 : rd53 (-2) = -2 := by exact_mod_cast rd53_negNat 2 (by norm_num)
  have hh : rd53 (1 / 2) = 1 / 2 := by have := rd53_dyadic 1 (-1) (by norm_num); norm_num at this ⊢; exact this
  have hq : rd53 (1 / 4) = 1 / 4 := by have := rd53_dyadic 1 (-2) (by norm_num); norm_num [zpow_neg] at this ⊢; exact this
  have ht : (Surface.paraboloid (Flt.fin rd53 2)).timeToIntersect (V3.flt rd53 ⟨2, 0, -1⟩) (V3.flt rd53 ⟨0, 0, 1⟩) 0 0 =
      (true, Flt.fin rd53 2) := by
    show Surface.paraboloidTime (Flt.fin rd53 2) (V3.flt rd53 ⟨2, 0, -1⟩) (V3.flt rd53 ⟨0, 0, 1⟩) 0 = _
    simp only [Surface.paraboloidTime, V3.flt, V3.map, e2, e4, e1, flt_zero rd53_rounds, Flt.mul_fin, Flt.add_fin, Flt.sub_fin,
      Flt.lt_fin, Flt.neg_fin, Flt.eq_fin, Flt.div_fin (two_ne_zero (α := ℝ))]
    norm_num [h0, i1, i2, i4, j1, j2, hh, hq, Flt.div_fin]
  have f := hereT_forward 2 0 (-1) (by norm_num) (by norm_num) (by norm_num)
  have g := hereT_forward 0 0 1 (by norm_num) (by norm_num) (by norm_num)
  norm_num only [Int.cast_zero, Int.cast_neg, Int.cast_ofNat, Int.cast_one] at f g
  have rp : V3.flt rd53 ⟨2, 0, -1⟩ + (V3.flt rd53 ⟨0, 0, 1⟩).smulR (Flt.fin rd53 2) = V3.flt rd53 ⟨2, 0, 1⟩ := by
    ext <;> simp [V3.flt, V3.map, h0, i2]
    norm_num [i1]
  obtain ⟨z, n, hz, hn⟩ := conic_exists (c := 1) (κ := -1) (R := 2) (x := 2) (y := 0) (by norm_num) (by unfold OffRim; norm_num)
  obtain ⟨a1, a2, a3, a4, w, a5⟩ := bareRay_reflects f.1 g.2 ht rp (C125_paraboloid_normal rd53_rounds (by norm_num [zpow_neg]) hz hn)
  refine ⟨w, a5, ?_⟩
  have := C126_parabola rd53_rounds (by norm_num [zpow_neg]) (by norm_num) hereT none 0 _ one_ne_zero a1 a2 a3 a4 a5
  have b1 : nrm ((⟨2, 0, 1⟩ : V3 ℝ) - ⟨2, 0, -1⟩) = 2 := by rw [vertical]; norm_num
  have b2 : nrm (⟨2, 0, -1⟩ : V3 ℝ) ≤ 3 := nrm_le (by norm_num) (by norm_num)
  have b0 := nrm_nonneg (⟨2, 0, -1⟩ : V3 ℝ)
  rw [b1] at this
  norm_num [Arrives] at this ⊢
  refine this.trans ?_
  nlinarith

/-- The ray from the centre of a sphere of radius 5 to its point `(3, 0, 1)` comes back, up to `10⁻¹⁰`. -/
example : ∃ w : V3 ℝ, ((bareRay ⟨0, 0, 5⟩ ⟨3, 0, -4⟩).reflect (.sphere (Flt.fin rd53 5)) hereT none 0).v = w.flt rd53 ∧
    ∃ t, Arrives ⟨3, 0, 1⟩ w t ⟨0, 0, 5⟩ (1 / 10 ^ 10) := by
  have h0 := rd53_rounds.zero
  have e2 : (2 : Flt rd53) = Flt.fin rd53 2 := by exact_mod_cast lit53 (n := 2) (by norm_num)
  have e4 : (4 : Flt rd53) = Flt.fin rd53 4 := by exact_mod_cast lit53 (n := 4) (by norm_num)
  have i : ∀ n : ℕ, n < 10000 → rd53 (n : ℝ) = n := fun n hn => rd53_nat n (by omega)
  have j : ∀ n : ℕ, n < 10000 → rd53 (-(n : ℝ)) = -n := fun n hn => rd53_negNat n (by omega)
  have i1 := rd53_one
  have i3 : rd53 3 = 3 := by exact_mod_cast i 3 (by norm_num)
  have i4 : rd53 4 = 4 := by exact_mod_cast i 4 (by norm_num)
  have i5 : rd53 5 = 5 := by exact_mod_cast i 5 (by norm_num)
  have i9 : rd53 9 = 9 := by exact_mod_cast i 9 (by norm_num)
  have i16 : rd53 16 = 16 := by exact_mod_cast i 16 (by norm_num)
  have i25 : rd53 25 = 25 := by exact_mod_cast i 25 (by norm_num)
  have i50 : rd53 50 = 50 := by exact_mod_cast i 50 (by norm_num)
  have i100 : rd53 100 = 100 := by exact_mod_cast i 100 (by norm_num)
  have i2500 : rd53 2500 = 2500 := by exact_mod_cast i 2500 (by norm_num)
  have j4 : rd53 (-4) = -4 := by exact_mod_cast j 4 (by norm_num)
  have j8 : rd53 (-8) = -8 := by exact_mod_cast j 8 (by norm_num)
  have j20 : rd53 (-20) = -20 := by exact_mod_cast j 20 (by norm_num)
  have j25 : rd53 (-25) = -25 := by exact_mod_cast j 25 (by norm_num)
  have j50 : rd53 (-50) = -50 := by exact_mod_cast j 50 (by norm_num)
  have j1 : rd53 (-1) = -1 := by exact_mod_cast j 1 (by norm_num)
  have j2500 : rd53 (-2500) = -2500 := by exact_mod_cast j 2500 (by norm_num)
  have ht : (Surface.sphere (Flt.fin rd53 5)).timeToIntersect (V3.flt rd53 ⟨0, 0, 5⟩) (V3.flt rd53 ⟨3, 0, -4⟩) 0 0 =
      (true, Flt.fin rd53 1) := by
    show Surface.sphereTime (Flt.fin rd53 5) (V3.flt rd53 ⟨0, 0, 5⟩) (V3.flt rd53 ⟨3, 0, -4⟩) 0 = _
    have s2500 : Real.sqrt 2500 = 50 := by rw [show (2500 : ℝ) = 50 ^ 2 by norm_num]; exact Real.sqrt_sq (by norm_num)
    simp only [Surface.sphereTime, Surface.rootPair, V3.flt, V3.map, e2, e4, flt_zero rd53_rounds, Flt.mul_fin, Flt.add_fin, Flt.sub_fin,
      Flt.lt_fin, Flt.gt_fin, Flt.neg_fin]
    norm_num [h0, i1, i3, i4, i5, i9, i16, i25, i50, i100, i2500, j1, j4, j8, j20, j25, j50, j2500, Flt.sqrt_fin, s2500, Flt.add_fin,
      Flt.div_fin, Flt.mul_fin, Arith.max, Arith.min, Flt.lt_fin, Flt.sub_fin]
  have f := hereT_forward 0 0 5 (by norm_num) (by norm_num) (by norm_num)
  have g := hereT_forward 3 0 (-4) (by norm_num) (by norm_num) (by norm_num)
  norm_num only [Int.cast_zero, Int.cast_neg, Int.cast_ofNat, Int.cast_one] at f g
  have rp : V3.flt rd53 ⟨0, 0, 5⟩ + (V3.flt rd53 ⟨3, 0, -4⟩).smulR (Flt.fin rd53 1) = V3.flt rd53 ⟨3, 0, 1⟩ := by
    ext <;> simp [V3.flt, V3.map, h0, i3, j4]
    norm_num [i1]
  have ho : OffRim 1 0 5 3 0 := by unfold OffRim; norm_num
  obtain ⟨z, n, hz, hn⟩ := conic_exists (by norm_num) ho
  obtain ⟨a1, a2, a3, a4, w, a5⟩ := bareRay_reflects f.1 g.2 ht rp
    (C125_sphere_normal rd53_rounds rd53_one le_rfl (by norm_num [zpow_neg]) ho hz hn)
  refine ⟨w, a5, ?_⟩
  obtain ⟨t, -, k⟩ := C126_sphere rd53_rounds rd53_one (c := 1) le_rfl (by norm_num [zpow_neg]) (by norm_num) hereT none 0 _ a1 a2 (by simp)
    a3 a4 a5 ho (by norm_num) (τ := 0) (d := 0) (by unfold Arrives; refine nrm_le le_rfl ?_; norm_num)
  refine ⟨_, k.trans ?_⟩
  have b0 := nrm_nonneg (⟨0, 0, 5⟩ : V3 ℝ)
  have b1 : nrm (⟨0, 0, 5⟩ : V3 ℝ) ≤ 5 := nrm_le (by norm_num) (by norm_num)
  have b2 : nrm ((⟨3, 0, 1⟩ : V3 ℝ) - ⟨0, 0, 5⟩) ≤ 5 := nrm_le (by norm_num) (by norm_num)
  have b3 := nrm_nonneg ((⟨3, 0, 1⟩ : V3 ℝ) - ⟨0, 0, 5⟩)
  norm_num [zpow_neg]
  nlinarith

/-- The ray from the inner focus `(0, 0, 1)` of the hyperboloid `x² + y² - 8 z² = 8 z` sideways leaves as if from the outer focus
`(0, 0, -2)`, up to `10⁻¹⁰`. -/
example : ∃ w : V3 ℝ, ((bareRay ⟨0, 0, 1⟩ ⟨1, 0, 0⟩).reflect (.quadric (Flt.fin rd53 4) (Flt.fin rd53 (-3 ^ 2))) hereT none 0).v = w.flt rd53 ∧
    ∃ t, Arrives ⟨-4, 0, 1⟩ w t ⟨0, 0, -2⟩ (1 / 10 ^ 10) := by
  have h0 := rd53_rounds.zero
  have e2 : (2 : Flt rd53) = Flt.fin rd53 2 := by exact_mod_cast lit53 (n := 2) (by norm_num)
  have e4 : (4 : Flt rd53) = Flt.fin rd53 4 := by exact_mod_cast lit53 (n := 4) (by norm_num)
  have e1 : (1 : Flt rd53) = Flt.fin rd53 1 := by exact_mod_cast lit53 (n := 1) (by norm_num)
  have i : ∀ n : ℕ, n < 10000 → rd53 (n : ℝ) = n := fun n hn => rd53_nat n (by omega)
  have j : ∀ n : ℕ, n < 10000 → rd53 (-(n : ℝ)) = -n := fun n hn => rd53_negNat n (by omega)
  have i1 := rd53_one
  have i2 : rd53 2 = 2 := by exact_mod_cast i 2 (by norm_num)
  have i4 : rd53 4 = 4 := by exact_mod_cast i 4 (by norm_num)
  have i16 : rd53 16 = 16 := by exact_mod_cast i 16 (by norm_num)
  have j8 : rd53 (-8) = -8 := by exact_mod_cast j 8 (by norm_num)
  have j4 : rd53 (-4) = -4 := by exact_mod_cast j 4 (by norm_num)
  have j2 : rd53 (-2) = -2 := by exact_mod_cast j 2 (by norm_num)
  have j1 : rd53 (-1) = -1 := by exact_mod_cast j 1 (by norm_num)
  have d2 : rd53 (-(1 / 2)) = -(1 / 2) := by have := rd53_dyadic (-1) (-1) (by norm_num); norm_num at this ⊢; exact this
  have d8 : rd53 (-(1 / 8)) = -(1 / 8) := by have := rd53_dyadic (-1) (-3) (by norm_num); norm_num [zpow_neg] at this ⊢; exact this
  have d4 : rd53 (1 / 4) = 1 / 4 := by have := rd53_dyadic 1 (-2) (by norm_num); norm_num [zpow_neg] at this ⊢; exact this
  have dm4 : rd53 (-(1 / 4)) = -(1 / 4) := by have := rd53_dyadic (-1) (-2) (by norm_num); norm_num [zpow_neg] at this ⊢; exact this
  have d32 : rd53 (3 / 2) = 3 / 2 := by have := rd53_dyadic 3 (-1) (by norm_num); norm_num [zpow_neg] at this ⊢; exact this
  have d94 : rd53 (9 / 4) = 9 / 4 := by have := rd53_dyadic 9 (-2) (by norm_num); norm_num [zpow_neg] at this ⊢; exact this
  have p2 : rd53 (1 / 2) = 1 / 2 := by have := rd53_dyadic 1 (-1) (by norm_num); norm_num at this ⊢; exact this
  have ht : (Surface.quadric (Flt.fin rd53 4) (Flt.fin rd53 (-3 ^ 2))).timeToIntersect (V3.flt rd53 ⟨0, 0, 1⟩) (V3.flt rd53 ⟨1, 0, 0⟩) 0 0 =
      (true, Flt.fin rd53 (-4)) := by
    show Surface.quadricTime (Flt.fin rd53 4) (Flt.fin rd53 (-3 ^ 2)) (V3.flt rd53 ⟨0, 0, 1⟩) (V3.flt rd53 ⟨1, 0, 0⟩) 0 = _
    have k2 : rd53 (-3 ^ 2 + 1) = -8 := by norm_num [j8]
    have n8 : (-8 : ℝ) ≠ 0 := by norm_num
    simp only [Surface.quadricTime, Surface.rootPair, V3.flt, V3.map, e2, e4, e1, flt_zero rd53_rounds, Flt.mul_fin, Flt.add_fin, Flt.sub_fin,
      Flt.lt_fin, Flt.gt_fin, Flt.neg_fin, k2, Flt.div_fin n8]
    norm_num [h0, i1, i2, i4, i16, j1, j2, j4, j8, d2, d8, d4, dm4, d32, d94, p2, Flt.sqrt_fin, Flt.add_fin, Flt.div_fin, Flt.mul_fin,
      Flt.abs_fin, Flt.lt_fin, Flt.sub_fin]
  have f := hereT_forward 0 0 1 (by norm_num) (by norm_num) (by norm_num)
  have g := hereT_forward 1 0 0 (by norm_num) (by norm_num) (by norm_num)
  norm_num only [Int.cast_zero, Int.cast_neg, Int.cast_ofNat, Int.cast_one] at f g
  have rp : V3.flt rd53 ⟨0, 0, 1⟩ + (V3.flt rd53 ⟨1, 0, 0⟩).smulR (Flt.fin rd53 (-4)) = V3.flt rd53 ⟨-4, 0, 1⟩ := by
    ext <;> simp [V3.flt, V3.map, h0, j4, i1]
  have ho : OffRim 1 (-3 ^ 2) 4 (-4) 0 := by unfold OffRim; norm_num
  have hz : OnConic (-3 ^ 2) 4 (-4) 0 1 := ⟨by norm_num, by norm_num⟩
  obtain ⟨z, n, hz', hn⟩ := conic_exists (by norm_num) ho
  obtain ⟨a1, a2, a3, a4, w, a5⟩ := bareRay_reflects f.1 g.2 ht rp
    (C125_quadric_normal rd53_rounds rd53_one le_rfl (by norm_num [zpow_neg]) ho hz' hn)
  refine ⟨w, a5, ?_⟩
  obtain ⟨t, -, k⟩ := C126_conic rd53_rounds rd53_one (c := 1) le_rfl (by norm_num [zpow_neg]) (by norm_num) (e := 3) (by norm_num) (by norm_num)
    hereT none 0 _ a1 a2 a3 a4 a5 ho hz (by norm_num) (τ := 0) (d := 0) (by unfold Arrives; refine nrm_le le_rfl ?_; norm_num)
  have b0 := nrm_nonneg (⟨0, 0, 1⟩ : V3 ℝ)
  have b1 : nrm (⟨0, 0, 1⟩ : V3 ℝ) ≤ 1 := nrm_le (by norm_num) (by norm_num)
  have b2 : nrm ((⟨-4, 0, 1⟩ : V3 ℝ) - ⟨0, 0, 1⟩) ≤ 4 := nrm_le (by norm_num) (by norm_num)
  have b3 := nrm_nonneg ((⟨-4, 0, 1⟩ : V3 ℝ) - ⟨0, 0, 1⟩)
  norm_num [Arrives] at k ⊢
  refine ⟨_, k.trans ?_⟩
  norm_num [zpow_neg, landSlack]
  nlinarith

/-- A frame displaced along the axis. -/
noncomputable def shiftT (k : ℝ) : CoordTransform (Flt rd53) :=
  ⟨CoordSys.std _, CoordSys.std _, V3.flt rd53 ⟨0, 0, k⟩, M3.flt rd53 ⟨1, 0, 0, 0, 1, 0, 0, 0, 1⟩⟩

theorem shiftT_forward {x y z k : ℝ} (hx : rd53 x = x) (hy : rd53 y = y) (hz : rd53 (z - k) = z - k) :
    (shiftT k).forward (V3.flt rd53 ⟨x, y, z⟩) = V3.flt rd53 ⟨x, y, z - k⟩ := by
  have h0 := rd53_rounds.zero
  simp [shiftT, CoordTransform.forward, M3.mulVec, M3.tr, M3.flt, M3.map, V3.flt, V3.map, h0, hx, hy, hz]

theorem shiftT_vel (k : ℝ) (w : V3 ℝ) : ∃ w' : V3 ℝ, (shiftT k).forwardVel (w.flt rd53) = w'.flt rd53 ∧ nrm (w' - w) ≤ 4 / 10 ^ 15 * nrm w := by
  have h0 := rd53_rounds.zero
  have c1 : ∀ x : ℝ, ∃ y, rd53 (rd53 (rd53 x)) = y ∧ |y - x| ≤ 4 * 2 ^ (-53 : ℤ) * |x| := fun x => ⟨_, rfl, by
    have a := rd53_rounds.err x
    have b := rd53_rounds.err (rd53 x)
    have c := rd53_rounds.err (rd53 (rd53 x))
    norm_num [zpow_neg] at a b c ⊢
    have x0 := abs_nonneg x
    have a1 := abs_sub_abs_le_abs_sub (rd53 x) x
    have b1 := abs_sub_abs_le_abs_sub (rd53 (rd53 x)) (rd53 x)
    have t1 := abs_sub_le (rd53 (rd53 (rd53 x))) (rd53 (rd53 x)) x
    have t2 := abs_sub_le (rd53 (rd53 x)) (rd53 x) x
    linarith⟩
  have c2 : ∀ x : ℝ, ∃ y, rd53 (rd53 x) = y ∧ |y - x| ≤ 4 * 2 ^ (-53 : ℤ) * |x| := fun x => ⟨_, rfl, by
    have a := rd53_rounds.err x
    have b := rd53_rounds.err (rd53 x)
    norm_num [zpow_neg] at a b ⊢
    have x0 := abs_nonneg x
    have a1 := abs_sub_abs_le_abs_sub (rd53 x) x
    have t2 := abs_sub_le (rd53 (rd53 x)) (rd53 x) x
    linarith⟩
  obtain ⟨X, hX, kX⟩ := c1 w.x
  obtain ⟨Y, hY, kY⟩ := c1 w.y
  obtain ⟨Z, hZ, kZ⟩ := c2 w.z
  simp [shiftT, CoordTransform.forwardVel, M3.mulVec, M3.tr, M3.flt, M3.map, V3.flt, V3.map, h0]
  refine ⟨⟨X, Y, Z⟩, ⟨hX, hY, hZ⟩, nrm_le (by have := nrm_nonneg w; positivity) ?_⟩
  rw [mul_pow, nrm_sq]
  simp only [V3.sub_x, V3.sub_y, V3.sub_z]
  have sq : ∀ a b : ℝ, |a| ≤ 4 * 2 ^ (-53 : ℤ) * |b| → a ^ 2 ≤ (4 / 10 ^ 15) ^ 2 * b ^ 2 := fun a b hab => by
    rw [← sq_abs a, ← sq_abs b, ← mul_pow]
    refine pow_le_pow_left₀ (abs_nonneg a) (hab.trans (mul_le_mul_of_nonneg_right ?_ (abs_nonneg b))) 2
    norm_num [zpow_neg]
  have := sq _ _ kX
  have := sq _ _ kY
  have := sq _ _ kZ
  linarith

/-- A paraboloid with radius of curvature 4 and a detector through its focus: the on-axis ray at `(2, 0)` is recorded at the focus, up to
`10⁻¹⁰`. -/
example : ∃ p : V3 ℝ, (((bareRay ⟨2, 0, -1⟩ ⟨0, 0, 1⟩).reflect (.paraboloid (Flt.fin rd53 4)) hereT none 0).intersect Surface.plane (shiftT 2)
    none 0).r = p.flt rd53 ∧ nrm p ≤ 1 / 10 ^ 10 := by
  have h0 := rd53_rounds.zero
  have e2 : (2 : Flt rd53) = Flt.fin rd53 2 := by exact_mod_cast lit53 (n := 2) (by norm_num)
  have e4 : (4 : Flt rd53) = Flt.fin rd53 4 := by exact_mod_cast lit53 (n := 4) (by norm_num)
  have e1 : (1 : Flt rd53) = Flt.fin rd53 1 := by exact_mod_cast lit53 (n := 1) (by norm_num)
  have i1 := rd53_one
  have i2 : rd53 2 = 2 := by exact_mod_cast rd53_nat 2 (by norm_num)
  have i4 : rd53 4 = 4 := by exact_mod_cast rd53_nat 4 (by norm_num)
  have i8 : rd53 8 = 8 := by exact_mod_cast rd53_nat 8 (by norm_num)
  have j1 : rd53 (-1) = -1 := by exact_mod_cast rd53_negNat 1 (by norm_num)
  have j2 : rd53 (-2) = -2 := by exact_mod_cast rd53_negNat 2 (by norm_num)
  have d2 : rd53 (1 / 2) = 1 / 2 := by have := rd53_dyadic 1 (-1) (by norm_num); norm_num at this ⊢; exact this
  have d4 : rd53 (1 / 4) = 1 / 4 := by have := rd53_dyadic 1 (-2) (by norm_num); norm_num [zpow_neg] at this ⊢; exact this
  have d8 : rd53 (1 / 8) = 1 / 8 := by have := rd53_dyadic 1 (-3) (by norm_num); norm_num [zpow_neg] at this ⊢; exact this
  have t2 : rd53 (3 / 2) = 3 / 2 := by have := rd53_dyadic 3 (-1) (by norm_num); norm_num [zpow_neg] at this ⊢; exact this
  have m2 : rd53 (-(3 / 2)) = -(3 / 2) := by have := rd53_dyadic (-3) (-1) (by norm_num); norm_num [zpow_neg] at this ⊢; exact this
  have ht : (Surface.paraboloid (Flt.fin rd53 4)).timeToIntersect (V3.flt rd53 ⟨2, 0, -1⟩) (V3.flt rd53 ⟨0, 0, 1⟩) 0 0 =
      (true, Flt.fin rd53 (3 / 2)) := by
    show Surface.paraboloidTime (Flt.fin rd53 4) (V3.flt rd53 ⟨2, 0, -1⟩) (V3.flt rd53 ⟨0, 0, 1⟩) 0 = _
    simp only [Surface.paraboloidTime, V3.flt, V3.map, e2, e4, e1, flt_zero rd53_rounds, Flt.mul_fin, Flt.add_fin, Flt.sub_fin,
      Flt.lt_fin, Flt.neg_fin, Flt.eq_fin, Flt.div_fin (two_ne_zero (α := ℝ)), Flt.div_fin (four_ne_zero (α := ℝ))]
    norm_num [h0, i1, i2, i4, i8, j1, j2, d2, d4, d8, t2, m2, Flt.div_fin]
  have f := hereT_forward 2 0 (-1) (by norm_num) (by norm_num) (by norm_num)
  have g := hereT_forward 0 0 1 (by norm_num) (by norm_num) (by norm_num)
  norm_num only [Int.cast_zero, Int.cast_neg, Int.cast_ofNat, Int.cast_one] at f g
  have rp : V3.flt rd53 ⟨2, 0, -1⟩ + (V3.flt rd53 ⟨0, 0, 1⟩).smulR (Flt.fin rd53 (3 / 2)) = V3.flt rd53 ⟨2, 0, 1 / 2⟩ := by
    ext <;> simp [V3.flt, V3.map, h0, i2, t2]
    norm_num [d2]
  have s5 : Real.sqrt 5 ^ 2 = 5 := Real.sq_sqrt (by norm_num)
  have sp : 0 < Real.sqrt 5 := Real.sqrt_pos.2 (by norm_num)
  have hz : OnConic (-1) 4 2 0 (1 / 2) := ⟨by norm_num, by norm_num⟩
  have n1 : nrm ⟨-1 / Real.sqrt 5, 0, 2 / Real.sqrt 5⟩ = 1 := by
    have := nrm_sq ⟨-1 / Real.sqrt 5, 0, 2 / Real.sqrt 5⟩
    simp only [div_pow, s5] at this
    have := nrm_nonneg ⟨-1 / Real.sqrt 5, 0, 2 / Real.sqrt 5⟩
    nlinarith
  have hn : ConicNormal (-1) 4 2 0 (1 / 2) ⟨-1 / Real.sqrt 5, 0, 2 / Real.sqrt 5⟩ :=
    ⟨⟨-1 / (2 * Real.sqrt 5), by ext <;> simp <;> field_simp; norm_num⟩, n1, by positivity⟩
  have nw := C125_paraboloid_normal rd53_rounds (by norm_num [zpow_neg]) hz hn
  obtain ⟨a1, a2, a3, a4, w, a5⟩ := bareRay_reflects f.1 g.2 ht rp nw
  obtain ⟨v, hv, hd⟩ := C125_reflect rd53_rounds (by norm_num [zpow_neg]) (C114_paraboloid rd53_rounds (by norm_num [zpow_neg]) 4)
    (by norm_num [zpow_neg]) hereT none 0 (bareRay ⟨2, 0, -1⟩ ⟨0, 0, 1⟩) a5 a3 (x := 2) (y := 0) (by rw [a4]; rfl) (by rw [a4]; rfl) nw n1
    (by norm_num [zpow_neg])
  obtain rfl : v = ⟨0, 0, 1⟩ := V3.flt_inj (hv.symm.trans a2)
  have em : mirrorImage ⟨-1 / Real.sqrt 5, 0, 2 / Real.sqrt 5⟩ ⟨0, 0, 1⟩ = ⟨4 / 5, 0, -(3 / 5)⟩ := by
    ext <;> simp [mirrorImage, V3.dot] <;> field_simp <;> norm_num
  have nv : nrm (⟨0, 0, 1⟩ : V3 ℝ) = 1 := by simp [nrm, V3.normSq, V3.dot]
  rw [em, nv] at hd
  have hd' : nrm (w - ⟨4 / 5, 0, -(3 / 5)⟩) ≤ 1 / 1000 := hd.trans (by norm_num [zpow_neg])
  have nm : nrm (⟨4 / 5, 0, -(3 / 5)⟩ : V3 ℝ) ≤ 1 := nrm_le (by norm_num) (by norm_num)
  have nw1 : nrm w ≤ 2 := by have := nrm_close w ⟨4 / 5, 0, -(3 / 5)⟩; linarith
  obtain ⟨w', b1, b2⟩ := shiftT_vel 2 w
  have r1 := shiftT_forward (x := 2) (y := 0) (z := 1 / 2) (k := 2) i2 h0 (by norm_num [m2])
  have dw : nrm (w' - ⟨4 / 5, 0, -(3 / 5)⟩) ≤ 1 / 100 := by
    have := nrm_via w' w ⟨4 / 5, 0, -(3 / 5)⟩
    linarith
  have wz : w'.z ≤ -(1 / 2) := by
    have := nrm_sq (w' - ⟨4 / 5, 0, -(3 / 5)⟩)
    have := nrm_nonneg (w' - ⟨4 / 5, 0, -(3 / 5)⟩)
    simp only [V3.sub_z] at *
    have := (abs_le_of_sq_le_sq' (a := w'.z - -(3 / 5)) (b := 1 / 100) 
      (by nlinarith [sq_nonneg (w' - ⟨4 / 5, 0, -(3 / 5)⟩).x, sq_nonneg (w' - ⟨4 / 5, 0, -(3 / 5)⟩).y]) (by norm_num)).2
    linarith
  have nw' : nrm w' ≤ 2 := by have := nrm_close w' ⟨4 / 5, 0, -(3 / 5)⟩; linarith
  obtain ⟨p, k1, k2⟩ := C126_prime_focus rd53_rounds (by norm_num [zpow_neg]) (by norm_num) hereT (shiftT 2) none none 0 _ one_ne_zero a1 a2 a3 a4 a5
    r1 b1 (a := 0) (b := 8 / 10 ^ 15) (nrm_le le_rfl (by norm_num)) (by rw [abs_one]; linarith) (by linarith)
  refine ⟨p, k1, k2.trans ?_⟩
  have q1 : nrm ((⟨2, 0, 1 / 2⟩ : V3 ℝ) - ⟨2, 0, -1⟩) = 3 / 2 := by rw [vertical]; norm_num
  have q2 : nrm (⟨2, 0, -1⟩ : V3 ℝ) ≤ 3 := nrm_le (by norm_num) (by norm_num)
  have q0 := nrm_nonneg (⟨2, 0, -1⟩ : V3 ℝ)
  have q3 : nrm (⟨2, 0, 1 / 2 - 2⟩ : V3 ℝ) ≤ 3 := nrm_le (by norm_num) (by norm_num)
  have q4 : nrm w' / |w'.z| ≤ 4 := by
    rw [abs_of_neg (by linarith), div_le_iff₀ (by linarith)]; linarith
  have q5 : 0 ≤ nrm w' / |w'.z| := div_nonneg (nrm_nonneg _) (abs_nonneg _)
  generalize nrm w' / |w'.z| = g at *
  have PS : parabolaSlack (2 ^ (-53 : ℤ)) 4 ⟨2, 0, -1⟩ ⟨2, 0, 1 / 2⟩ ≤ 1 / 10 ^ 12 := by
    unfold parabolaSlack
    rw [q1]
    norm_num [zpow_neg]
    nlinarith
  generalize parabolaSlack (2 ^ (-53 : ℤ)) 4 ⟨2, 0, -1⟩ ⟨2, 0, 1 / 2⟩ = P at *
  norm_num [zpow_neg] at *
  nlinarith

/-- A Cassegrain with a paraboloid of radius of curvature 2 and, two units below it, a hyperboloid: the ray along the axis leaves for the
second focus, six units below the secondary, up to `10⁻⁹`. -/
example : ∃ q w : V3 ℝ, (((bareRay ⟨0, 0, -1⟩ ⟨0, 0, 1⟩).reflect (.paraboloid (Flt.fin rd53 2)) hereT none 0).reflect
    (.quadric (Flt.fin rd53 12) (Flt.fin rd53 (-3 ^ 2))) (shiftT (-2)) none 0).r = q.flt rd53 ∧
    (((bareRay ⟨0, 0, -1⟩ ⟨0, 0, 1⟩).reflect (.paraboloid (Flt.fin rd53 2)) hereT none 0).reflect
    (.quadric (Flt.fin rd53 12) (Flt.fin rd53 (-3 ^ 2))) (shiftT (-2)) none 0).v = w.flt rd53 ∧
    ∃ t, Arrives q w t ⟨0, 0, -6⟩ (1 / 10 ^ 9) := by
  have h0 := rd53_rounds.zero
  have e2 : (2 : Flt rd53) = Flt.fin rd53 2 := by exact_mod_cast lit53 (n := 2) (by norm_num)
  have e4 : (4 : Flt rd53) = Flt.fin rd53 4 := by exact_mod_cast lit53 (n := 4) (by norm_num)
  have e1 : (1 : Flt rd53) = Flt.fin rd53 1 := by exact_mod_cast lit53 (n := 1) (by norm_num)
  have i : ∀ n : ℕ, n < 10000 → rd53 (n : ℝ) = n := fun n hn => rd53_nat n (by omega)
  have j : ∀ n : ℕ, n < 10000 → rd53 (-(n : ℝ)) = -n := fun n hn => rd53_negNat n (by omega)
  have i1 := rd53_one
  have i2 : rd53 2 = 2 := by exact_mod_cast i 2 (by norm_num)
  have i3 : rd53 3 = 3 := by exact_mod_cast i 3 (by norm_num)
  have i4 : rd53 4 = 4 := by exact_mod_cast i 4 (by norm_num)
  have i5 : rd53 5 = 5 := by exact_mod_cast i 5 (by norm_num)
  have i7 : rd53 7 = 7 := by exact_mod_cast i 7 (by norm_num)
  have i9 : rd53 9 = 9 := by exact_mod_cast i 9 (by norm_num)
  have i10 : rd53 10 = 10 := by exact_mod_cast i 10 (by norm_num)
  have i20 : rd53 20 = 20 := by exact_mod_cast i 20 (by norm_num)
  have i40 : rd53 40 = 40 := by exact_mod_cast i 40 (by norm_num)
  have i49 : rd53 49 = 49 := by exact_mod_cast i 49 (by norm_num)
  have i144 : rd53 144 = 144 := by exact_mod_cast i 144 (by norm_num)
  have j1 : rd53 (-1) = -1 := by exact_mod_cast j 1 (by norm_num)
  have j2 : rd53 (-2) = -2 := by exact_mod_cast j 2 (by norm_num)
  have j3 : rd53 (-3) = -3 := by exact_mod_cast j 3 (by norm_num)
  have j5 : rd53 (-5) = -5 := by exact_mod_cast j 5 (by norm_num)
  have j7 : rd53 (-7) = -7 := by exact_mod_cast j 7 (by norm_num)
  have j8 : rd53 (-8) = -8 := by exact_mod_cast j 8 (by norm_num)
  have j18 : rd53 (-18) = -18 := by exact_mod_cast j 18 (by norm_num)
  have d2 : rd53 (1 / 2) = 1 / 2 := by have := rd53_dyadic 1 (-1) (by norm_num); norm_num at this ⊢; exact this
  have d4 : rd53 (1 / 4) = 1 / 4 := by have := rd53_dyadic 1 (-2) (by norm_num); norm_num [zpow_neg] at this ⊢; exact this
  have d32 : rd53 (3 / 2) = 3 / 2 := by have := rd53_dyadic 3 (-1) (by norm_num); norm_num [zpow_neg] at this ⊢; exact this
  have m32 : rd53 (-(3 / 2)) = -(3 / 2) := by have := rd53_dyadic (-3) (-1) (by norm_num); norm_num [zpow_neg] at this ⊢; exact this
  have d72 : rd53 (7 / 2) = 7 / 2 := by have := rd53_dyadic 7 (-1) (by norm_num); norm_num [zpow_neg] at this ⊢; exact this
  have m72 : rd53 (-(7 / 2)) = -(7 / 2) := by have := rd53_dyadic (-7) (-1) (by norm_num); norm_num [zpow_neg] at this ⊢; exact this
  have d494 : rd53 (49 / 4) = 49 / 4 := by have := rd53_dyadic 49 (-2) (by norm_num); norm_num [zpow_neg] at this ⊢; exact this
  have d94 : rd53 (9 / 4) = 9 / 4 := by have := rd53_dyadic 9 (-2) (by norm_num); norm_num [zpow_neg] at this ⊢; exact this
  have m8 : rd53 (-(1 / 8)) = -(1 / 8) := by have := rd53_dyadic (-1) (-3) (by norm_num); norm_num [zpow_neg] at this ⊢; exact this
  have s9 : Real.sqrt 9 = 3 := by rw [show (9 : ℝ) = 3 ^ 2 by norm_num]; exact Real.sqrt_sq (by norm_num)
  have ht : (Surface.paraboloid (Flt.fin rd53 2)).timeToIntersect (V3.flt rd53 ⟨0, 0, -1⟩) (V3.flt rd53 ⟨0, 0, 1⟩) 0 0 =
      (true, Flt.fin rd53 1) := by
    show Surface.paraboloidTime (Flt.fin rd53 2) (V3.flt rd53 ⟨0, 0, -1⟩) (V3.flt rd53 ⟨0, 0, 1⟩) 0 = _
    simp only [Surface.paraboloidTime, V3.flt, V3.map, e2, e4, e1, flt_zero rd53_rounds, Flt.mul_fin, Flt.add_fin, Flt.sub_fin,
      Flt.lt_fin, Flt.neg_fin, Flt.eq_fin, Flt.div_fin (two_ne_zero (α := ℝ))]
    norm_num [h0, i1, i2, i4, j1, j2, d2, d4, Flt.div_fin]
  have hN : (Surface.paraboloid (Flt.fin rd53 2)).normal (Flt.fin rd53 0) (Flt.fin rd53 0) = V3.flt rd53 ⟨0, 0, 1⟩ := by
    show Surface.paraboloidNormal (Flt.fin rd53 2) (Flt.fin rd53 0) (Flt.fin rd53 0) = _
    simp only [Surface.paraboloidNormal, e1, flt_zero rd53_rounds, Flt.mul_fin, Flt.add_fin, Flt.neg_fin, Flt.eq_fin,
      Flt.div_fin (two_ne_zero (α := ℝ)), V3.flt, V3.map]
    norm_num [h0, i1, d2, Flt.sqrt_fin, Flt.div_fin]
  have f := hereT_forward 0 0 (-1) (by norm_num) (by norm_num) (by norm_num)
  have g := hereT_forward 0 0 1 (by norm_num) (by norm_num) (by norm_num)
  norm_num only [Int.cast_zero, Int.cast_neg, Int.cast_ofNat, Int.cast_one] at f g
  have er : (bareRay ⟨0, 0, -1⟩ ⟨0, 0, 1⟩).reflect (.paraboloid (Flt.fin rd53 2)) hereT none 0 =
      { bareRay ⟨0, 0, 0⟩ ⟨0, 0, -1⟩ with t := 0 + Flt.fin rd53 1 } := by
    have rp : V3.flt rd53 ⟨0, 0, -1⟩ + (V3.flt rd53 ⟨0, 0, 1⟩).smulR (Flt.fin rd53 1) = V3.flt rd53 ⟨0, 0, 0⟩ := by
      ext <;> simp [V3.flt, V3.map, h0, i1]
    unfold Ray.reflect
    simp only [bareRay, f.1, g.2, ht, Bool.false_eq_true, if_false, rp]
    rw [show (V3.flt rd53 ⟨0, 0, 0⟩).x = Flt.fin rd53 0 from rfl, show (V3.flt rd53 ⟨0, 0, 0⟩).y = Flt.fin rd53 0 from rfl, hN]
    congr 1
    ext <;> simp [V3.flt, V3.map, V3.dot, e2, h0, i1, i2]
    norm_num [j1]
  have ht' : (Surface.quadric (Flt.fin rd53 12) (Flt.fin rd53 (-3 ^ 2))).timeToIntersect (V3.flt rd53 ⟨0, 0, 2⟩) (V3.flt rd53 ⟨0, 0, -1⟩) 0 0 =
      (true, Flt.fin rd53 2) := by
    show Surface.quadricTime (Flt.fin rd53 12) (Flt.fin rd53 (-3 ^ 2)) (V3.flt rd53 ⟨0, 0, 2⟩) (V3.flt rd53 ⟨0, 0, -1⟩) 0 = _
    have k2 : rd53 (-3 ^ 2 + 1) = -8 := by norm_num [j8]
    have n8 : (-8 : ℝ) ≠ 0 := by norm_num
    simp only [Surface.quadricTime, Surface.rootPair, V3.flt, V3.map, e2, e4, e1, flt_zero rd53_rounds, Flt.mul_fin, Flt.add_fin, Flt.sub_fin,
      Flt.lt_fin, Flt.gt_fin, Flt.neg_fin, k2, Flt.div_fin n8]
    norm_num [h0, i1, i2, i3, i4, i5, i7, i9, i10, i20, i40, i49, i144, j1, j2, j3, j5, j7, j8, j18, d2, d4, d32, m32, d72, m72, d494, d94, m8, s9,
      Flt.sqrt_fin, Flt.add_fin, Flt.div_fin, Flt.mul_fin, Flt.abs_fin, Flt.lt_fin, Flt.sub_fin]
  have f2 : (shiftT (-2)).forward (V3.flt rd53 ⟨0, 0, 0⟩) = V3.flt rd53 ⟨0, 0, 2⟩ := by
    have := shiftT_forward (x := 0) (y := 0) (z := 0) (k := -2) h0 h0 (by norm_num [i2])
    rwa [show (0 : ℝ) - -2 = 2 by norm_num] at this
  have g2 : (shiftT (-2)).forwardVel (V3.flt rd53 ⟨0, 0, -1⟩) = V3.flt rd53 ⟨0, 0, -1⟩ := by
    simp [shiftT, CoordTransform.forwardVel, M3.mulVec, M3.tr, M3.flt, M3.map, V3.flt, V3.map, h0, j1]
  have rp : V3.flt rd53 ⟨0, 0, 2⟩ + (V3.flt rd53 ⟨0, 0, -1⟩).smulR (Flt.fin rd53 2) = V3.flt rd53 ⟨0, 0, 0⟩ := by
    ext <;> simp [V3.flt, V3.map, h0, j2]
  have ho : OffRim 1 (-3 ^ 2) 12 0 0 := by unfold OffRim; norm_num
  have hz : OnConic (-3 ^ 2) 12 0 0 0 := ⟨by norm_num, by norm_num⟩
  obtain ⟨z, n, hz', hn⟩ := conic_exists (by norm_num) ho
  obtain ⟨n', en, -⟩ := C125_quadric_normal rd53_rounds rd53_one le_rfl (by norm_num [zpow_neg]) ho hz' hn
  have er2 : ((bareRay ⟨0, 0, -1⟩ ⟨0, 0, 1⟩).reflect (.paraboloid (Flt.fin rd53 2)) hereT none 0).reflect
      (.quadric (Flt.fin rd53 12) (Flt.fin rd53 (-3 ^ 2))) (shiftT (-2)) none 0 =
      { bareRay ⟨0, 0, 0⟩ ⟨0, 0, -1⟩ with
        v := V3.flt rd53 ⟨0, 0, -1⟩ - V3.smul (2 * V3.dot (V3.flt rd53 ⟨0, 0, -1⟩) (n'.flt rd53)) (n'.flt rd53)
        t := 0 + Flt.fin rd53 1 + Flt.fin rd53 2 } := by
    rw [er]
    unfold Ray.reflect
    simp only [bareRay, f2, g2, ht', Bool.false_eq_true, if_false, rp]
    rw [show (V3.flt rd53 ⟨0, 0, 0⟩).x = Flt.fin rd53 0 from rfl, show (V3.flt rd53 ⟨0, 0, 0⟩).y = Flt.fin rd53 0 from rfl, en]
  have hw : ∃ w : V3 ℝ, (((bareRay ⟨0, 0, -1⟩ ⟨0, 0, 1⟩).reflect (.paraboloid (Flt.fin rd53 2)) hereT none 0).reflect
      (.quadric (Flt.fin rd53 12) (Flt.fin rd53 (-3 ^ 2))) (shiftT (-2)) none 0).v = w.flt rd53 := by
    rw [er2]
    refine V3.stored ?_ ?_ ?_ <;>
    · simp only [V3.dot, V3.sub_x, V3.sub_y, V3.sub_z, V3.smul_x, V3.smul_y, V3.smul_z, V3.flt, V3.map, e2, Flt.mul_fin, Flt.add_fin, Flt.sub_fin]
      exact stored_fin _
  obtain ⟨w, hw⟩ := hw
  refine ⟨⟨0, 0, 0⟩, w, by rw [er2]; rfl, hw, ?_⟩
  obtain ⟨t, k⟩ := C126_cassegrain rd53_rounds rd53_one (c := 1) le_rfl (by norm_num [zpow_neg]) (R := 2) (by norm_num) (R' := 12) (by norm_num)
    (e := 3) (by norm_num) (by norm_num) hereT (shiftT (-2)) none none 0 (bareRay ⟨0, 0, -1⟩ ⟨0, 0, 1⟩) one_ne_zero f.1 g.2
    (by rw [er]; rfl) (q := ⟨0, 0, 0⟩) (by rw [er]; rfl) (w := ⟨0, 0, -1⟩) (by rw [er]; rfl) f2 g2 (o := ⟨0, 0, -2⟩) (a := 0) (b := 0)
    (nrm_le le_rfl (by norm_num)) (by rw [zero_mul]; exact nrm_le le_rfl (by norm_num)) (by ext <;> norm_num) (by rw [er2]; rfl)
    (q' := ⟨0, 0, 0⟩) (by rw [er2]; rfl) hw ho hz (by norm_num)
  rw [show (12 : ℝ) / (1 - 3) = -6 by norm_num] at k
  refine ⟨t, k.trans ?_⟩
  have N0 : nrm (⟨0, 0, 0⟩ : V3 ℝ) = 0 := by simp [nrm, V3.normSq, V3.dot]
  have b1 : nrm (⟨0, 0, 2⟩ : V3 ℝ) ≤ 2 := nrm_le (by norm_num) (by norm_num)
  have b0 := nrm_nonneg (⟨0, 0, 2⟩ : V3 ℝ)
  have b2 : nrm ((⟨0, 0, 0⟩ : V3 ℝ) - ⟨0, 0, 2⟩) ≤ 2 := nrm_le (by norm_num) (by norm_num)
  have b3 := nrm_nonneg ((⟨0, 0, 0⟩ : V3 ℝ) - ⟨0, 0, 2⟩)
  have c1 : nrm (⟨0, 0, -1⟩ : V3 ℝ) ≤ 1 := nrm_le (by norm_num) (by norm_num)
  have c0 := nrm_nonneg (⟨0, 0, -1⟩ : V3 ℝ)
  have c2 : nrm ((⟨0, 0, 0⟩ : V3 ℝ) - ⟨0, 0, -1⟩) ≤ 1 := nrm_le (by norm_num) (by norm_num)
  have c3 := nrm_nonneg ((⟨0, 0, 0⟩ : V3 ℝ) - ⟨0, 0, -1⟩)
  have L : landSlack (2 ^ (-53 : ℤ)) 1 (-3 ^ 2) 12 (nrm ⟨0, 0, 2⟩ + nrm ((⟨0, 0, 0⟩ : V3 ℝ) - ⟨0, 0, 2⟩)) ≤ 1 / 10 ^ 11 := by
    unfold landSlack
    norm_num [zpow_neg]
    nlinarith
  have P : parabolaSlack (2 ^ (-53 : ℤ)) 2 ⟨0, 0, -1⟩ ⟨0, 0, 0⟩ ≤ 1 / 10 ^ 11 := by
    unfold parabolaSlack
    norm_num [zpow_neg]
    nlinarith
  norm_num [zpow_neg] at L P ⊢
  linarith

end cases
end Batoid.Props
