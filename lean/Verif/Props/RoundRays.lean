import Verif.Props.RoundNormals

/-!
# Property C115: rays in arithmetic with rounding

Specification vocabulary: `Rounds`, `nrm`, `Nearly` of C111; `mirrorImage n v`, the exact reflection of `v` in the plane across `n`;
`Mirrors`, a history of operations that do not refract.
-/

namespace Batoid.Props
open Batoid

section spec

/-- Reflection in the plane orthogonal to `n`. -/
noncomputable def mirrorImage (n v : V3 ℝ) : V3 ℝ := v - V3.smul (2 * V3.dot v n / V3.dot n n) n

end spec

section lemmas
variable {u δ η : ℝ} {rd : ℝ → ℝ}

theorem V3.flt_inj {a b : V3 ℝ} (e : a.flt rd = b.flt rd) : a = b := by
  have ex := congrArg V3.x e
  have ey := congrArg V3.y e
  have ez := congrArg V3.z e
  change Flt.fin rd _ = Flt.fin rd _ at ex ey ez
  rw [Flt.fin_inj] at ex ey ez
  exact V3.ext ex ey ez

theorem nrm_sq_dot (v : V3 ℝ) : nrm v ^ 2 = V3.dot v v := Real.sq_sqrt (V3.normSq_nonneg v)

theorem nrm_smul (s : ℝ) (v : V3 ℝ) : nrm (V3.smul s v) = |s| * nrm v := by
  rw [nrm, nrm, ← Real.sqrt_sq_eq_abs, ← Real.sqrt_mul (sq_nonneg s)]
  congr 1
  simp only [V3.normSq, V3.dot, V3.smul]; ring
theorem nrm_smulR (s : ℝ) (v : V3 ℝ) : nrm (v.smulR s) = |s| * nrm v := by
  rw [← nrm_smul]; congr 1; ext <;> simp [V3.smul, V3.smulR] <;> ring

theorem Rounds.smulR (h : Rounds u rd) (v : V3 ℝ) (s : ℝ) :
    ∃ w : V3 ℝ, (v.flt rd).smulR (Flt.fin rd s) = w.flt rd ∧ nrm (w - v.smulR s) ≤ u * (|s| * nrm v) := by
  refine ⟨⟨rd (v.x * s), rd (v.y * s), rd (v.z * s)⟩, by ext <;> simp [V3.flt, V3.smulR], ?_⟩
  rw [← nrm_smulR]
  exact h.vec rfl rfl rfl

theorem Rounds.smul (h : Rounds u rd) (s : ℝ) (v : V3 ℝ) :
    ∃ w : V3 ℝ, V3.smul (Flt.fin rd s) (v.flt rd) = w.flt rd ∧ nrm (w - V3.smul s v) ≤ u * (|s| * nrm v) := by
  refine ⟨⟨rd (s * v.x), rd (s * v.y), rd (s * v.z)⟩, by ext <;> simp [V3.flt, V3.smul], ?_⟩
  rw [← nrm_smul]
  exact h.vec rfl rfl rfl

theorem Rounds.dot (h : Rounds u rd) (hu : u ≤ 1 / 4) (v w : V3 ℝ) :
    ∃ a : ℝ, V3.dot (v.flt rd) (w.flt rd) = Flt.fin rd a ∧ |a - V3.dot v w| ≤ 4 * u * (nrm v * nrm w) := by
  have hu0 := h.nonneg
  refine ⟨_, rfl, (h.dot3 hu v.x w.x v.y w.y v.z w.z).trans ?_⟩
  exact mul_le_mul_of_nonneg_left (absDot_le v w) (by linarith)

/-- The computed position after a computed time `dt` near `s`. -/
theorem advance_near (h : Rounds u rd) (hu : u ≤ 1 / 1000) (r v : V3 ℝ) {dt s : ℝ} (hdt : |dt - s| ≤ 2 * u * |s|) :
    ∃ q : V3 ℝ, r.flt rd + (v.flt rd).smulR (Flt.fin rd dt) = q.flt rd ∧
      nrm (q - (r + v.smulR s)) ≤ u * nrm r + 5 * u * (|s| * nrm v) := by
  have hu0 := h.nonneg
  obtain ⟨w, hw, hw'⟩ := h.smulR v dt
  obtain ⟨q, hq, hq'⟩ := h.add r w
  refine ⟨q, by rw [hw, hq], ?_⟩
  have V0 := nrm_nonneg v
  have R0 := nrm_nonneg r
  have s0 := abs_nonneg s
  have k1 := nrm_via q (r + w) (r + v.smulR s)
  have k2 : nrm (r + w - (r + v.smulR s)) = nrm (w - v.smulR s) := by congr 1; ext <;> simp
  rw [k2] at k1
  have k3 := nrm_via w (v.smulR dt) (v.smulR s)
  have k4 : nrm (v.smulR dt - v.smulR s) = |dt - s| * nrm v := by
    rw [← nrm_smulR]; congr 1; ext <;> simp [V3.smulR] <;> ring
  have k5 : |dt| ≤ |s| + 2 * u * |s| := by have := abs_sub_abs_le_abs_sub dt s; linarith
  have sv := mul_nonneg s0 V0
  have k6 : |dt - s| * nrm v ≤ 2 * u * |s| * nrm v := mul_le_mul_of_nonneg_right hdt V0
  have k7 : |dt| * nrm v ≤ 1002 / 1000 * (|s| * nrm v) := by
    have : |dt| ≤ 1002 / 1000 * |s| := by nlinarith
    have := mul_le_mul_of_nonneg_right this V0
    linarith
  have k8 := mul_le_mul_of_nonneg_left k7 hu0
  have k9 := nrm_close w (v.smulR s)
  rw [nrm_smulR] at k9
  have k10 := nrm_add r w
  have k11 : nrm (w - v.smulR s) ≤ 3 * u * (|s| * nrm v) + 2 / 1000 * u * (|s| * nrm v) := by linarith
  have k12 : nrm w ≤ 101 / 100 * (|s| * nrm v) := by
    have := mul_le_mul_of_nonneg_right hu sv
    linarith
  have k13 : u * nrm (r + w) ≤ u * (nrm r + 101 / 100 * (|s| * nrm v)) := mul_le_mul_of_nonneg_left (by linarith) hu0
  have := mul_nonneg hu0 sv
  linarith

theorem Nearly.len {m : M3 ℝ} (h : Nearly δ m) (v : V3 ℝ) : |nrm (m.mulVec v) - nrm v| ≤ δ * nrm v := by
  have d0 := nearly_nonneg h
  have V0 := nrm_nonneg v
  have W0 := nrm_nonneg (m.mulVec v)
  have e : nrm (m.mulVec v) ^ 2 - nrm v ^ 2 = V3.dot v ((M3.diff (m.tr.mul m) M3.one).mulVec v) := by
    rw [nrm_sq, nrm_sq]
    simp only [V3.dot, M3.mulVec, M3.diff, M3.mul, M3.tr, M3.one]; ring
  have k1 : |nrm (m.mulVec v) ^ 2 - nrm v ^ 2| ≤ δ * nrm v ^ 2 := by
    rw [e]
    refine (dot_le _ _).trans ?_
    have := (nrm_mulVec (M3.diff (m.tr.mul m) M3.one) v).trans (mul_le_mul_of_nonneg_right h V0)
    have := mul_le_mul_of_nonneg_left this V0
    linarith
  rcases V0.eq_or_lt with h0 | h0
  · rw [← h0] at k1 ⊢
    simp only [sub_zero, mul_zero] at *
    have : nrm (m.mulVec v) ^ 2 ≤ 0 := by
      have := le_abs_self (nrm (m.mulVec v) ^ 2 - 0 ^ 2)
      nlinarith
    rw [abs_of_nonneg W0]
    nlinarith
  · have key : |nrm (m.mulVec v) - nrm v| * (nrm (m.mulVec v) + nrm v) ≤ δ * nrm v * (nrm (m.mulVec v) + nrm v) := by
      have e1 : |nrm (m.mulVec v) - nrm v| * (nrm (m.mulVec v) + nrm v) = |nrm (m.mulVec v) ^ 2 - nrm v ^ 2| := by
        nth_rewrite 1 [← abs_of_nonneg (add_nonneg W0 V0)]
        rw [← abs_mul]
        congr 1; ring
      rw [e1]
      have := mul_nonneg (mul_nonneg d0 V0) W0
      nlinarith
    exact le_of_mul_le_mul_right key (by linarith)

theorem mirrorImage_len {n : V3 ℝ} (hn : V3.dot n n ≠ 0) (v : V3 ℝ) : nrm (mirrorImage n v) = nrm v := by
  rw [nrm, nrm]
  congr 1
  have e : V3.normSq (mirrorImage n v) = V3.normSq v - 4 * V3.dot v n * V3.dot v n / V3.dot n n +
      (2 * V3.dot v n / V3.dot n n) ^ 2 * V3.dot n n := by
    simp only [mirrorImage, V3.normSq]
    generalize hk : 2 * V3.dot v n / V3.dot n n = k
    have : 4 * V3.dot v n * V3.dot v n / V3.dot n n = 2 * V3.dot v n * k := by rw [← hk]; ring
    rw [this]
    simp only [V3.dot, V3.smul, V3.sub_x, V3.sub_y, V3.sub_z]; ring
  rw [e]
  field_simp
  ring

/-- The code's reflection. -/
theorem reflect_near (h : Rounds u rd) (hu : u ≤ 1 / 1000) {n : V3 ℝ} (hn : |nrm n ^ 2 - 1| ≤ η) (hη : η ≤ 1 / 10) (v : V3 ℝ) :
    ∃ w : V3 ℝ, v.flt rd - V3.smul (2 * V3.dot (v.flt rd) (n.flt rd)) (n.flt rd) = w.flt rd ∧
      nrm (w - mirrorImage n v) ≤ (30 * u + 3 * η) * nrm v := by
  have hu0 := h.nonneg
  have hu1 : u < 1 := by linarith
  have η0 := (abs_nonneg _).trans hn
  have V0 := nrm_nonneg v
  have N0 := nrm_nonneg n
  rw [abs_le] at hn
  have N1 : nrm n ≤ 105 / 100 := by nlinarith
  obtain ⟨a, ha, ha'⟩ := h.dot (by linarith) v n
  have e2 : (2 : Flt rd) = Flt.fin rd (rd 2) := by simpa using Flt.ofNat_fin (rd := rd) 2
  have rk := (h.after hu1 ((h.rel hu1 2).mul hu1 (Rel.refl a))).near hu0 hu1 4 (by norm_num) (by linarith)
  generalize hk : rd (rd 2 * a) = k at rk
  obtain ⟨m, hm, hm'⟩ := h.smul k n
  obtain ⟨w, hw, hw'⟩ := h.sub v m
  refine ⟨w, by rw [ha, e2, Flt.mul_fin, hk, hm, hw], ?_⟩
  have d1 := dot_le v n
  have nv := mul_nonneg V0 N0
  have VN : nrm v * nrm n ≤ 105 / 100 * nrm v := by nlinarith
  have a1 : |a| ≤ 106 / 100 * nrm v := by
    have := abs_sub_abs_le_abs_sub a (V3.dot v n)
    nlinarith
  have k1 : |k - 2 * V3.dot v n| ≤ 18 * u * nrm v := by
    have e : k - 2 * V3.dot v n = (k - 2 * a) + 2 * (a - V3.dot v n) := by ring
    rw [e]
    refine (abs_add_le _ _).trans ?_
    rw [abs_mul 2 a, abs_two] at rk
    rw [abs_mul 2 (a - V3.dot v n), abs_two]
    have g1 := mul_le_mul_of_nonneg_left a1 hu0
    have g2 := mul_le_mul_of_nonneg_left VN hu0
    have := mul_nonneg hu0 V0
    linarith
  have uV := mul_nonneg hu0 V0
  have uV1 : u * nrm v ≤ 1 / 1000 * nrm v := mul_le_mul_of_nonneg_right hu V0
  have k2 : |k| ≤ 213 / 100 * nrm v := by
    have := abs_sub_abs_le_abs_sub k (2 * V3.dot v n)
    rw [abs_mul, abs_two] at this
    linarith
  -- distance of the stored correction from the exact one
  have m1 : nrm (m - V3.smul (2 * V3.dot v n) n) ≤ 22 * u * nrm v := by
    have g1 := nrm_via m (V3.smul k n) (V3.smul (2 * V3.dot v n) n)
    have g2 : nrm (V3.smul k n - V3.smul (2 * V3.dot v n) n) = |k - 2 * V3.dot v n| * nrm n := by
      rw [← nrm_smul]; congr 1; ext <;> simp [V3.smul] <;> ring
    have g3 : |k - 2 * V3.dot v n| * nrm n ≤ 18 * u * nrm v * (105 / 100) := mul_le_mul k1 N1 N0 (by linarith)
    have g4 : u * (|k| * nrm n) ≤ u * (213 / 100 * nrm v * (105 / 100)) :=
      mul_le_mul_of_nonneg_left (mul_le_mul k2 N1 N0 (by linarith)) hu0
    linarith
  have m2 : nrm (V3.smul (2 * V3.dot v n) n) ≤ 221 / 100 * nrm v := by
    rw [nrm_smul, abs_mul, abs_two]
    have : |V3.dot v n| * nrm n ≤ 105 / 100 * nrm v * (105 / 100) := mul_le_mul (d1.trans VN) N1 N0 (by linarith)
    linarith
  have m3 := nrm_close m (V3.smul (2 * V3.dot v n) n)
  have m4 := nrm_sub v m
  have m5 : u * nrm (v - m) ≤ u * (33 / 10 * nrm v) := mul_le_mul_of_nonneg_left (by linarith) hu0
  have m6 := nrm_via w (v - m) (mirrorImage n v)
  have m7 := nrm_via (v - m) (v - V3.smul (2 * V3.dot v n) n) (mirrorImage n v)
  have m8 : nrm (v - m - (v - V3.smul (2 * V3.dot v n) n)) = nrm (m - V3.smul (2 * V3.dot v n) n) := by
    rw [nrm_sub_comm]; congr 1; ext <;> simp
  have nn : V3.dot n n = nrm n ^ 2 := (nrm_sq_dot n).symm
  have nn0 : 9 / 10 ≤ nrm n ^ 2 := by linarith
  have m9 : nrm (v - V3.smul (2 * V3.dot v n) n - mirrorImage n v) ≤ 3 * η * nrm v := by
    have e : v - V3.smul (2 * V3.dot v n) n - mirrorImage n v = V3.smul (2 * V3.dot v n * (1 - nrm n ^ 2) / nrm n ^ 2) n := by
      rw [← nn]
      have : V3.dot n n ≠ 0 := by rw [nn]; positivity
      have c : 2 * V3.dot v n * (1 - V3.dot n n) / V3.dot n n = 2 * V3.dot v n / V3.dot n n - 2 * V3.dot v n := by field_simp
      rw [c]
      ext <;> simp [mirrorImage, V3.smul] <;> ring
    rw [e, nrm_smul, abs_div, abs_mul, abs_mul, abs_two, abs_of_pos (show (0 : ℝ) < nrm n ^ 2 by linarith), div_mul_eq_mul_div,
      div_le_iff₀ (by linarith)]
    have g1 : |1 - nrm n ^ 2| ≤ η := by rw [abs_le]; constructor <;> linarith
    have g2 : |V3.dot v n| * |1 - nrm n ^ 2| ≤ nrm v * nrm n * η := mul_le_mul d1 g1 (abs_nonneg _) nv
    have g3 := mul_le_mul_of_nonneg_right g2 N0
    have g4 := mul_nonneg (mul_nonneg η0 V0) (sq_nonneg (nrm n))
    nlinarith
  rw [m8] at m7
  linarith

end lemmas

section c115
variable {u δ η : ℝ} {rd : ℝ → ℝ}

/-- C115: `propagate` and `positionAtTime` with rounding. -/
theorem C115_propagate (h : Rounds u rd) (hu : u ≤ 1 / 1000) (ray : Ray (Flt rd)) {r v : V3 ℝ} {t0 : ℝ} (hr : ray.r = r.flt rd)
    (hv : ray.v = v.flt rd) (ht : ray.t = Flt.fin rd t0) (t : ℝ) : ∃ q : V3 ℝ, (ray.propagate (Flt.fin rd t)).r = q.flt rd ∧
      ray.positionAtTime (Flt.fin rd t) = q.flt rd ∧
      nrm (q - (r + v.smulR (t - t0))) ≤ u * nrm r + 5 * u * (|t - t0| * nrm v) := by
  have hu0 := h.nonneg
  have := h.err (t - t0)
  obtain ⟨q, hq, hq'⟩ := advance_near h hu r v (dt := rd (t - t0)) (s := t - t0) (by
    have := mul_nonneg hu0 (abs_nonneg (t - t0)); linarith)
  refine ⟨q, ?_, ?_, hq'⟩ <;>
  · simp only [Ray.propagate, Ray.positionAtTime, hr, hv, ht, Flt.sub_fin]
    exact hq

/-- C115: a ray meeting a plane lands on it up to five roundings of its height, at the right place. -/
theorem C115_plane (h : Rounds u rd) (hu : u ≤ 1 / 1000) (ct : CoordTransform (Flt rd)) (c : Option (Coating (Flt rd))) (niter : ℕ)
    (ray : Ray (Flt rd)) (hf : ray.failed = false) {r v : V3 ℝ} (hr : ct.forward ray.r = r.flt rd)
    (hv : ct.forwardVel ray.v = v.flt rd) (hz : v.z ≠ 0) : ∃ q : V3 ℝ, (ray.intersect Surface.plane ct c niter).r = q.flt rd ∧
      |q.z| ≤ 5 * u * |r.z| ∧
      nrm (q - (r + v.smulR (-r.z / v.z))) ≤ u * nrm r + 5 * u * (|-r.z / v.z| * nrm v) := by
  have hu0 := h.nonneg
  have hu1 : u < 1 := by linarith
  have herr := h.err (-r.z / v.z)
  obtain ⟨q, hq, hq'⟩ := advance_near h hu r v (dt := rd (-r.z / v.z)) (s := -r.z / v.z) (by
    have := mul_nonneg hu0 (abs_nonneg (-r.z / v.z)); linarith)
  have ez : (Surface.plane (F := Flt rd)).timeToIntersect (r.flt rd) (v.flt rd) 0 niter = (true, Flt.fin rd (rd (-r.z / v.z))) := by
    show (if Arith.eq (Flt.fin rd v.z) 0 = true then _ else (true, -Flt.fin rd r.z / Flt.fin rd v.z)) = _
    rw [flt_zero h, Flt.eq_fin, Flt.neg_fin, Flt.div_fin hz]
    simp [hz]
  refine ⟨q, ?_, ?_, hq'⟩
  · unfold Ray.intersect
    simp only [hf, hr, hv, ez, Bool.false_eq_true, if_false]
    exact hq
  · have e := congrArg V3.z hq
    change Flt.fin rd r.z + Flt.fin rd v.z * Flt.fin rd (rd (-r.z / v.z)) = Flt.fin rd q.z at e
    rw [Flt.mul_fin, Flt.add_fin, Flt.fin_inj] at e
    have r1 := h.after hu1 ((Rel.refl v.z).mul hu1 (h.rel hu1 (-r.z / v.z)))
    rw [show v.z * (-r.z / v.z) = -r.z by field_simp] at r1
    have r2 := r1.near hu0 hu1 4 (by norm_num) (by linarith)
    have r3 := h.err (r.z + rd (v.z * rd (-r.z / v.z)))
    rw [e] at r3
    rw [show rd (v.z * rd (-r.z / v.z)) - -r.z = r.z + rd (v.z * rd (-r.z / v.z)) by ring, abs_neg] at r2
    generalize r.z + rd (v.z * rd (-r.z / v.z)) = X at *
    have := abs_sub_abs_le_abs_sub q.z X
    have := mul_le_mul_of_nonneg_left r2 hu0
    have := mul_le_mul_of_nonneg_right hu (mul_nonneg hu0 (abs_nonneg r.z))
    have := mul_nonneg hu0 (abs_nonneg r.z)
    linarith

/-- C115: the law of reflection with rounding: the new velocity is the mirror image of the old in the tangent plane. -/
theorem C115_reflect (h : Rounds u rd) (hu : u ≤ 1 / 1000) {s : Surface (Flt rd)} (hs : UnitNormals rd η s) (hη : η ≤ 1 / 10)
    (ct : CoordTransform (Flt rd)) (c : Option (Coating (Flt rd))) (niter : ℕ) (ray : Ray (Flt rd)) {w : V3 ℝ}
    (hw : (ray.reflect s ct c niter).v = w.flt rd) (hok : (ray.reflect s ct c niter).failed = false) :
    ∃ v n : V3 ℝ, ct.forwardVel ray.v = v.flt rd ∧
      s.normal (ray.reflect s ct c niter).r.x (ray.reflect s ct c niter).r.y = n.flt rd ∧
      nrm (w - mirrorImage n v) ≤ (30 * u + 3 * η) * nrm v ∧ |nrm w - nrm v| ≤ (30 * u + 3 * η) * nrm v := by
  have hf : ray.failed = false := by
    by_contra hf
    rw [Bool.not_eq_false] at hf
    simp [Ray.reflect, hf] at hok
  unfold Ray.reflect at hw hok ⊢
  simp only [hf, Bool.false_eq_true, if_false] at hw hok ⊢
  generalize ht : s.timeToIntersect (ct.forward ray.r) (ct.forwardVel ray.v) 0 niter = tt at hw hok ⊢
  obtain ⟨ok, dt⟩ := tt
  cases ok with
  | false => simp [Ray.markFailed] at hok
  | true =>
    simp only at hw hok ⊢
    generalize ct.forward ray.r + (ct.forwardVel ray.v).smulR dt = r' at hw ⊢
    generalize hN : s.normal r'.x r'.y = N at hw ⊢
    generalize ct.forwardVel ray.v = V at hw ⊢
    have sx : Stored (V.x - 2 * V3.dot V N * N.x) := ⟨w.x, congrArg V3.x hw⟩
    have sy : Stored (V.y - 2 * V3.dot V N * N.y) := ⟨w.y, congrArg V3.y hw⟩
    have sz : Stored (V.z - 2 * V3.dot V N * N.z) := ⟨w.z, congrArg V3.z hw⟩
    obtain ⟨v, rfl⟩ := V3.stored sx.sub.1 sy.sub.1 sz.sub.1
    obtain ⟨n, rfl⟩ := V3.stored sx.sub.2.mul.2 sy.sub.2.mul.2 sz.sub.2.mul.2
    have hn := hs _ _ _ hN
    obtain ⟨w', k1, k2⟩ := reflect_near h hu hn hη v
    have : w' = w := V3.flt_inj (k1.symm.trans hw)
    subst this
    refine ⟨v, n, rfl, rfl, k2, ?_⟩
    have nn : V3.dot n n ≠ 0 := by
      rw [← nrm_sq_dot]
      rw [abs_le] at hn
      intro e0
      linarith
    have e := mirrorImage_len nn v
    rw [abs_le]
    have g1 := nrm_close w' (mirrorImage n v)
    have g2 := nrm_close (mirrorImage n v) w'
    rw [nrm_sub_comm] at g2
    constructor <;> linarith

/-! ### Histories -/

/-- The frame an operation changes to is stored and orthonormal up to `δ`. -/
def FrameOk (rd : ℝ → ℝ) (δ : ℝ) (c : CoordSys (Flt rd)) : Prop := ∃ c' : CoordSys ℝ, c = c'.flt rd ∧ Nearly δ c'.rot

/-- Operations that leave the speed of light alone: intersections, mirrors with nearly unit normals, obscurations, changes of frame
and propagation. -/
def KeepsSpeed (rd : ℝ → ℝ) (δ η : ℝ) : RayOp (Flt rd) → Prop
  | .intersect _ cs _ _ => ∀ c ∈ cs, FrameOk rd δ c
  | .reflect s cs _ _ => (∀ c ∈ cs, FrameOk rd δ c) ∧ UnitNormals rd η s
  | .obscure _ => True
  | .toCoordSys c => FrameOk rd δ c
  | .propagate _ => True
  | _ => False

/-- A computed velocity in another frame has the length it had. -/
theorem frame_speed (h : Rounds u rd) (hu : u ≤ 1 / 1000) {a b : CoordSys (Flt rd)} (ha : FrameOk rd δ a) (hb : FrameOk rd δ b)
    (hδ : δ ≤ 1 / 100) {V : V3 (Flt rd)} {w : V3 ℝ} (hw : (CoordTransform.make a b).forwardVel V = w.flt rd) :
    ∃ v : V3 ℝ, V = v.flt rd ∧ |nrm w - nrm v| ≤ (25 * u + 3 * δ) * nrm v := by
  obtain ⟨a, rfl, ha⟩ := ha
  obtain ⟨b, rfl, hb⟩ := hb
  have d0 := nearly_nonneg ha
  obtain ⟨v, rfl⟩ : ∃ v : V3 ℝ, V = v.flt rd := by
    have sx : Stored ((CoordTransform.make (a.flt rd) (b.flt rd)).forwardVel V).x := by rw [hw]; exact ⟨w.x, rfl⟩
    have s1 := sx.add
    have s2 := s1.1.add
    exact V3.stored s2.1.mul.2 s2.2.mul.2 s1.2.mul.2
  refine ⟨v, rfl, ?_⟩
  obtain ⟨w', k1, k2⟩ := C111_velocity h hu ha hb hδ v
  have : w' = w := V3.flt_inj (k1.symm.trans hw)
  subst this
  have V0 := nrm_nonneg v
  have l1 := ha.len v
  have l2 := hb.tr.len (a.rot.mulVec v)
  have g1 := nrm_close w' (b.rot.tr.mulVec (a.rot.mulVec v))
  have g2 := nrm_close (b.rot.tr.mulVec (a.rot.mulVec v)) w'
  rw [nrm_sub_comm] at g2
  rw [abs_le] at l1 l2 ⊢
  have l3 : nrm (a.rot.mulVec v) ≤ 2 * nrm v := by nlinarith
  have l4 := mul_le_mul_of_nonneg_left l3 d0
  constructor <;> linarith

theorem keepsSpeed_frame {op : RayOp (Flt rd)} (hop : KeepsSpeed rd δ η op) {rv : RayVec (Flt rd)} (hf : FrameOk rd δ rv.coordSys) :
    FrameOk rd δ (op.run rv).coordSys := by
  have g : ∀ cs : Option (CoordSys (Flt rd)), (∀ c ∈ cs, FrameOk rd δ c) → FrameOk rd δ (cs.getD rv.coordSys) := by
    intro cs hcs
    cases cs with
    | none => exact hf
    | some c => exact hcs c rfl
  cases op with
  | intersect s cs c n => exact g cs hop
  | reflect s cs c n => exact g cs hop.1
  | obscure o => exact hf
  | toCoordSys c => exact hop
  | propagate t => exact hf
  | _ => exact absurd hop id

/-- One operation on one ray. -/
theorem keepsSpeed_step (h : Rounds u rd) (hu : u ≤ 1 / 1000) {op : RayOp (Flt rd)} (hop : KeepsSpeed rd δ η op) (hη : η ≤ 1 / 10)
    (hη0 : 0 ≤ η) (hδ : δ ≤ 1 / 100) {cs : CoordSys (Flt rd)} (hf : FrameOk rd δ cs) (ray : Ray (Flt rd)) {w : V3 ℝ}
    (hw : (op.onRay cs ray).v = w.flt rd) :
    ∃ v : V3 ℝ, ray.v = v.flt rd ∧ |nrm w - nrm v| ≤ (60 * u + 3 * δ + 4 * η) * nrm v := by
  have hu0 := h.nonneg
  obtain ⟨_, -, hn⟩ := id hf
  have d0 := nearly_nonneg hn
  have same : ray.v = w.flt rd → ∃ v : V3 ℝ, ray.v = v.flt rd ∧ |nrm w - nrm v| ≤ (60 * u + 3 * δ + 4 * η) * nrm v := by
    intro e
    refine ⟨w, e, ?_⟩
    rw [sub_self, abs_zero]
    exact mul_nonneg (by positivity) (nrm_nonneg _)
  have g : ∀ cs' : Option (CoordSys (Flt rd)), (∀ c ∈ cs', FrameOk rd δ c) → FrameOk rd δ (cs'.getD cs) := by
    intro cs' hcs
    cases cs' with
    | none => exact hf
    | some c => exact hcs c rfl
  have moved : ∀ b, FrameOk rd δ b → ∀ {x : V3 ℝ}, (CoordTransform.make cs b).forwardVel ray.v = x.flt rd →
      ∃ v : V3 ℝ, ray.v = v.flt rd ∧ |nrm x - nrm v| ≤ (25 * u + 3 * δ) * nrm v := fun b hb x hx => frame_speed h hu hf hb hδ hx
  have widen : ∀ {x : V3 ℝ} , (∃ v : V3 ℝ, ray.v = v.flt rd ∧ |nrm x - nrm v| ≤ (25 * u + 3 * δ) * nrm v) →
      ∃ v : V3 ℝ, ray.v = v.flt rd ∧ |nrm x - nrm v| ≤ (60 * u + 3 * δ + 4 * η) * nrm v := by
    rintro x ⟨v, e, k⟩
    exact ⟨v, e, k.trans (mul_le_mul_of_nonneg_right (by linarith) (nrm_nonneg v))⟩
  cases op with
  | intersect s cs' c n =>
    change (Ray.intersect s (CoordTransform.make cs (cs'.getD cs)) c n ray).v = _ at hw
    unfold Ray.intersect at hw
    split_ifs at hw with h1
    · exact same hw
    · simp only at hw
      generalize s.timeToIntersect _ _ _ _ = tt at hw
      obtain ⟨ok, dt⟩ := tt
      cases ok with
      | false => exact same hw
      | true => exact widen (moved _ (g cs' hop) hw)
  | reflect s cs' c n =>
    change (Ray.reflect s (CoordTransform.make cs (cs'.getD cs)) c n ray).v = _ at hw
    by_cases hfail : (Ray.reflect s (CoordTransform.make cs (cs'.getD cs)) c n ray).failed = false
    · obtain ⟨v, n', k1, -, -, k2⟩ := C115_reflect h hu hop.2 hη _ c n ray hw hfail
      obtain ⟨v0, e, k3⟩ := moved _ (g cs' hop.1) k1
      refine ⟨v0, e, ?_⟩
      have V0 := nrm_nonneg v0
      have k4 : nrm v ≤ 11 / 10 * nrm v0 := by
        rw [abs_le] at k3
        nlinarith
      have k5 := mul_le_mul_of_nonneg_left k4 (show 0 ≤ 30 * u + 3 * η by positivity)
      have k6 := abs_sub_le (nrm w) (nrm v) (nrm v0)
      have k7 := mul_nonneg hu0 V0
      have k8 := mul_nonneg hη0 V0
      linarith
    · unfold Ray.reflect at hw hfail
      split_ifs at hw with h1
      · exact same hw
      · simp only [h1, Bool.false_eq_true, if_false] at hfail
        simp only at hw
        generalize s.timeToIntersect _ _ _ _ = tt at hw hfail
        obtain ⟨ok, dt⟩ := tt
        cases ok with
        | false => exact same hw
        | true => exact absurd (by simpa using h1) hfail
  | obscure o => exact same hw
  | toCoordSys c => exact widen (moved c hop hw)
  | propagate t => exact same hw
  | _ => exact absurd hop id

/-- C115: through any history of mirrors, intersections, obscurations, changes of frame and propagations, the computed speed of a
ray stays what it was, up to a number of roundings proportional to the length of the history. -/
theorem C115_speed (h : Rounds u rd) (hu : u ≤ 1 / 1000) (hη : η ≤ 1 / 10) (hη0 : 0 ≤ η) (hδ : δ ≤ 1 / 100)
    (ops : List (RayOp (Flt rd))) (hops : ∀ op ∈ ops, KeepsSpeed rd δ η op) (rv : RayVec (Flt rd)) (hf : FrameOk rd δ rv.coordSys)
    (hn : ops.length * (60 * u + 3 * δ + 4 * η) ≤ 1) {i : ℕ} {ray ray' : Ray (Flt rd)} (hi : rv.rays[i]? = some ray)
    (hi' : (RayOp.runAll rv ops).rays[i]? = some ray') {w : V3 ℝ} (hw : ray'.v = w.flt rd) :
    ∃ v : V3 ℝ, ray.v = v.flt rd ∧ |nrm w - nrm v| ≤ 2 * (ops.length * (60 * u + 3 * δ + 4 * η)) * nrm v := by
  have hu0 := h.nonneg
  have d0 : 0 ≤ δ := by
    obtain ⟨_, -, hn⟩ := hf
    exact nearly_nonneg hn
  generalize hε : 60 * u + 3 * δ + 4 * η = ε at *
  have e0 : 0 ≤ ε := by rw [← hε]; positivity
  have frames : ∀ (l : List (RayOp (Flt rd))), (∀ op ∈ l, KeepsSpeed rd δ η op) → FrameOk rd δ (RayOp.runAll rv l).coordSys := by
    intro l
    induction l using List.reverseRecOn with
    | nil => intro _; exact hf
    | append_singleton l op ih =>
      intro hl
      rw [RayOp.runAll, List.foldl_append]
      exact keepsSpeed_frame (hl op (by simp)) (ih fun o ho => hl o (by simp [ho]))
  have key : ∀ (l : List (RayOp (Flt rd))), (∀ op ∈ l, KeepsSpeed rd δ η op) → l.length * ε ≤ 1 → ∀ {ray' : Ray (Flt rd)} {w : V3 ℝ},
      (RayOp.runAll rv l).rays[i]? = some ray' → ray'.v = w.flt rd →
      ∃ v : V3 ℝ, ray.v = v.flt rd ∧ |nrm w - nrm v| ≤ ((1 + ε) ^ l.length - 1) * nrm v := by
    intro l
    induction l using List.reverseRecOn with
    | nil =>
      intro _ _ ray' w h1 h2
      have : ray = ray' := by
        have := hi.symm.trans h1
        simpa using this
      subst this
      exact ⟨w, h2, by simp⟩
    | append_singleton l op ih =>
      intro hl hlen ray' w h1 h2
      have hlen' : ((l ++ [op]).length : ℝ) = l.length + 1 := by simp
      rw [hlen'] at hlen
      have fr := frames l fun o ho => hl o (by simp [ho])
      rw [RayOp.runAll, List.foldl_append] at h1
      change (op.run (RayOp.runAll rv l)).rays[i]? = _ at h1
      rw [RayOp.run_rays, List.getElem?_map] at h1
      obtain ⟨mid, hm, rfl⟩ := Option.map_eq_some_iff.1 h1
      obtain ⟨x, hx, kx⟩ := keepsSpeed_step h hu (hl op (by simp)) hη hη0 hδ fr mid h2
      rw [hε] at kx
      obtain ⟨v, hv, kv⟩ := ih (fun o ho => hl o (by simp [ho])) (by nlinarith) hm hx
      refine ⟨v, hv, ?_⟩
      have V0 := nrm_nonneg v
      have X1 : nrm x ≤ (1 + ε) ^ l.length * nrm v := by
        rw [abs_le] at kv
        linarith
      have k6 := abs_sub_le (nrm w) (nrm x) (nrm v)
      have k7 := mul_le_mul_of_nonneg_left X1 e0
      have : (1 + ε) ^ (l ++ [op]).length = (1 + ε) ^ l.length * (1 + ε) := by simp [pow_succ]
      rw [this]
      linarith
  obtain ⟨v, hv, kv⟩ := key ops hops hn hi' hw
  refine ⟨v, hv, kv.trans (mul_le_mul_of_nonneg_right ?_ (nrm_nonneg v))⟩
  -- (1 + ε)^n ≤ 1 + 2 n ε while n ε ≤ 1
  have grow : ∀ n : ℕ, n * ε ≤ 1 → (1 + ε) ^ n ≤ 1 + n * ε + (n * ε) ^ 2 := by
    intro n
    induction n with
    | zero => intro _; simp
    | succ n ih =>
      intro hle
      push_cast at hle ⊢
      have n0 : (0 : ℝ) ≤ n := Nat.cast_nonneg n
      have h1 := ih (by nlinarith)
      rw [pow_succ]
      have h2 := mul_le_mul_of_nonneg_right h1 (show 0 ≤ 1 + ε by linarith)
      have ne := mul_nonneg n0 e0
      nlinarith [mul_nonneg ne e0]
  have := grow _ hn
  have ne := mul_nonneg (Nat.cast_nonneg (α := ℝ) ops.length) e0
  nlinarith

end c115
end Batoid.Props
