import Verif.Props.RoundGrid
import Verif.Props.Launch

/-!
# Property C139: the rays of asSpokes in arithmetic with rounding

Rings and spokes (C45), put on the stop surface, taken to the frame of the rays (C111) and backed up (C137).
-/

namespace Batoid.Props
open Batoid Batoid.Construct Batoid.Numpy

section lemmas
variable {ε : ℝ} {rd : ℝ → ℝ}

/-- One value of `linspace` before the start is added, in either of numpy's two ways. -/
theorem linspace_step (h : Rounds ε rd) (hl : ε < 1) (a b : ℝ) {m : ℕ} (hm : 0 < m) (k : ℕ) : ∃ y,
    (if Arith.eq ((Flt.fin rd b - Flt.fin rd a) / Arith.const ((m : ℕ) : ℚ)) 0 then
      (Arith.const ((k : ℕ) : ℚ) / Arith.const ((m : ℕ) : ℚ) * (Flt.fin rd b - Flt.fin rd a) : Flt rd)
      else Arith.const ((k : ℕ) : ℚ) * ((Flt.fin rd b - Flt.fin rd a) / Arith.const ((m : ℕ) : ℚ))) = Flt.fin rd y ∧
    Rel ε 5 y ((k : ℝ) / m * (b - a)) := by
  have hm0 : (m : ℝ) ≠ 0 := by exact_mod_cast hm.ne'
  have rm := h.rel hl (m : ℝ)
  have rk := h.rel hl (k : ℝ)
  have rb := h.rel hl (b - a)
  have mne := rm.ne hl hm0
  simp only [Flt.const_fin, Rat.cast_natCast, Flt.sub_fin]
  split_ifs
  · refine ⟨_, by rw [Flt.div_fin mne, Flt.mul_fin], ?_⟩
    have := h.after hl ((h.after hl (rk.div hl rm)).mul hl rb)
    exact this
  · refine ⟨_, by rw [Flt.div_fin mne, Flt.mul_fin], ?_⟩
    have := h.after hl (rk.mul hl (h.after hl (rb.div hl rm)))
    rw [show (k : ℝ) * ((b - a) / m) = (k : ℝ) / m * (b - a) by ring] at this
    exact this

/-- `linspace(0, b, m, endpoint=False)`. -/
theorem linspace_open_near (h : Rounds ε rd) (hl : ε < 1) (b : ℝ) {m : ℕ} (hm : 0 < m) : ∃ x : ℕ → ℝ,
    linspace (0 : Flt rd) (Flt.fin rd b) (m : ℤ) false = .ok ((List.range m).map fun j : ℕ => Flt.fin rd (x j)) ∧
      ∀ j, Rel ε 6 (x j) ((j : ℝ) / m * b) := by
  choose y ey ry using linspace_step h hl 0 b hm
  refine ⟨fun j => rd (y j + 0), ?_, fun j => ?_⟩
  · unfold linspace
    simp only [Int.toNat_natCast, Bool.false_and, Bool.false_eq_true, if_false, hm, if_true, if_neg (show ¬ ((m : ℤ) < 0) by omega)]
    refine congrArg _ (List.map_congr_left fun j _ => ?_)
    have := ey j
    rw [← flt_zero h] at this
    rw [this, flt_zero h, Flt.add_fin]
  · have := h.after hl (ry j)
    rw [sub_zero] at this
    show Rel ε 6 (rd (y j + 0)) _
    rwa [add_zero]

/-- `linspace(a, b, k)` for increasing radii. -/
theorem linspace_closed_near (h : Rounds ε rd) (hl : ε < 1) {a b : ℝ} (ha : 0 ≤ a) (hab : a ≤ b) {k : ℕ} (hk : 0 < k) : ∃ x : ℕ → ℝ,
    linspace (Flt.fin rd a) (Flt.fin rd b) (k : ℤ) true = .ok ((List.range k).map fun i : ℕ => Flt.fin rd (x i)) ∧
      ∀ i < k, Rel ε 6 (x i) (a + (i : ℝ) / ((k : ℝ) - 1) * (b - a)) := by
  have h0 := h.nonneg
  rcases Nat.lt_or_ge 1 k with h1 | h1
  · obtain ⟨m, rfl⟩ : ∃ m, k = m + 1 := ⟨k - 1, by omega⟩
    have hm : 0 < m := by omega
    have hm0 : (0 : ℝ) < m := by exact_mod_cast hm
    choose y ey ry using linspace_step h hl a b hm
    refine ⟨fun i => if i = m then b else rd (y i + a), ?_, fun i hi => ?_⟩
    · unfold linspace
      simp only [Int.toNat_natCast, if_neg (show ¬ (((m + 1 : ℕ) : ℤ) < 0) by omega), if_true, Nat.add_sub_cancel, hm, ey,
        show decide (1 < m + 1) = true by simpa using hm, Bool.and_self, Flt.add_fin]
      rw [List.range_succ, List.map_append, List.map_append, List.map_singleton, List.dropLast_concat, List.map_singleton, if_pos rfl]
      congr 2
      refine List.map_congr_left fun i hi => ?_
      rw [if_neg (List.mem_range.1 hi).ne]
    · have e : ((m + 1 : ℕ) : ℝ) - 1 = m := by push_cast; ring
      rw [e]
      show Rel ε 6 (if i = m then b else rd (y i + a)) _
      split_ifs with hi'
      · subst hi'
        rw [div_self hm0.ne', one_mul, add_sub_cancel]
        exact (Rel.refl b).mono h0 hl (by norm_num)
      · have := h.after hl ((ry i).add hl ((Rel.refl a).mono h0 hl (by norm_num : 0 ≤ 5))
          (mul_nonneg (by positivity) (by linarith)) ha)
        rw [add_comm] at this
        rwa [add_comm a]
  · obtain rfl : k = 1 := by omega
    refine ⟨fun _ => rd a, ?_, fun i hi => ?_⟩
    · unfold linspace
      simp [Flt.const_fin, h.zero, Flt.sub_fin, Flt.mul_fin, Flt.add_fin]
    · obtain rfl : i = 0 := by omega
      simp only [Nat.cast_zero, zero_div, zero_mul, add_zero]
      exact (h.rel hl a).mono h0 hl (by norm_num)

/-- A point given by its radius and its azimuth. -/
theorem polar_near (h : Rounds ε rd) (hε : ε ≤ 1 / 1000) {r R t T c C : ℝ} (hR : 0 ≤ R) (hr : Rel ε 6 r R) (hT : 0 ≤ T ∧ T ≤ 2 * Real.pi) (ht : Rel ε 9 t T)
    (hc : |c - C| ≤ |t - T|) (hC : |C| ≤ 1) : |rd (r * rd c) - R * C| ≤ 200 * ε * R := by
  have h0 := h.nonneg
  have hl : ε < 1 := by linarith
  have k1 := hr.near h0 hl 12 (by norm_num) (by linarith)
  have k2 := ht.near h0 hl 18 (by norm_num) (by linarith)
  rw [abs_of_nonneg hR] at k1
  rw [abs_of_nonneg hT.1] at k2
  have k3 : |c - C| ≤ 126 * ε := by
    have : ε * T ≤ ε * 7 := mul_le_mul_of_nonneg_left (by linarith [Real.pi_lt_d2]) h0
    linarith
  have k4 : |c| ≤ 6 / 5 := by
    have := abs_sub_abs_le_abs_sub c C
    linarith
  have k5 := h.err c
  have k6 : |rd c - C| ≤ 128 * ε := by
    have := abs_sub_le (rd c) c C
    have := mul_le_mul_of_nonneg_left k4 h0
    linarith
  have k7 : |rd c| ≤ 6 / 5 := by
    have := abs_sub_abs_le_abs_sub (rd c) C
    linarith
  have eR : ε * R ≤ 1 / 1000 * R := mul_le_mul_of_nonneg_right hε hR
  have eR0 := mul_nonneg h0 hR
  have k8 : |r * rd c - R * C| ≤ 12 * ε * R * (6 / 5) + R * (128 * ε) := by
    rw [show r * rd c - R * C = (r - R) * rd c + R * (rd c - C) by ring]
    refine (abs_add_le _ _).trans ?_
    rw [abs_mul, abs_mul, abs_of_nonneg hR]
    exact add_le_add (mul_le_mul k1 k7 (abs_nonneg _) (by positivity)) (mul_le_mul_of_nonneg_left k6 hR)
  have k9 := h.err (r * rd c)
  have k10 : |r * rd c| ≤ 13 / 10 * R := by
    have := abs_sub_abs_le_abs_sub (r * rd c) (R * C)
    have : |R * C| ≤ R := by
      rw [abs_mul, abs_of_nonneg hR]
      exact mul_le_of_le_one_right hR hC
    linarith
  have k11 := mul_le_mul_of_nonneg_left k10 h0
  have := abs_sub_le (rd (r * rd c)) (r * rd c) (R * C)
  linarith

/-- A point given by its azimuth and a radius that is less accurate. -/
theorem polar_point (h : Rounds ε rd) (hε : ε ≤ 1 / 1000) {r R t T c C : ℝ} (hR : 0 ≤ R) (k1 : |r - R| ≤ 60 * ε * R) (hT : 0 ≤ T ∧ T ≤ 2 * Real.pi) (ht : Rel ε 9 t T)
    (hc : |c - C| ≤ |t - T|) (hC : |C| ≤ 1) : |rd (r * rd c) - R * C| ≤ 250 * ε * R := by
  have h0 := h.nonneg
  have hl : ε < 1 := by linarith
  have k2 := ht.near h0 hl 18 (by norm_num) (by linarith)
  rw [abs_of_nonneg hT.1] at k2
  have k3 : |c - C| ≤ 126 * ε := by
    have : ε * T ≤ ε * 7 := mul_le_mul_of_nonneg_left (by linarith [Real.pi_lt_d2]) h0
    linarith
  have k4 : |c| ≤ 6 / 5 := by
    have := abs_sub_abs_le_abs_sub c C
    linarith
  have k5 := h.err c
  have k6 : |rd c - C| ≤ 128 * ε := by
    have := abs_sub_le (rd c) c C
    have := mul_le_mul_of_nonneg_left k4 h0
    linarith
  have k7 : |rd c| ≤ 6 / 5 := by
    have := abs_sub_abs_le_abs_sub (rd c) C
    linarith
  have eR : ε * R ≤ 1 / 1000 * R := mul_le_mul_of_nonneg_right hε hR
  have eR0 := mul_nonneg h0 hR
  have k8 : |r * rd c - R * C| ≤ 60 * ε * R * (6 / 5) + R * (128 * ε) := by
    rw [show r * rd c - R * C = (r - R) * rd c + R * (rd c - C) by ring]
    refine (abs_add_le _ _).trans ?_
    rw [abs_mul, abs_mul, abs_of_nonneg hR]
    exact add_le_add (mul_le_mul k1 k7 (abs_nonneg _) (by positivity)) (mul_le_mul_of_nonneg_left k6 hR)
  have k9 := h.err (r * rd c)
  have k10 : |r * rd c| ≤ 13 / 10 * R := by
    have := abs_sub_abs_le_abs_sub (r * rd c) (R * C)
    have : |R * C| ≤ R := by
      rw [abs_mul, abs_of_nonneg hR]
      exact mul_le_of_le_one_right hR hC
    linarith
  have k11 := mul_le_mul_of_nonneg_left k10 h0
  have := abs_sub_le (rd (r * rd c)) (r * rd c) (R * C)
  linarith

/-- What becomes of points of the stop that are nearly right. -/
theorem launch_fluxes_near (h : Rounds ε rd) (hε : ε ≤ 1 / 7200) {s : Setup (Flt rd)} {d : V3 ℝ} {n D δ σ : ℝ}
    (hs : s.source = none) (hd : s.dirCos = some (d.flt rd)) (hD : s.backDist = Flt.fin rd D) (hD0 : 0 ≤ D)
    (hm : s.medium.getN s.wavelength = Flt.fin rd n) (hn : 0 < n) (hyz : d.y ≠ 0 ∨ d.z ≠ 0) {A B : CoordSys ℝ} (hA : s.stop.coordSys = A.flt rd)
    (hB : s.coordSys = B.flt rd) (nA : Nearly δ A.rot) (nB : Nearly δ B.rot) (hδ : δ ≤ 1 / 100) {f : ℝ × ℝ → ℝ} {τ : ℝ × ℝ → ℝ}
    {es pts : List (ℝ × ℝ)} (kp : List.Forall₂ (fun e p => |p.1 - e.1| ≤ τ e ∧ |p.2 - e.2| ≤ τ e) es pts)
    (hsag : ∀ e ∈ es, ∀ x y, |x - e.1| ≤ τ e → |y - e.2| ≤ τ e → SagWithin rd s.stop.surface x y (f e) σ) (flux : List (Flt rd)) (hlen : flux.length = pts.length) :
    ∃ (v : V3 ℝ) (rays : List (Ray (Flt rd))),
      launch s (pts.map fun p => (Flt.fin rd p.1, Flt.fin rd p.2)) flux = .ok (some ⟨rays, s.coordSys⟩) ∧ rays.map (·.flux) = flux ∧
      (|v.x - d.x / (n * Real.sqrt (V3.dot d d))| ≤ 12 * ε * |d.x / (n * Real.sqrt (V3.dot d d))| ∧
        |v.y - d.y / (n * Real.sqrt (V3.dot d d))| ≤ 12 * ε * |d.y / (n * Real.sqrt (V3.dot d d))| ∧
        |v.z - d.z / (n * Real.sqrt (V3.dot d d))| ≤ 12 * ε * |d.z / (n * Real.sqrt (V3.dot d d))|) ∧
      List.Forall₂ (fun e ray => ∃ q : V3 ℝ, ray = ⟨q.flt rd, v.flt rd, 0, s.wavelength, ray.flux, false, false⟩ ∧
          ∀ st, LaunchedAt d D (B.toLocal (A.toGlobal ⟨e.1, e.2, f e⟩)) st →
            nrm (q - st) ≤ 10800 * ε * reach D (B.toLocal (A.toGlobal ⟨e.1, e.2, f e⟩)) + 160 * ε * (nrm ⟨e.1, e.2, f e⟩ + nrm (B.origin - A.origin)) +
              8 * δ * nrm (B.origin - A.origin) + 12 * (2 * τ e + σ)) es rays := by
  have h0 := h.nonneg
  have hε' : ε ≤ 1 / 1000 := by linarith
  have kq : ∃ q : List (V3 ℝ), List.Forall₂ (fun (p : Flt rd × Flt rd) q => (CoordTransform.make s.stop.coordSys s.coordSys).forward
        ⟨p.1, p.2, s.stop.surface.sag p.1 p.2⟩ = V3.flt rd q) (pts.map fun p => (Flt.fin rd p.1, Flt.fin rd p.2)) q ∧
      List.Forall₂ (fun (e : ℝ × ℝ) q => nrm (q - B.toLocal (A.toGlobal ⟨e.1, e.2, f e⟩)) ≤ 40 * ε * (nrm ⟨e.1, e.2, f e⟩ + nrm (B.origin - A.origin)) +
        2 * δ * nrm (B.origin - A.origin) + 3 * (2 * τ e + σ)) es q := by
    clear hlen
    induction kp with
    | nil => exact ⟨[], List.Forall₂.nil, List.Forall₂.nil⟩
    | @cons e p es ps k _ ih =>
      obtain ⟨qs, i1, i2⟩ := ih fun e he => hsag e (List.mem_cons_of_mem _ he)
      obtain ⟨z, hz, kz⟩ := hsag e List.mem_cons_self p.1 p.2 k.1 k.2
      obtain ⟨q, eq, kq⟩ := C111_forward h hε' nA nB hδ ⟨p.1, p.2, z⟩
      refine ⟨q :: qs, List.Forall₂.cons ?_ i1, List.Forall₂.cons ?_ i2⟩
      · simp only [hz, hA, hB]
        exact eq
      · have kd : nrm ((⟨p.1, p.2, z⟩ : V3 ℝ) - ⟨e.1, e.2, f e⟩) ≤ 2 * τ e + σ := by
          refine (nrm_le_sum _).trans ?_
          simp only [V3.sub_x, V3.sub_y, V3.sub_z]
          linarith [k.1, k.2]
        have k1 := nrm_via q (B.toLocal (A.toGlobal ⟨p.1, p.2, z⟩)) (B.toLocal (A.toGlobal ⟨e.1, e.2, f e⟩))
        have k2 := frames_lip nA nB hδ ⟨p.1, p.2, z⟩ ⟨e.1, e.2, f e⟩
        have k3 := nrm_close ⟨p.1, p.2, z⟩ ⟨e.1, e.2, f e⟩
        have n0 := nrm_nonneg ((⟨p.1, p.2, z⟩ : V3 ℝ) - ⟨e.1, e.2, f e⟩)
        have : ε * nrm ⟨p.1, p.2, z⟩ ≤ ε * nrm ⟨e.1, e.2, f e⟩ + ε * nrm ((⟨p.1, p.2, z⟩ : V3 ℝ) - ⟨e.1, e.2, f e⟩) := by
          rw [← mul_add]; exact mul_le_mul_of_nonneg_left k3 h0
        have : ε * nrm ((⟨p.1, p.2, z⟩ : V3 ℝ) - ⟨e.1, e.2, f e⟩) ≤ 1 / 7200 * nrm ((⟨p.1, p.2, z⟩ : V3 ℝ) - ⟨e.1, e.2, f e⟩) := mul_le_mul_of_nonneg_right hε n0
        linarith
  obtain ⟨q, q1, q2⟩ := kq
  obtain ⟨v, rays, e1, kv, kf, kr⟩ := C137_launch h hε' hs hd hD hD0 hm hn hyz _ q flux (by rw [hlen, List.length_map]) q1
  refine ⟨v, rays, e1, kf, kv, ?_⟩
  have hdd : 0 < V3.dot d d := by
    unfold V3.dot
    rcases hyz with k | k
    · nlinarith [mul_self_nonneg d.x, mul_self_nonneg d.z, mul_self_pos.2 k]
    · nlinarith [mul_self_nonneg d.x, mul_self_nonneg d.y, mul_self_pos.2 k]
  clear e1 kf q1 kp hsag hlen
  induction q2 generalizing rays with
  | nil => cases kr; exact List.Forall₂.nil
  | @cons e p es ps k _ ih =>
    cases kr with
    | @cons _ ray _ rays' kr krs =>
      refine List.Forall₂.cons ?_ (ih _ krs)
      obtain ⟨w, ew, kw⟩ := kr
      refine ⟨w, ew, fun st hst => ?_⟩
      obtain ⟨m, hm'⟩ := launchedAt_exists hdd D p
      obtain ⟨w1, w2, w3⟩ := kw m hm'
      have t1 := nrm_via w m st
      have t2 := launched_lip hm' hst
      have t3 : nrm (w - m) ≤ 10800 * ε * reach D p := by
        refine (nrm_le_sum _).trans ?_
        simp only [V3.sub_x, V3.sub_y, V3.sub_z]
        linarith
      have t4 := mul_le_mul_of_nonneg_left (reach_lip D p (B.toLocal (A.toGlobal ⟨e.1, e.2, f e⟩))) h0
      have t5 : ε * nrm (p - B.toLocal (A.toGlobal ⟨e.1, e.2, f e⟩)) ≤ 1 / 7200 * nrm (p - B.toLocal (A.toGlobal ⟨e.1, e.2, f e⟩)) :=
        mul_le_mul_of_nonneg_right hε (nrm_nonneg _)
      linarith

/-- The same with one flux for all. -/
theorem launch_near (h : Rounds ε rd) (hε : ε ≤ 1 / 7200) {s : Setup (Flt rd)} {d : V3 ℝ} {n D δ σ : ℝ}
    (hs : s.source = none) (hd : s.dirCos = some (d.flt rd)) (hD : s.backDist = Flt.fin rd D) (hD0 : 0 ≤ D)
    (hm : s.medium.getN s.wavelength = Flt.fin rd n) (hn : 0 < n) (hyz : d.y ≠ 0 ∨ d.z ≠ 0) {A B : CoordSys ℝ} (hA : s.stop.coordSys = A.flt rd)
    (hB : s.coordSys = B.flt rd) (nA : Nearly δ A.rot) (nB : Nearly δ B.rot) (hδ : δ ≤ 1 / 100) {f : ℝ × ℝ → ℝ} {τ : ℝ × ℝ → ℝ}
    {es pts : List (ℝ × ℝ)} (kp : List.Forall₂ (fun e p => |p.1 - e.1| ≤ τ e ∧ |p.2 - e.2| ≤ τ e) es pts)
    (hsag : ∀ e ∈ es, ∀ x y, |x - e.1| ≤ τ e → |y - e.2| ≤ τ e → SagWithin rd s.stop.surface x y (f e) σ) (flux : Flt rd) :
    ∃ (v : V3 ℝ) (rays : List (Ray (Flt rd))),
      launch s (pts.map fun p => (Flt.fin rd p.1, Flt.fin rd p.2)) (List.replicate pts.length flux) = .ok (some ⟨rays, s.coordSys⟩) ∧
      (|v.x - d.x / (n * Real.sqrt (V3.dot d d))| ≤ 12 * ε * |d.x / (n * Real.sqrt (V3.dot d d))| ∧
        |v.y - d.y / (n * Real.sqrt (V3.dot d d))| ≤ 12 * ε * |d.y / (n * Real.sqrt (V3.dot d d))| ∧
        |v.z - d.z / (n * Real.sqrt (V3.dot d d))| ≤ 12 * ε * |d.z / (n * Real.sqrt (V3.dot d d))|) ∧
      List.Forall₂ (fun e ray => ∃ q : V3 ℝ, ray = ⟨q.flt rd, v.flt rd, 0, s.wavelength, flux, false, false⟩ ∧
          ∀ st, LaunchedAt d D (B.toLocal (A.toGlobal ⟨e.1, e.2, f e⟩)) st →
            nrm (q - st) ≤ 10800 * ε * reach D (B.toLocal (A.toGlobal ⟨e.1, e.2, f e⟩)) + 160 * ε * (nrm ⟨e.1, e.2, f e⟩ + nrm (B.origin - A.origin)) +
              8 * δ * nrm (B.origin - A.origin) + 12 * (2 * τ e + σ)) es rays := by
  obtain ⟨v, rays, e1, kf, kv, kr⟩ := launch_fluxes_near h hε hs hd hD hD0 hm hn hyz hA hB nA nB hδ kp hsag (List.replicate pts.length flux) (by simp)
  refine ⟨v, rays, e1, kv, ?_⟩
  have fl : ∀ ray ∈ rays, ray.flux = flux := fun ray hr => by
    have : ray.flux ∈ rays.map (·.flux) := List.mem_map_of_mem hr
    rw [kf] at this
    exact (List.mem_replicate.1 this).2
  clear e1 kf kp hsag
  induction kr with
  | nil => exact List.Forall₂.nil
  | @cons e ray es rays kr _ ih =>
    refine List.Forall₂.cons ?_ (ih fun r hr => fl r (List.mem_cons_of_mem _ hr))
    obtain ⟨q, eq, kq⟩ := kr
    exact ⟨q, by rw [← fl ray List.mem_cons_self]; exact eq, kq⟩

/-- The radius of a quadrature ring. -/
theorem quadRing_near (h : Rounds ε rd) (hε : ε ≤ 1 / 1000) (h1 : rd 1 = 1) {outer inner t : ℝ} (ho : 0 < outer) (hi : 0 ≤ inner) (hio : inner ≤ outer)
    (ht : -1 ≤ t ∧ t ≤ 1) : ∃ r, quadRing (Flt.fin rd inner / Flt.fin rd outer) (Flt.fin rd outer) (Flt.fin rd t) = Flt.fin rd r ∧
      0 ≤ quadRadius inner outer t ∧ |r - quadRadius inner outer t| ≤ 60 * ε * quadRadius inner outer t := by
  have h0 := h.nonneg
  have hl : ε < 1 := by linarith
  unfold quadRadius
  have e0 : 0 ≤ inner / outer := div_nonneg hi ho.le
  have e1 : inner / outer ≤ 1 := (div_le_one ho).2 hio
  have re := h.rel hl (inner / outer)
  generalize he : inner / outer = e at *
  have E1 : e * e ≤ 1 := by nlinarith
  have E0 := mul_self_nonneg e
  have rE := h.after hl (re.mul hl re)
  have rP := h.rel hl (1 + t)
  have kQ : Err ε 4 _ _ _ := h.errSub hl ((Err.exact 1).mono h0 hl (by norm_num : 0 ≤ 3)) ((rE.err h0 hl).mono h0 hl (by norm_num : 1 + 1 + 1 ≤ 3))
  have kX : Err ε 8 _ _ _ := h.errDiv hl (h.errMul hl (rP.err h0 hl) kQ) (h.rel hl 2)
  have kV : Err ε 9 _ _ _ := h.errAdd hl ((rE.err h0 hl).mono h0 hl (by norm_num : 1 + 1 + 1 ≤ 8)) kX
  have k := kV.close h0 hl 18 (by norm_num) (by linarith)
  clear kV kX kQ
  generalize eV : rd (rd (rd e * rd e) + rd (rd (rd (1 + t) * rd (1 - rd (rd e * rd e))) / rd 2)) = V' at *
  have p0 : 0 ≤ 1 + t := by linarith
  rw [abs_one, abs_of_nonneg E0, abs_of_nonneg p0, abs_of_pos (two_pos : (0 : ℝ) < 2)] at k
  have X0 : 0 ≤ (1 + t) * (1 - e * e) := mul_nonneg p0 (by linarith)
  have tE : (1 + t) * (e * e) ≤ 2 * (e * e) := mul_le_mul_of_nonneg_right (by linarith) E0
  generalize eW : e * e + (1 + t) * (1 - e * e) / 2 = V at *
  have V0 : 0 ≤ V := by rw [← eW]; linarith
  have EV : e * e ≤ V := by rw [← eW]; linarith
  have kM : e * e + (1 + t) * (1 + e * e) / 2 ≤ 3 * V := by
    have : e * e + (1 + t) * (1 + e * e) / 2 = V + (1 + t) * (e * e) := by rw [← eW]; ring
    linarith
  have k' : |V' - V| ≤ 54 * ε * V := by
    have := mul_le_mul_of_nonneg_left kM h0
    linarith
  have eV1 : ε * V ≤ 1 / 1000 * V := mul_le_mul_of_nonneg_right hε V0
  have V'0 : 0 ≤ V' := by
    have := (abs_le.1 k').1
    linarith
  have two : rd 2 ≠ 0 := (h.rel hl 2).ne hl two_ne_zero
  refine ⟨rd (rd (Real.sqrt V') * outer), ?_, mul_nonneg (Real.sqrt_nonneg _) ho.le, ?_⟩
  · simp only [quadRing, Flt.div_fin ho.ne', he, flt_one, h1, flt_two, Flt.mul_fin, Flt.sub_fin, Flt.add_fin, Flt.div_fin two, eV, Flt.sqrt_fin V'0]
  · have q0 := Real.sqrt_nonneg V
    have q1 := Real.sqrt_nonneg V'
    have kd : |Real.sqrt V' - Real.sqrt V| ≤ 54 * ε * Real.sqrt V := by
      have m1 := Real.mul_self_sqrt V0
      have m2 := Real.mul_self_sqrt V'0
      generalize Real.sqrt V = Q at *
      generalize Real.sqrt V' = Q' at *
      rcases q0.eq_or_lt with e | qp
      · rw [← e, mul_zero] at m1
        rw [← m1, mul_zero, sub_zero, abs_of_nonneg V'0] at k'
        have : Q' = 0 := mul_self_eq_zero.1 (m2.trans (le_antisymm k' V'0))
        rw [this, ← e]; simp
      · have e3 : |Q' - Q| * (Q' + Q) = |V' - V| := by
          rw [← m1, ← m2, show Q' * Q' - Q * Q = (Q' - Q) * (Q' + Q) by ring, abs_mul, abs_of_nonneg (add_nonneg q1 q0)]
        have e4 : |Q' - Q| * Q ≤ 54 * ε * Q * Q := by
          have := mul_le_mul_of_nonneg_left (show Q ≤ Q' + Q by linarith only [q1]) (abs_nonneg (Q' - Q))
          rw [mul_assoc (54 * ε), m1]
          linarith only [this, e3, k']
        exact le_of_mul_le_mul_right e4 qp
    generalize Real.sqrt V = Q at *
    generalize Real.sqrt V' = Q' at *
    have b1 : Q' ≤ 11 / 10 * Q := by
      have := (abs_le.1 kd).2
      have : ε * Q ≤ 1 / 1000 * Q := mul_le_mul_of_nonneg_right hε q0
      linarith
    have kr := h.err Q'
    rw [abs_of_nonneg q1] at kr
    have kr2 : |rd Q' - Q| ≤ 56 * ε * Q := by
      have := abs_sub_le (rd Q') Q' Q
      have := mul_le_mul_of_nonneg_left b1 h0
      have := mul_nonneg h0 q0
      linarith
    have kr3 : |rd Q' * outer - Q * outer| ≤ 56 * ε * (Q * outer) := by
      rw [← sub_mul, abs_mul, abs_of_pos ho, ← mul_assoc]
      exact mul_le_mul_of_nonneg_right kr2 ho.le
    have S0 : 0 ≤ Q * outer := mul_nonneg q0 ho.le
    have kr4 := h.err (rd Q' * outer)
    generalize Q * outer = S at *
    generalize rd Q' * outer = S' at *
    have b2 : |S'| ≤ 2 * S := by
      have := abs_sub_abs_le_abs_sub S' S
      rw [abs_of_nonneg S0] at this
      have : ε * S ≤ 1 / 1000 * S := mul_le_mul_of_nonneg_right hε S0
      linarith
    have := mul_le_mul_of_nonneg_left b2 h0
    have := abs_sub_le (rd S') S' S
    have := mul_nonneg h0 S0
    linarith

end lemmas

section results
variable {ε : ℝ} {rd : ℝ → ℝ}

/-- **C139.**  The points of rings and spokes on the stop: `outer` and `inner` are the radii, `k` rings, `m` spokes. -/
theorem C139_points (h : Rounds ε rd) (hε : ε ≤ 1 / 1000) (lg : ℤ → Except PyErr (List (Flt rd) × List (Flt rd))) {outer inner : ℝ} (hi : 0 ≤ inner)
    (ho : inner ≤ outer) {k m : ℕ} (hk : 0 < k) (hm : 0 < m) (flux : Flt rd) :
    ∃ (radii azimuths : List (Flt rd)) (pts : List (ℝ × ℝ)),
      spokesShape lg (Flt.fin rd outer) (Flt.fin rd inner) (some (.num (m : ℤ))) (.num (k : ℤ)) "uniform" flux = .ok (radii, azimuths, [flux]) ∧
      radii.length = k ∧ azimuths.length = m ∧ (meshgrid radii azimuths).map fromPolar = pts.map (fun p => (Flt.fin rd p.1, Flt.fin rd p.2)) ∧
      List.Forall₂ (fun e p => |p.1 - e.1| ≤ 200 * ε * Real.sqrt (e.1 * e.1 + e.2 * e.2) ∧ |p.2 - e.2| ≤ 200 * ε * Real.sqrt (e.1 * e.1 + e.2 * e.2))
        (spokesSpec (equalRadii inner outer k) (equalAzimuths m)) pts := by
  have h0 := h.nonneg
  have hl : ε < 1 := by linarith
  obtain ⟨x, ex, rx⟩ := linspace_closed_near h hl hi ho hk
  obtain ⟨y, ey, ry⟩ := linspace_open_near h hl (rd (rd 2 * rd Real.pi)) hm
  have r2 : Rel ε 3 (rd (rd 2 * rd Real.pi)) (2 * Real.pi) := h.after hl ((h.rel hl 2).mul hl (h.rel hl Real.pi))
  have ry' : ∀ j, Rel ε 9 (y j) (2 * Real.pi * j / m) := fun j => by
    have := (ry j).trans hl ((Rel.refl ((j : ℝ) / m)).mul hl r2)
    rw [show (j : ℝ) / m * (2 * Real.pi) = 2 * Real.pi * j / m by ring] at this
    exact this
  refine ⟨(List.range k).map fun i : ℕ => Flt.fin rd (x i), (List.range m).map fun j : ℕ => Flt.fin rd (y j), (List.range m).flatMap fun j => (List.range k).map fun i => (rd (x i * rd (Real.cos (y j))), rd (x i * rd (Real.sin (y j)))), ?_, ?_, ?_, ?_, ?_⟩
  · simp only [spokesShape, if_true, ex, bind, Except.bind, spread, flt_two, Flt.pi_fin, Flt.mul_fin, ey, Count.values]
  · simp
  · simp
  · unfold meshgrid
    rw [List.flatMap_map, List.map_flatMap, List.map_flatMap]
    congr 1
    funext j
    simp only [List.map_map]
    refine List.map_congr_left fun i _ => ?_
    simp [fromPolar]
  · unfold spokesSpec equalRadii equalAzimuths
    rw [List.flatMap_map]
    have row : ∀ j < m, List.Forall₂ (fun e p : ℝ × ℝ => |p.1 - e.1| ≤ 200 * ε * Real.sqrt (e.1 * e.1 + e.2 * e.2) ∧ |p.2 - e.2| ≤ 200 * ε * Real.sqrt (e.1 * e.1 + e.2 * e.2))
        (((List.range k).map fun i : ℕ => inner + (i : ℝ) / ((k : ℝ) - 1) * (outer - inner)).map fun r => (r * Real.cos (2 * Real.pi * j / m), r * Real.sin (2 * Real.pi * j / m)))
        ((List.range k).map fun i => (rd (x i * rd (Real.cos (y j))), rd (x i * rd (Real.sin (y j))))) := fun j hj => by
      rw [List.map_map, List.forall₂_map_left_iff, List.forall₂_map_right_iff, List.forall₂_same]
      intro i hi'
      have hik := List.mem_range.1 hi'
      have R0 : 0 ≤ inner + (i : ℝ) / ((k : ℝ) - 1) * (outer - inner) := by
        have : (0 : ℝ) ≤ (k : ℝ) - 1 := by
          have : (1 : ℝ) ≤ k := by exact_mod_cast hk
          linarith
        have := mul_nonneg (div_nonneg (Nat.cast_nonneg i) this) (sub_nonneg.2 ho)
        linarith
      have T0 : 0 ≤ 2 * Real.pi * j / m ∧ 2 * Real.pi * j / m ≤ 2 * Real.pi := by
        have hm0 : (0 : ℝ) < m := by exact_mod_cast hm
        have hjm : (j : ℝ) ≤ m := by exact_mod_cast hj.le
        refine ⟨div_nonneg (mul_nonneg (by positivity) (Nat.cast_nonneg j)) hm0.le, ?_⟩
        rw [div_le_iff₀ hm0]
        exact mul_le_mul_of_nonneg_left hjm (by positivity)
      simp only [Function.comp]
      have es : Real.sqrt ((inner + (i : ℝ) / ((k : ℝ) - 1) * (outer - inner)) * Real.cos (2 * Real.pi * j / m) *
          ((inner + (i : ℝ) / ((k : ℝ) - 1) * (outer - inner)) * Real.cos (2 * Real.pi * j / m)) +
          (inner + (i : ℝ) / ((k : ℝ) - 1) * (outer - inner)) * Real.sin (2 * Real.pi * j / m) *
          ((inner + (i : ℝ) / ((k : ℝ) - 1) * (outer - inner)) * Real.sin (2 * Real.pi * j / m))) = inner + (i : ℝ) / ((k : ℝ) - 1) * (outer - inner) := by
        refine (congrArg Real.sqrt ?_).trans (Real.sqrt_mul_self R0)
        linear_combination ((inner + (i : ℝ) / ((k : ℝ) - 1) * (outer - inner)) ^ 2) * Real.sin_sq_add_cos_sq (2 * Real.pi * j / m)
      rw [es]
      exact ⟨polar_near h hε R0 (rx i hik) T0 (ry' j) (Real.abs_cos_sub_cos_le _ _) (Real.abs_cos_le_one _),
        polar_near h hε R0 (rx i hik) T0 (ry' j) (Real.abs_sin_sub_sin_le _ _) (Real.abs_sin_le_one _)⟩
    have all : ∀ js : List ℕ, (∀ j ∈ js, j < m) → List.Forall₂ (fun e p : ℝ × ℝ => |p.1 - e.1| ≤ 200 * ε * Real.sqrt (e.1 * e.1 + e.2 * e.2) ∧ |p.2 - e.2| ≤ 200 * ε * Real.sqrt (e.1 * e.1 + e.2 * e.2))
        (js.flatMap fun j : ℕ => ((List.range k).map fun i : ℕ => inner + (i : ℝ) / ((k : ℝ) - 1) * (outer - inner)).map fun r => (r * Real.cos (2 * Real.pi * j / m), r * Real.sin (2 * Real.pi * j / m)))
        (js.flatMap fun j => (List.range k).map fun i => (rd (x i * rd (Real.cos (y j))), rd (x i * rd (Real.sin (y j))))) := fun js => by
      induction js with
      | nil => exact fun _ => List.Forall₂.nil
      | cons j js ih =>
        intro hj
        rw [List.flatMap_cons, List.flatMap_cons]
        exact List.rel_append (row j (hj j List.mem_cons_self)) (ih fun t ht => hj t (List.mem_cons_of_mem _ ht))
    exact all _ fun j hj => List.mem_range.1 hj

/-- **C139.**  Every ray of `asSpokes(rings=k, spokes=m, spacing='uniform')` starts next to where it should.  `f` is the height of the stop, reported
within `σ`. -/
theorem C139_asSpokes (h : Rounds ε rd) (hε : ε ≤ 1 / 7200) {a : Args (Flt rd)} {s : Setup (Flt rd)} (hset : setup false a = .ok s) {d : V3 ℝ} {n D δ σ : ℝ}
    (hs : s.source = none) (hd : s.dirCos = some (d.flt rd)) (hD : s.backDist = Flt.fin rd D) (hD0 : 0 ≤ D)
    (hmed : s.medium.getN s.wavelength = Flt.fin rd n) (hn : 0 < n) (hyz : d.y ≠ 0 ∨ d.z ≠ 0) {A B : CoordSys ℝ} (hA : s.stop.coordSys = A.flt rd)
    (hB : s.coordSys = B.flt rd) (nA : Nearly δ A.rot) (nB : Nearly δ B.rot) (hδ : δ ≤ 1 / 100) (lg : ℤ → Except PyErr (List (Flt rd) × List (Flt rd)))
    {outer inner : ℝ} (hi : 0 ≤ inner) (ho : inner ≤ outer) {k m : ℕ} (hk : 0 < k) (hm : 0 < m) {f : ℝ × ℝ → ℝ}
    (hsag : ∀ e ∈ spokesSpec (equalRadii inner outer k) (equalAzimuths m), ∀ x y, |x - e.1| ≤ 200 * ε * Real.sqrt (e.1 * e.1 + e.2 * e.2) →
      |y - e.2| ≤ 200 * ε * Real.sqrt (e.1 * e.1 + e.2 * e.2) → SagWithin rd s.stop.surface x y (f e) σ) (flux : Flt rd) :
    ∃ (v : V3 ℝ) (rays : List (Ray (Flt rd))),
      asSpokes lg a (some (Flt.fin rd outer)) (Flt.fin rd inner) (some (.num (m : ℤ))) (some (.num (k : ℤ))) "uniform" flux = .ok (some ⟨rays, s.coordSys⟩) ∧
      (|v.x - d.x / (n * Real.sqrt (V3.dot d d))| ≤ 12 * ε * |d.x / (n * Real.sqrt (V3.dot d d))| ∧
        |v.y - d.y / (n * Real.sqrt (V3.dot d d))| ≤ 12 * ε * |d.y / (n * Real.sqrt (V3.dot d d))| ∧
        |v.z - d.z / (n * Real.sqrt (V3.dot d d))| ≤ 12 * ε * |d.z / (n * Real.sqrt (V3.dot d d))|) ∧
      List.Forall₂ (fun e ray => ∃ q : V3 ℝ, ray = ⟨q.flt rd, v.flt rd, 0, s.wavelength, flux, false, false⟩ ∧
          ∀ st, LaunchedAt d D (B.toLocal (A.toGlobal ⟨e.1, e.2, f e⟩)) st →
            nrm (q - st) ≤ 10800 * ε * reach D (B.toLocal (A.toGlobal ⟨e.1, e.2, f e⟩)) + 160 * ε * (nrm ⟨e.1, e.2, f e⟩ + nrm (B.origin - A.origin)) +
              8 * δ * nrm (B.origin - A.origin) + 12 * (400 * ε * Real.sqrt (e.1 * e.1 + e.2 * e.2) + σ))
        (spokesSpec (equalRadii inner outer k) (equalAzimuths m)) rays := by
  obtain ⟨radii, azimuths, pts, e1, l1, l2, e2, kp⟩ := C139_points h (by linarith) lg hi ho hk hm flux
  have e0 : pupilOuter a (some (Flt.fin rd outer)) = .ok (some (Flt.fin rd outer)) := by
    unfold pupilOuter fromOptic; cases a.optic <;> rfl
  have e3 : broadcastTo [flux] azimuths.length radii.length = .ok (List.replicate pts.length flux) := by
    have lp : pts.length = m * k := by
      rw [← kp.length_eq, spokesSpec_length]
      simp [equalAzimuths, equalRadii]
    rw [l1, l2, lp]
    unfold broadcastTo
    by_cases h1 : k = 1
    · subst h1
      simp
    · rw [if_neg (by simp; omega)]
  obtain ⟨v, rays, e4, kv, kr⟩ := launch_near h hε hs hd hD hD0 hmed hn hyz hA hB nA nB hδ kp hsag flux
  refine ⟨v, rays, ?_, kv, ?_⟩
  · unfold asSpokes
    simp only [e0, hset, bind, Except.bind, e1, e3]
    rw [e2]
    exact e4
  · refine kr.imp fun e ray hr => ?_
    obtain ⟨q, eq, kq⟩ := hr
    refine ⟨q, eq, fun st hst => (kq st hst).trans (le_of_eq (by ring))⟩

/-- **C139** (Gaussian quadrature).  `nodes` and `weights` are what numpy returns for `k` nodes; the rings, and the fluxes, are accurate for them. -/
theorem C139_quadrature (h : Rounds ε rd) (hε : ε ≤ 1 / 7200) (hone : rd 1 = 1) {a : Args (Flt rd)} {s : Setup (Flt rd)} (hset : setup false a = .ok s)
    {d : V3 ℝ} {n D δ σ : ℝ} (hs : s.source = none) (hd : s.dirCos = some (d.flt rd)) (hD : s.backDist = Flt.fin rd D) (hD0 : 0 ≤ D)
    (hmed : s.medium.getN s.wavelength = Flt.fin rd n) (hn : 0 < n) (hyz : d.y ≠ 0 ∨ d.z ≠ 0) {A B : CoordSys ℝ} (hA : s.stop.coordSys = A.flt rd)
    (hB : s.coordSys = B.flt rd) (nA : Nearly δ A.rot) (nB : Nearly δ B.rot) (hδ : δ ≤ 1 / 100) (lg : ℤ → Except PyErr (List (Flt rd) × List (Flt rd)))
    {outer inner : ℝ} (ho : 0 < outer) (hi : 0 ≤ inner) (hio : inner ≤ outer) {k m : ℕ} (hm : 0 < m) (spokes : Option (Count (Flt rd)))
    (hsp : spokes = some (.num (m : ℤ)) ∨ (spokes = none ∧ m = 2 * k + 1)) (nodes weights : List ℝ) (hnl : nodes.length = k) (hwl : weights.length = k)
    (hlg : lg (k : ℤ) = .ok (nodes.map (Flt.fin rd), weights.map (Flt.fin rd))) (hn1 : ∀ t ∈ nodes, -1 ≤ t ∧ t ≤ 1) {f : ℝ × ℝ → ℝ}
    (hsag : ∀ e ∈ spokesSpec (nodes.map (quadRadius inner outer)) (equalAzimuths m), ∀ x y, |x - e.1| ≤ 250 * ε * Real.sqrt (e.1 * e.1 + e.2 * e.2) →
      |y - e.2| ≤ 250 * ε * Real.sqrt (e.1 * e.1 + e.2 * e.2) → SagWithin rd s.stop.surface x y (f e) σ) (flux : Flt rd) :
    ∃ (v : V3 ℝ) (rays : List (Ray (Flt rd))),
      asSpokes lg a (some (Flt.fin rd outer)) (Flt.fin rd inner) spokes (some (.num (k : ℤ))) "GQ" flux = .ok (some ⟨rays, s.coordSys⟩) ∧
      (∃ fl : List ℝ, rays.map (·.flux) = (List.replicate m (fl.map (Flt.fin rd))).flatten ∧
        List.Forall₂ (fun w x => |x - w * (Real.pi * (1 - inner / outer * (inner / outer))) / (2 * m)| ≤ 20 * ε * |w| * Real.pi / m) weights fl) ∧
      (|v.x - d.x / (n * Real.sqrt (V3.dot d d))| ≤ 12 * ε * |d.x / (n * Real.sqrt (V3.dot d d))| ∧
        |v.y - d.y / (n * Real.sqrt (V3.dot d d))| ≤ 12 * ε * |d.y / (n * Real.sqrt (V3.dot d d))| ∧
        |v.z - d.z / (n * Real.sqrt (V3.dot d d))| ≤ 12 * ε * |d.z / (n * Real.sqrt (V3.dot d d))|) ∧
      List.Forall₂ (fun e ray => ∃ q : V3 ℝ, ray = ⟨q.flt rd, v.flt rd, 0, s.wavelength, ray.flux, false, false⟩ ∧
          ∀ st, LaunchedAt d D (B.toLocal (A.toGlobal ⟨e.1, e.2, f e⟩)) st →
            nrm (q - st) ≤ 10800 * ε * reach D (B.toLocal (A.toGlobal ⟨e.1, e.2, f e⟩)) + 160 * ε * (nrm ⟨e.1, e.2, f e⟩ + nrm (B.origin - A.origin)) +
              8 * δ * nrm (B.origin - A.origin) + 12 * (500 * ε * Real.sqrt (e.1 * e.1 + e.2 * e.2) + σ))
        (spokesSpec (nodes.map (quadRadius inner outer)) (equalAzimuths m)) rays := by
  have h0 := h.nonneg
  have hl : ε < 1 := by linarith
  have hε' : ε ≤ 1 / 1000 := by linarith
  have hsc : spokeCount spokes (k : ℤ) = (.num (m : ℤ) : Count (Flt rd)) := by
    rcases hsp with rfl | ⟨rfl, rfl⟩
    · rfl
    · simp [spokeCount]
  have e0 : pupilOuter a (some (Flt.fin rd outer)) = .ok (some (Flt.fin rd outer)) := by
    unfold pupilOuter fromOptic; cases a.optic <;> rfl
  have hm0 : (0 : ℝ) < m := by exact_mod_cast hm
  -- rings
  have ch : ∀ t : ℝ, ∃ r, (-1 ≤ t ∧ t ≤ 1) → quadRing (Flt.fin rd inner / Flt.fin rd outer) (Flt.fin rd outer) (Flt.fin rd t) = Flt.fin rd r ∧
      0 ≤ quadRadius inner outer t ∧ |r - quadRadius inner outer t| ≤ 60 * ε * quadRadius inner outer t := fun t => by
    by_cases ht : -1 ≤ t ∧ t ≤ 1
    · obtain ⟨r, k⟩ := quadRing_near h hε' hone ho hi hio ht
      exact ⟨r, fun _ => k⟩
    · exact ⟨0, fun c => absurd c ht⟩
  choose x hx using ch
  -- azimuths
  obtain ⟨y, ey, ry⟩ := linspace_open_near h hl (rd (rd 2 * rd Real.pi)) hm
  have r2 : Rel ε 3 (rd (rd 2 * rd Real.pi)) (2 * Real.pi) := h.after hl ((h.rel hl 2).mul hl (h.rel hl Real.pi))
  have ry' : ∀ j, Rel ε 9 (y j) (2 * Real.pi * j / m) := fun j => by
    have := (ry j).trans hl ((Rel.refl ((j : ℝ) / m)).mul hl r2)
    rw [show (j : ℝ) / m * (2 * Real.pi) = 2 * Real.pi * j / m by ring] at this
    exact this
  -- fluxes
  have e01 : 0 ≤ inner / outer ∧ inner / outer ≤ 1 := ⟨div_nonneg hi ho.le, (div_le_one ho).2 hio⟩
  have E01 : inner / outer * (inner / outer) ≤ 1 := by nlinarith [e01.1, e01.2]
  obtain ⟨Z, eZ, kZ⟩ : ∃ Z : ℝ → ℝ, (∀ w, Flt.fin rd w * (Arith.pi * (1 - Flt.fin rd inner / Flt.fin rd outer * (Flt.fin rd inner / Flt.fin rd outer))) /
        Arith.const ((2 * (m : ℤ) : ℤ) : ℚ) = Flt.fin rd (Z w)) ∧
      ∀ w, |Z w - w * (Real.pi * (1 - inner / outer * (inner / outer))) / (2 * m)| ≤ 20 * ε * |w| * Real.pi / m := by
    have re := h.rel hl (inner / outer)
    have rE := h.after hl (re.mul hl re)
    have rm : Rel ε 1 (rd (((2 * (m : ℤ) : ℤ) : ℝ))) (2 * m) := by
      have := h.rel hl (2 * (m : ℝ))
      push_cast
      exact this
    have m2 : (2 * (m : ℝ)) ≠ 0 := by positivity
    refine ⟨fun w => rd (rd (w * rd (rd Real.pi * rd (1 - rd (rd (inner / outer) * rd (inner / outer))))) / rd (((2 * (m : ℤ) : ℤ) : ℝ))), fun w => ?_, fun w => ?_⟩
    · rw [const_int]
      simp only [Flt.div_fin ho.ne', flt_one, hone, Flt.pi_fin, Flt.mul_fin, Flt.sub_fin, Flt.div_fin (rm.ne hl m2)]
    · have kQ : Err ε 4 _ _ _ := h.errSub hl ((Err.exact 1).mono h0 hl (by norm_num : 0 ≤ 3)) ((rE.err h0 hl).mono h0 hl (by norm_num : 1 + 1 + 1 ≤ 3))
      have kA : Err ε 6 _ _ _ := h.errMul hl ((h.rel hl Real.pi).err h0 hl) kQ
      have kW : Err ε 7 _ _ _ := h.errMul hl (Err.exact w) kA
      have kF : Err ε 9 _ _ _ := h.errDiv hl kW rm
      have kc := kF.close h0 hl 18 (by norm_num) (by linarith)
      rw [abs_one, abs_of_pos Real.pi_pos, abs_mul_self, abs_of_pos (by positivity : (0 : ℝ) < 2 * m)] at kc
      refine kc.trans ?_
      rw [mul_div_assoc', div_le_div_iff₀ (by positivity) hm0]
      have W0 : 0 ≤ |w| * Real.pi := mul_nonneg (abs_nonneg w) Real.pi_pos.le
      have : |w| * (Real.pi * (1 + inner / outer * (inner / outer))) ≤ |w| * Real.pi * 2 := by
        rw [← mul_assoc]
        exact mul_le_mul_of_nonneg_left (by linarith) W0
      have := mul_le_mul_of_nonneg_left this (mul_nonneg h0 hm0.le)
      have := mul_nonneg (mul_nonneg h0 hm0.le) W0
      nlinarith
  have hflux : quadFlux (weights.map (Flt.fin rd)) (Arith.pi * (1 - Flt.fin rd inner / Flt.fin rd outer * (Flt.fin rd inner / Flt.fin rd outer)))
      (.num (m : ℤ)) = .ok ((weights.map Z).map (Flt.fin rd)) := by
    simp only [quadFlux, List.map_map]
    refine congrArg _ (List.map_congr_left fun w _ => ?_)
    exact eZ w
  have hring : nodes.map (fun t => quadRing (Flt.fin rd inner / Flt.fin rd outer) (Flt.fin rd outer) (Flt.fin rd t)) = nodes.map fun t => Flt.fin rd (x t) :=
    List.map_congr_left fun t ht => (hx t (hn1 t ht)).1
  have hsh : spokesShape lg (Flt.fin rd outer) (Flt.fin rd inner) spokes (.num (k : ℤ)) "GQ" flux =
      .ok (nodes.map fun t => Flt.fin rd (x t), (List.range m).map fun j : ℕ => Flt.fin rd (y j), (weights.map Z).map (Flt.fin rd)) := by
    have hg : ("GQ" : String) ≠ "uniform" := by decide
    rw [Flt.pi_fin] at hflux
    simp only [spokesShape, if_neg hg, if_true, hsc, hlg, bind, Except.bind, hflux, spread, flt_two, Flt.pi_fin, Flt.mul_fin, ey, Count.values]
    rw [← hring, List.map_map]
    rfl
  -- points
  have epts : (meshgrid (nodes.map fun t => Flt.fin rd (x t)) ((List.range m).map fun j : ℕ => Flt.fin rd (y j))).map fromPolar =
      ((List.range m).flatMap fun j => nodes.map fun t => (rd (x t * rd (Real.cos (y j))), rd (x t * rd (Real.sin (y j))))).map fun p => (Flt.fin rd p.1, Flt.fin rd p.2) := by
    unfold meshgrid
    rw [List.flatMap_map, List.map_flatMap, List.map_flatMap]
    congr 1
    funext j
    simp only [List.map_map]
    refine List.map_congr_left fun i _ => ?_
    simp [fromPolar]
  have kp : List.Forall₂ (fun e p : ℝ × ℝ => |p.1 - e.1| ≤ (fun e : ℝ × ℝ => 250 * ε * Real.sqrt (e.1 * e.1 + e.2 * e.2)) e ∧
        |p.2 - e.2| ≤ (fun e : ℝ × ℝ => 250 * ε * Real.sqrt (e.1 * e.1 + e.2 * e.2)) e)
      (spokesSpec (nodes.map (quadRadius inner outer)) (equalAzimuths m))
      ((List.range m).flatMap fun j => nodes.map fun t => (rd (x t * rd (Real.cos (y j))), rd (x t * rd (Real.sin (y j))))) := by
    unfold spokesSpec equalAzimuths
    rw [List.flatMap_map]
    have all : ∀ js : List ℕ, (∀ j ∈ js, j < m) → List.Forall₂ (fun e p : ℝ × ℝ => |p.1 - e.1| ≤ 250 * ε * Real.sqrt (e.1 * e.1 + e.2 * e.2) ∧ |p.2 - e.2| ≤ 250 * ε * Real.sqrt (e.1 * e.1 + e.2 * e.2))
        (js.flatMap fun j : ℕ => (nodes.map (quadRadius inner outer)).map fun r => (r * Real.cos (2 * Real.pi * j / m), r * Real.sin (2 * Real.pi * j / m)))
        (js.flatMap fun j => nodes.map fun t => (rd (x t * rd (Real.cos (y j))), rd (x t * rd (Real.sin (y j))))) := fun js => by
      induction js with
      | nil => exact fun _ => List.Forall₂.nil
      | cons j js ih =>
        intro hj
        rw [List.flatMap_cons, List.flatMap_cons]
        refine List.rel_append ?_ (ih fun t ht => hj t (List.mem_cons_of_mem _ ht))
        rw [List.map_map, List.forall₂_map_left_iff, List.forall₂_map_right_iff, List.forall₂_same]
        intro t ht
        obtain ⟨-, R0, kR⟩ := hx t (hn1 t ht)
        have T0 : 0 ≤ 2 * Real.pi * j / m ∧ 2 * Real.pi * j / m ≤ 2 * Real.pi := by
          have hjm : (j : ℝ) ≤ m := by exact_mod_cast (hj j List.mem_cons_self).le
          refine ⟨div_nonneg (mul_nonneg (by positivity) (Nat.cast_nonneg j)) hm0.le, ?_⟩
          rw [div_le_iff₀ hm0]
          exact mul_le_mul_of_nonneg_left hjm (by positivity)
        simp only [Function.comp]
        generalize quadRadius inner outer t = R at *
        have es : Real.sqrt (R * Real.cos (2 * Real.pi * j / m) * (R * Real.cos (2 * Real.pi * j / m)) +
            R * Real.sin (2 * Real.pi * j / m) * (R * Real.sin (2 * Real.pi * j / m))) = R := by
          refine (congrArg Real.sqrt ?_).trans (Real.sqrt_mul_self R0)
          linear_combination (R ^ 2) * Real.sin_sq_add_cos_sq (2 * Real.pi * j / m)
        rw [es]
        exact ⟨polar_point h hε' R0 kR T0 (ry' j) (Real.abs_cos_sub_cos_le _ _) (Real.abs_cos_le_one _),
          polar_point h hε' R0 kR T0 (ry' j) (Real.abs_sin_sub_sin_le _ _) (Real.abs_sin_le_one _)⟩
    exact all _ fun j hj => List.mem_range.1 hj
  obtain ⟨v, rays, e4, kf, kv, kr⟩ := launch_fluxes_near h hε hs hd hD hD0 hmed hn hyz hA hB nA nB hδ kp hsag
    (List.replicate m ((weights.map Z).map (Flt.fin rd))).flatten (by simp [List.length_flatMap, hnl, hwl])
  refine ⟨v, rays, ?_, ⟨weights.map Z, kf, ?_⟩, kv, ?_⟩
  · unfold asSpokes
    have eb : broadcastTo ((weights.map Z).map (Flt.fin rd)) ((List.range m).map fun j : ℕ => Flt.fin rd (y j)).length (nodes.map fun t => Flt.fin rd (x t)).length =
        .ok (List.replicate m ((weights.map Z).map (Flt.fin rd))).flatten := by
      unfold broadcastTo
      rw [if_pos (by simp [hnl, hwl])]
      simp
    simp only [e0, hset, bind, Except.bind, hsh, eb]
    rw [epts]
    exact e4
  · rw [List.forall₂_map_right_iff, List.forall₂_same]
    exact fun w _ => kZ w
  · refine kr.imp fun e ray hr => ?_
    obtain ⟨q, eq, kq⟩ := hr
    exact ⟨q, eq, fun st hst => (kq st hst).trans (le_of_eq (by ring))⟩

/-- **C139.**  The same for `fromStop`, whose points are given. -/
theorem C139_fromStop (h : Rounds ε rd) (hε : ε ≤ 1 / 7200) {a : Args (Flt rd)} {s : Setup (Flt rd)} (hset : setup false a = .ok s) {d : V3 ℝ} {n D δ σ : ℝ}
    (hs : s.source = none) (hd : s.dirCos = some (d.flt rd)) (hD : s.backDist = Flt.fin rd D) (hD0 : 0 ≤ D)
    (hmed : s.medium.getN s.wavelength = Flt.fin rd n) (hn : 0 < n) (hyz : d.y ≠ 0 ∨ d.z ≠ 0) {A B : CoordSys ℝ} (hA : s.stop.coordSys = A.flt rd)
    (hB : s.coordSys = B.flt rd) (nA : Nearly δ A.rot) (nB : Nearly δ B.rot) (hδ : δ ≤ 1 / 100) (pts : List (ℝ × ℝ)) {f : ℝ × ℝ → ℝ}
    (hsag : ∀ e ∈ pts, SagWithin rd s.stop.surface e.1 e.2 (f e) σ) (flux : Flt rd) :
    ∃ (v : V3 ℝ) (rays : List (Ray (Flt rd))),
      fromStop a (pts.map fun p => (Flt.fin rd p.1, Flt.fin rd p.2)) flux = .ok (some ⟨rays, s.coordSys⟩) ∧
      (|v.x - d.x / (n * Real.sqrt (V3.dot d d))| ≤ 12 * ε * |d.x / (n * Real.sqrt (V3.dot d d))| ∧
        |v.y - d.y / (n * Real.sqrt (V3.dot d d))| ≤ 12 * ε * |d.y / (n * Real.sqrt (V3.dot d d))| ∧
        |v.z - d.z / (n * Real.sqrt (V3.dot d d))| ≤ 12 * ε * |d.z / (n * Real.sqrt (V3.dot d d))|) ∧
      List.Forall₂ (fun e ray => ∃ q : V3 ℝ, ray = ⟨q.flt rd, v.flt rd, 0, s.wavelength, flux, false, false⟩ ∧
          ∀ st, LaunchedAt d D (B.toLocal (A.toGlobal ⟨e.1, e.2, f e⟩)) st →
            nrm (q - st) ≤ 10800 * ε * reach D (B.toLocal (A.toGlobal ⟨e.1, e.2, f e⟩)) + 160 * ε * (nrm ⟨e.1, e.2, f e⟩ + nrm (B.origin - A.origin)) +
              8 * δ * nrm (B.origin - A.origin) + 12 * σ) pts rays := by
  have kp : List.Forall₂ (fun e p : ℝ × ℝ => |p.1 - e.1| ≤ (fun _ => 0) e ∧ |p.2 - e.2| ≤ (fun _ => 0) e) pts pts :=
    List.forall₂_same.2 fun e _ => by simp
  obtain ⟨v, rays, e4, kv, kr⟩ := launch_near h hε hs hd hD hD0 hmed hn hyz hA hB nA nB hδ (τ := fun _ => 0) kp (fun e he x y hx hy => by
    have e1 : x = e.1 := sub_eq_zero.1 (abs_eq_zero.1 (le_antisymm hx (abs_nonneg _)))
    have e2 : y = e.2 := sub_eq_zero.1 (abs_eq_zero.1 (le_antisymm hy (abs_nonneg _)))
    rw [e1, e2]
    exact hsag e he) flux
  refine ⟨v, rays, ?_, kv, ?_⟩
  · unfold fromStop
    simp only [hset, bind, Except.bind, flatFlux, List.length_map]
    exact e4
  · refine kr.imp fun e ray hr => ?_
    obtain ⟨q, eq, kq⟩ := hr
    exact ⟨q, eq, fun st hst => (kq st hst).trans (le_of_eq (by ring))⟩

/-- **C139.**  The same for `asPolar(nrandom=)`: the draws are a squared radius and an azimuth each. -/
theorem C139_asPolarRandom (h : Rounds ε rd) (hε : ε ≤ 1 / 7200) {a : Args (Flt rd)} {s : Setup (Flt rd)} (hset : setup false a = .ok s) {d : V3 ℝ} {n D δ σ : ℝ}
    (hs : s.source = none) (hd : s.dirCos = some (d.flt rd)) (hD : s.backDist = Flt.fin rd D) (hD0 : 0 ≤ D)
    (hmed : s.medium.getN s.wavelength = Flt.fin rd n) (hn : 0 < n) (hyz : d.y ≠ 0 ∨ d.z ≠ 0) {A B : CoordSys ℝ} (hA : s.stop.coordSys = A.flt rd)
    (hB : s.coordSys = B.flt rd) (nA : Nearly δ A.rot) (nB : Nearly δ B.rot) (hδ : δ ≤ 1 / 100) (draws : List (ℝ × ℝ))
    (hdr : ∀ r ∈ draws, 0 ≤ r.1 ∧ 0 ≤ r.2 ∧ r.2 ≤ 2 * Real.pi) {f : ℝ × ℝ → ℝ}
    (hsag : ∀ r ∈ draws, ∀ x y, |x - Real.sqrt r.1 * Real.cos r.2| ≤ 200 * ε * Real.sqrt r.1 → |y - Real.sqrt r.1 * Real.sin r.2| ≤ 200 * ε * Real.sqrt r.1 →
      SagWithin rd s.stop.surface x y (f (Real.sqrt r.1 * Real.cos r.2, Real.sqrt r.1 * Real.sin r.2)) σ) (flux : Flt rd) :
    ∃ (v : V3 ℝ) (rays : List (Ray (Flt rd))),
      asPolarRandom a (draws.map fun p => (Flt.fin rd p.1, Flt.fin rd p.2)) flux = .ok (some ⟨rays, s.coordSys⟩) ∧
      (|v.x - d.x / (n * Real.sqrt (V3.dot d d))| ≤ 12 * ε * |d.x / (n * Real.sqrt (V3.dot d d))| ∧
        |v.y - d.y / (n * Real.sqrt (V3.dot d d))| ≤ 12 * ε * |d.y / (n * Real.sqrt (V3.dot d d))| ∧
        |v.z - d.z / (n * Real.sqrt (V3.dot d d))| ≤ 12 * ε * |d.z / (n * Real.sqrt (V3.dot d d))|) ∧
      List.Forall₂ (fun e ray => ∃ q : V3 ℝ, ray = ⟨q.flt rd, v.flt rd, 0, s.wavelength, flux, false, false⟩ ∧
          ∀ st, LaunchedAt d D (B.toLocal (A.toGlobal ⟨e.1, e.2, f e⟩)) st →
            nrm (q - st) ≤ 10800 * ε * reach D (B.toLocal (A.toGlobal ⟨e.1, e.2, f e⟩)) + 160 * ε * (nrm ⟨e.1, e.2, f e⟩ + nrm (B.origin - A.origin)) +
              8 * δ * nrm (B.origin - A.origin) + 12 * (400 * ε * Real.sqrt (e.1 * e.1 + e.2 * e.2) + σ))
        (draws.map fun r => (Real.sqrt r.1 * Real.cos r.2, Real.sqrt r.1 * Real.sin r.2)) rays := by
  have h0 := h.nonneg
  have hl : ε < 1 := by linarith
  have radius : ∀ r : ℝ × ℝ, Real.sqrt (Real.sqrt r.1 * Real.cos r.2 * (Real.sqrt r.1 * Real.cos r.2) + Real.sqrt r.1 * Real.sin r.2 * (Real.sqrt r.1 * Real.sin r.2)) = Real.sqrt r.1 := fun r => by
    refine (congrArg Real.sqrt ?_).trans (Real.sqrt_mul_self (Real.sqrt_nonneg r.1))
    linear_combination (Real.sqrt r.1 ^ 2) * Real.sin_sq_add_cos_sq r.2
  have kp : List.Forall₂ (fun e p : ℝ × ℝ => |p.1 - e.1| ≤ (fun e : ℝ × ℝ => 200 * ε * Real.sqrt (e.1 * e.1 + e.2 * e.2)) e ∧
        |p.2 - e.2| ≤ (fun e : ℝ × ℝ => 200 * ε * Real.sqrt (e.1 * e.1 + e.2 * e.2)) e)
      (draws.map fun r => (Real.sqrt r.1 * Real.cos r.2, Real.sqrt r.1 * Real.sin r.2))
      (draws.map fun r => (rd (rd (Real.sqrt r.1) * rd (Real.cos r.2)), rd (rd (Real.sqrt r.1) * rd (Real.sin r.2)))) := by
    rw [List.forall₂_map_left_iff, List.forall₂_map_right_iff, List.forall₂_same]
    intro r hr
    obtain ⟨-, t0, t1⟩ := hdr r hr
    have k1 := (h.rel hl (Real.sqrt r.1)).mono h0 hl (by norm_num : 1 ≤ 6)
    have k2 := (Rel.refl (u := ε) r.2).mono h0 hl (by norm_num : 0 ≤ 9)
    simp only [radius]
    exact ⟨polar_near h (by linarith) (Real.sqrt_nonneg _) k1 ⟨t0, t1⟩ k2 (by simp) (Real.abs_cos_le_one _),
      polar_near h (by linarith) (Real.sqrt_nonneg _) k1 ⟨t0, t1⟩ k2 (by simp) (Real.abs_sin_le_one _)⟩
  obtain ⟨v, rays, e4, kv, kr⟩ := launch_near h hε hs hd hD hD0 hmed hn hyz hA hB nA nB hδ kp (f := f) (σ := σ) (fun e he x y hx hy => by
    obtain ⟨r, hr, rfl⟩ := List.mem_map.1 he
    simp only [radius] at hx hy
    exact hsag r hr x y hx hy) flux
  refine ⟨v, rays, ?_, kv, ?_⟩
  · unfold asPolarRandom
    simp only [hset, bind, Except.bind, flatFlux, List.length_map]
    have e5 : ((draws.map fun p => (Flt.fin rd p.1, Flt.fin rd p.2)).map fun d : Flt rd × Flt rd => fromPolar (Arith.sqrt d.1, d.2)) =
        (draws.map fun r => (rd (rd (Real.sqrt r.1) * rd (Real.cos r.2)), rd (rd (Real.sqrt r.1) * rd (Real.sin r.2)))).map fun p => (Flt.fin rd p.1, Flt.fin rd p.2) := by
      simp only [List.map_map]
      refine List.map_congr_left fun r hr => ?_
      simp [fromPolar, Flt.sqrt_fin (hdr r hr).1]
    rw [e5]
    rw [List.length_map] at e4
    exact e4
  · refine kr.imp fun e ray hr => ?_
    obtain ⟨q, eq, kq⟩ := hr
    exact ⟨q, eq, fun st hst => (kq st hst).trans (le_of_eq (by ring))⟩

theorem plain_setup_stop : setup false plainArgs = .ok ⟨Flt.fin rd53 40, Medium.const 1, defaultStop, CoordSys.std (Flt rd53), Flt.fin rd53 1, none,
    some (V3.flt rd53 ⟨1 / 64, 0, -1⟩)⟩ := by
  have := plain_setup
  simp only [setup, plainArgs, fromOptic, pickDirection, bind, Except.bind, Option.getD_none, if_true] at this ⊢
  exact this

/-- Any number of rings between one and four meters and any number of spokes, in double precision: every ray starts within a nanometer of where it should. -/
example (lg : ℤ → Except PyErr (List (Flt rd53) × List (Flt rd53))) {k m : ℕ} (hk : 0 < k) (hm : 0 < m) (flux : Flt rd53) :
    ∃ (v : V3 ℝ) (rays : List (Ray (Flt rd53))),
      asSpokes lg plainArgs (some (Flt.fin rd53 4)) (Flt.fin rd53 1) (some (.num (m : ℤ))) (some (.num (k : ℤ))) "uniform" flux =
        .ok (some ⟨rays, CoordSys.std (Flt rd53)⟩) ∧
      List.Forall₂ (fun e ray => ∃ q : V3 ℝ, ray = ⟨q.flt rd53, v.flt rd53, 0, Flt.fin rd53 1, flux, false, false⟩ ∧
          ∀ st, LaunchedAt ⟨1 / 64, 0, -1⟩ 40 ⟨e.1, e.2, 0⟩ st → nrm (q - st) ≤ 1 / 10 ^ 9) (spokesSpec (equalRadii 1 4 k) (equalAzimuths m)) rays := by
  have o : (CoordSys.std ℝ).rot.Orth := M3.orth_one
  have n0 : Nearly 0 (CoordSys.std ℝ).rot := nearly_of_orth o
  have one : (Medium.const (1 : Flt rd53)).getN (Flt.fin rd53 1) = Flt.fin rd53 1 := by
    show (1 : Flt rd53) = _
    rw [flt_one, rd53_one]
  obtain ⟨v, rays, e, -, kr⟩ := C139_asSpokes (f := fun _ => 0) (σ := 0) (inner := 1) (outer := 4) rd53_rounds (by norm_num) plain_setup_stop rfl rfl rfl
    (by norm_num) one one_pos (Or.inr (by norm_num)) std_flt53 std_flt53 n0 n0 (by norm_num) lg (by norm_num) (by norm_num) hk hm
    (fun e _ x y _ _ => ⟨0, by show (0 : Flt rd53) = _; rw [flt_zero rd53_rounds], by simp⟩) flux
  refine ⟨v, rays, e, ?_⟩
  rw [List.forall₂_iff_get] at kr ⊢
  refine ⟨kr.1, fun i h1 h2 => ?_⟩
  obtain ⟨q, eq, kq⟩ := kr.2 i h1 h2
  refine ⟨q, eq, fun st hst => ?_⟩
  have mem := List.get_mem (spokesSpec (equalRadii 1 4 k) (equalAzimuths m)) ⟨i, h1⟩
  generalize (spokesSpec (equalRadii 1 4 k) (equalAzimuths m)).get ⟨i, h1⟩ = p at *
  have idm : (CoordSys.std ℝ).toLocal ((CoordSys.std ℝ).toGlobal ⟨p.1, p.2, 0⟩) = ⟨p.1, p.2, 0⟩ := by
    ext <;> simp [CoordSys.toLocal, CoordSys.toGlobal, CoordSys.std, M3.mulVec, M3.tr]
  rw [idm] at kq
  refine (kq st hst).trans ?_
  have sm : |p.1| ≤ 4 ∧ |p.2| ≤ 4 := by
    unfold spokesSpec equalRadii at mem
    simp only [List.mem_flatMap, List.mem_map, List.mem_range] at mem
    obtain ⟨t, -, r, ⟨j, hj, rfl⟩, rfl⟩ := mem
    have hj1 : (j : ℝ) ≤ (k : ℝ) - 1 := by
      have : ((j + 1 : ℕ) : ℝ) ≤ k := by exact_mod_cast hj
      push_cast at this
      linarith
    have q0 : 0 ≤ (j : ℝ) / ((k : ℝ) - 1) := div_nonneg (Nat.cast_nonneg j) ((Nat.cast_nonneg j).trans hj1)
    have q1 : (j : ℝ) / ((k : ℝ) - 1) ≤ 1 := div_le_one_of_le₀ hj1 ((Nat.cast_nonneg j).trans hj1)
    have r0 : |1 + (j : ℝ) / ((k : ℝ) - 1) * (4 - 1)| ≤ 4 := abs_le.2 ⟨by linarith, by linarith⟩
    rw [abs_mul, abs_mul]
    exact ⟨(mul_le_of_le_one_right (abs_nonneg _) (Real.abs_cos_le_one t)).trans r0, (mul_le_of_le_one_right (abs_nonneg _) (Real.abs_sin_le_one t)).trans r0⟩
  have z : nrm ((CoordSys.std ℝ).origin - (CoordSys.std ℝ).origin) = 0 := by simp [nrm, V3.normSq, V3.dot, CoordSys.std]
  have nb := nrm_le_sum ⟨p.1, p.2, 0⟩
  have sq : Real.sqrt (p.1 * p.1 + p.2 * p.2) ≤ 8 := by
    refine Real.sqrt_le_iff.2 ⟨by norm_num, ?_⟩
    rw [← abs_mul_abs_self p.1, ← abs_mul_abs_self p.2]
    nlinarith [sm.1, sm.2, abs_nonneg p.1, abs_nonneg p.2]
  simp only [reach, abs_zero] at nb ⊢
  rw [z]
  have nb2 : nrm ⟨p.1, p.2, 0⟩ ≤ 8 := by linarith [sm.1, sm.2]
  norm_num
  linarith [sm.1, sm.2]

/-- A draw a third of a turn round, at four meters. -/
example (flux : Flt rd53) : ∃ rays : List (Ray (Flt rd53)),
    asPolarRandom plainArgs [(Flt.fin rd53 16, Flt.fin rd53 (2 * Real.pi / 3))] flux = .ok (some ⟨rays, CoordSys.std (Flt rd53)⟩) ∧ rays.length = 1 := by
  have n0 : Nearly 0 (CoordSys.std ℝ).rot := nearly_of_orth M3.orth_one
  have one : (Medium.const (1 : Flt rd53)).getN (Flt.fin rd53 1) = Flt.fin rd53 1 := by
    show (1 : Flt rd53) = _
    rw [flt_one, rd53_one]
  obtain ⟨v, rays, e, -, kr⟩ := C139_asPolarRandom (f := fun _ => 0) (σ := 0) rd53_rounds (by norm_num) plain_setup_stop rfl rfl rfl
    (by norm_num) one one_pos (Or.inr (by norm_num)) std_flt53 std_flt53 n0 n0 (by norm_num) [(16, 2 * Real.pi / 3)]
    (fun r hr => by
      rw [List.mem_singleton.1 hr]
      exact ⟨by norm_num, by positivity, by linarith [Real.pi_pos]⟩)
    (fun e _ x y _ _ => ⟨0, by show (0 : Flt rd53) = _; rw [flt_zero rd53_rounds], by simp⟩) flux
  exact ⟨rays, e, by rw [← kr.length_eq]; rfl⟩

/-- One quadrature ring (the node zero with the weight two) and its three spokes, without an inner radius. -/
example (flux : Flt rd53) : ∃ rays : List (Ray (Flt rd53)),
    asSpokes (fun _ => .ok ([Flt.fin rd53 0], [Flt.fin rd53 2])) plainArgs (some (Flt.fin rd53 4)) (Flt.fin rd53 0) none (some (.num 1)) "GQ" flux =
      .ok (some ⟨rays, CoordSys.std (Flt rd53)⟩) ∧ rays.length = 3 := by
  have n0 : Nearly 0 (CoordSys.std ℝ).rot := nearly_of_orth M3.orth_one
  have one : (Medium.const (1 : Flt rd53)).getN (Flt.fin rd53 1) = Flt.fin rd53 1 := by
    show (1 : Flt rd53) = _
    rw [flt_one, rd53_one]
  obtain ⟨v, rays, e, -, -, kr⟩ := C139_quadrature (f := fun _ => 0) (σ := 0) (k := 1) (m := 3) (outer := 4) (inner := 0) rd53_rounds (by norm_num) rd53_one
    plain_setup_stop rfl rfl rfl (by norm_num) one one_pos (Or.inr (by norm_num)) std_flt53 std_flt53 n0 n0 (by norm_num)
    (fun _ => .ok ([Flt.fin rd53 0], [Flt.fin rd53 2])) (by norm_num) le_rfl (by norm_num) (by norm_num) none (Or.inr ⟨rfl, rfl⟩) [0] [2] rfl rfl rfl
    (by simp) (fun e _ x y _ _ => ⟨0, by show (0 : Flt rd53) = _; rw [flt_zero rd53_rounds], by simp⟩) flux
  refine ⟨rays, e, ?_⟩
  rw [← kr.length_eq, spokesSpec_length]
  simp [equalAzimuths]

end results
end Batoid.Props
