import Verif.Props.GridRays
import Verif.Props.RoundLaunch
import Verif.Props.Fan

/-!
# Property C138: the rays of asGrid in arithmetic with rounding

The points of the grid (C42), put on the stop surface, taken to the frame of the rays (C111) and backed up (C137).
-/

namespace Batoid.Props
open Batoid Batoid.Construct Batoid.Numpy

section lemmas
variable {ε : ℝ} {rd : ℝ → ℝ}

theorem const_int (k : ℤ) : (Arith.const (k : ℚ) : Flt rd) = Flt.fin rd (rd (k : ℝ)) := by
  rw [Flt.const_fin, Rat.cast_intCast]

/-- The coordinates along a side. -/
theorem gridAxis_near (h : Rounds ε rd) (hε : ε < 1) {n : ℕ} (hn : 0 < n) : ∃ x : ℕ → ℝ,
    gridAxis (F := Flt rd) (n : ℤ) = .ok ((List.range n).map fun i : ℕ => Flt.fin rd (x i)) ∧
      ∀ i, Rel ε 9 (x i) (((i : ℝ) - ((n / 2 : ℕ) : ℝ)) / (axisCells n : ℝ)) := by
  have h0 := h.nonneg
  have hnr : (n : ℝ) ≠ 0 := by exact_mod_cast hn.ne'
  have hc0 : (axisCells n : ℝ) ≠ 0 := by
    have : axisCells n ≠ 0 := by unfold axisCells; split_ifs <;> omega
    exact_mod_cast this
  have rn : Rel ε 1 (rd ((n : ℤ) : ℝ)) (n : ℝ) := by
    have := h.rel hε (n : ℝ)
    rwa [Int.cast_natCast]
  have hval : ∃ d d0 : ℝ, (if (n : ℤ) ≤ 2 then (1 : Flt rd) else Arith.const (((n : ℤ) - spare n : ℤ) : ℚ) / Arith.const ((n : ℤ) : ℚ)) = Flt.fin rd d ∧
      Rel ε 3 d d0 ∧ (n : ℝ) * d0 = axisCells n := by
    by_cases h2 : n ≤ 2
    · refine ⟨rd 1, 1, ?_, (h.rel hε 1).mono h0 hε (by norm_num), ?_⟩
      · rw [if_pos (by omega), flt_one]
      · simp [axisCells, h2]
    · refine ⟨_, (((n : ℤ) - spare n : ℤ) : ℝ) / n, ?_, h.after hε ((h.rel hε _).div hε rn), ?_⟩
      · rw [if_neg (by omega), const_int, const_int, Flt.div_fin (rn.ne hε hnr)]
      · rw [mul_div_cancel₀ _ hnr]
        have : (n : ℤ) - spare n = (axisCells n : ℤ) := by
          unfold spare axisCells
          rw [if_neg h2]
          split_ifs <;> omega
        rw [this, Int.cast_natCast]
  obtain ⟨d, d0, hd, rdd, hnd⟩ := hval
  have q1 := h.after hε (rn.mul hε rdd)
  rw [hnd] at q1
  have q2 := h.after hε ((h.rel hε 1).div hε q1)
  have qne := q1.ne hε hc0
  refine ⟨fun i => rd (rd ((-((n : ℤ) / 2) + (i : ℤ) : ℤ) : ℝ) * rd (rd 1 / rd (rd ((n : ℤ) : ℝ) * d))), ?_, fun i => ?_⟩
  · unfold gridAxis
    rw [hd]
    show (fftfreq (n : ℤ) (Flt.fin rd d) >>= fun l => Except.ok (fftshift l)) = _
    unfold fftfreq
    rw [if_neg (by omega), if_neg (by omega)]
    show Except.ok (fftshift (List.map _ _)) = _
    rw [fftshift_map, fftshift_arange]
    unfold arange
    rw [List.map_map, show (((n : ℤ) - 1) / 2 + 1 - -((n : ℤ) / 2)).toNat = n by omega]
    refine congrArg _ (List.map_congr_left fun i _ => ?_)
    simp only [Function.comp]
    rw [const_int, const_int, flt_one, Flt.mul_fin, Flt.div_fin qne, Flt.mul_fin]
  · have := h.after hε ((h.rel hε ((-((n : ℤ) / 2) + (i : ℤ) : ℤ) : ℝ)).mul hε q2)
    have e : ((-((n : ℤ) / 2) + (i : ℤ) : ℤ) : ℝ) = (i : ℝ) - ((n / 2 : ℕ) : ℝ) := by
      have : (-((n : ℤ) / 2) + (i : ℤ) : ℤ) = (i : ℤ) - ((n / 2 : ℕ) : ℤ) := by omega
      rw [this, Int.cast_sub, Int.cast_natCast, Int.cast_natCast]
    rw [mul_one_div] at this
    rw [← e]
    exact this.mono h0 hε (by norm_num)

/-- Backing up does not spread points apart. -/
theorem launched_lip {d : V3 ℝ} {D : ℝ} {p q e f : V3 ℝ} (hp : LaunchedAt d D p e) (hq : LaunchedAt d D q f) : nrm (e - f) ≤ nrm (p - q) := by
  obtain ⟨⟨s, hs⟩, h1⟩ := hp
  obtain ⟨⟨t, ht⟩, h2⟩ := hq
  refine nrm_le (nrm_nonneg _) ?_
  rw [nrm_sq, hs, ht]
  have k : V3.dot e d = V3.dot f d := h1.trans h2.symm
  unfold V3.dot at k
  simp only [V3.sub_x, V3.sub_y, V3.sub_z, V3.add_x, V3.add_y, V3.add_z, V3.smulR]
  have k' : ((e.x - f.x) * d.x + (e.y - f.y) * d.y + (e.z - f.z) * d.z) * (s - t) = 0 := by rw [show (e.x - f.x) * d.x + (e.y - f.y) * d.y + (e.z - f.z) * d.z = 0 by linarith, zero_mul]
  nlinarith [k', mul_nonneg (sq_nonneg (s - t)) (add_nonneg (add_nonneg (sq_nonneg d.x) (sq_nonneg d.y)) (sq_nonneg d.z))]

theorem coord_le_nrm (v : V3 ℝ) : |v.x| ≤ nrm v ∧ |v.y| ≤ nrm v ∧ |v.z| ≤ nrm v := by
  have h := nrm_sq v
  refine ⟨?_, ?_, ?_⟩ <;> exact abs_le_of_sq_le_sq (by nlinarith [sq_nonneg v.x, sq_nonneg v.y, sq_nonneg v.z]) (nrm_nonneg v)

theorem nrm_le_sum (v : V3 ℝ) : nrm v ≤ |v.x| + |v.y| + |v.z| := by
  refine nrm_le (by positivity) ?_
  rw [← sq_abs v.x, ← sq_abs v.y, ← sq_abs v.z]
  nlinarith [mul_nonneg (abs_nonneg v.x) (abs_nonneg v.y), mul_nonneg (abs_nonneg v.x) (abs_nonneg v.z), mul_nonneg (abs_nonneg v.y) (abs_nonneg v.z)]

theorem reach_lip (D : ℝ) (p q : V3 ℝ) : reach D p ≤ reach D q + 2 * nrm (p - q) := by
  have h := nrm_sq (p - q)
  simp only [V3.sub_x, V3.sub_y, V3.sub_z] at h
  have n0 := nrm_nonneg (p - q)
  have k1 := abs_sub_abs_le_abs_sub p.x q.x
  have k2 := abs_sub_abs_le_abs_sub p.y q.y
  have k3 := abs_sub_abs_le_abs_sub p.z q.z
  have : |p.x - q.x| + |p.y - q.y| + |p.z - q.z| ≤ 2 * nrm (p - q) := by
    rw [← sq_abs (p.x - q.x), ← sq_abs (p.y - q.y), ← sq_abs (p.z - q.z)] at h
    refine abs_le_of_sq_le_sq' ?_ (by positivity) |>.2
    nlinarith [sq_nonneg (|p.x - q.x| - |p.y - q.y|), sq_nonneg (|p.x - q.x| - |p.z - q.z|), sq_nonneg (|p.y - q.y| - |p.z - q.z|),
      sq_nonneg (|p.x - q.x|), sq_nonneg (|p.y - q.y|), sq_nonneg (|p.z - q.z|)]
  unfold reach
  linarith

/-- Between the frames distances hardly grow. -/
theorem frames_lip {δ : ℝ} {A B : CoordSys ℝ} (hA : Nearly δ A.rot) (hB : Nearly δ B.rot) (hδ : δ ≤ 1 / 100) (p q : V3 ℝ) :
    nrm (B.toLocal (A.toGlobal p) - B.toLocal (A.toGlobal q)) ≤ 2 * nrm (p - q) := by
  have e : B.toLocal (A.toGlobal p) - B.toLocal (A.toGlobal q) = B.rot.tr.mulVec (A.rot.mulVec (p - q)) := by
    ext <;> simp [CoordSys.toLocal, CoordSys.toGlobal, M3.mulVec, M3.tr] <;> ring
  rw [e]
  have h1 := hB.tr.op (A.rot.mulVec (p - q))
  have h2 := hA.op (p - q)
  have h3 := nearly_nonneg hA
  have n0 := nrm_nonneg (p - q)
  have n1 := nrm_nonneg (A.rot.mulVec (p - q))
  nlinarith

end lemmas

section results
variable {ε : ℝ} {rd : ℝ → ℝ}

/-- **C138.**  The points of the grid on the stop are accurate relative to themselves; in particular those on an axis and in the middle are exactly
there. -/
theorem C138_points (h : Rounds ε rd) (hε : ε ≤ 1 / 1000) {nx ny : ℕ} (hx : 0 < nx) (hy : 0 < ny) (lx ly : ℝ) :
    ∃ pts : List (ℝ × ℝ), gridPoints ((nx : ℤ), (ny : ℤ), .num (Flt.fin rd lx), .num (Flt.fin rd ly)) none =
        .ok (pts.map fun p => (Flt.fin rd p.1, Flt.fin rd p.2)) ∧
      List.Forall₂ (fun e p => |p.1 - e.1| ≤ 24 * ε * |e.1| ∧ |p.2 - e.2| ≤ 24 * ε * |e.2|)
        (gridSpec nx ny (lx / axisCells nx, 0) (0, ly / axisCells ny)) pts := by
  have h0 := h.nonneg
  have hl : ε < 1 := by linarith
  obtain ⟨x, ex, rx⟩ := gridAxis_near h hl hx
  obtain ⟨y, ey, ry⟩ := gridAxis_near h hl hy
  refine ⟨(List.range ny).flatMap fun j => (List.range nx).map fun i => (rd (rd (lx * x i) + rd (0 * y j)), rd (rd (0 * x i) + rd (ly * y j))), ?_, ?_⟩
  · unfold gridPoints
    simp only [ex, ey]
    show Except.ok (List.map _ (meshgrid _ _)) = _
    unfold meshgrid
    rw [List.flatMap_map, List.map_flatMap, List.map_flatMap]
    refine congrArg _ (congrArg (fun f => List.flatMap f _) ?_)
    funext j
    simp only [List.map_map]
    refine List.map_congr_left fun i _ => ?_
    simp only [Function.comp, shear, Ext.alongX, Ext.alongY, flt_zero h, Flt.mul_fin, Flt.add_fin]
  · have near : ∀ {l t e : ℝ}, Rel ε 9 t e → |rd (rd (l * t)) - l * e| ≤ 24 * ε * |l * e| := fun {l t e} r => by
      have := h.after hl (h.after hl ((Rel.refl l).mul hl r))
      exact (this.mono h0 hl (by norm_num : _ ≤ 12)).near h0 hl 24 (by norm_num) (by linarith)
    have row : ∀ j : ℕ, List.Forall₂ (fun e p : ℝ × ℝ => |p.1 - e.1| ≤ 24 * ε * |e.1| ∧ |p.2 - e.2| ≤ 24 * ε * |e.2|)
        ((List.range nx).map fun i : ℕ => (((i : ℝ) - ((nx / 2 : ℕ) : ℝ)) * (lx / axisCells nx) + ((j : ℝ) - ((ny / 2 : ℕ) : ℝ)) * 0,
          ((i : ℝ) - ((nx / 2 : ℕ) : ℝ)) * 0 + ((j : ℝ) - ((ny / 2 : ℕ) : ℝ)) * (ly / axisCells ny)))
        ((List.range nx).map fun i => (rd (rd (lx * x i) + rd (0 * y j)), rd (rd (0 * x i) + rd (ly * y j)))) := fun j => by
      rw [List.forall₂_map_left_iff, List.forall₂_map_right_iff, List.forall₂_same]
      intro i _
      simp only [zero_mul, mul_zero, h.zero, add_zero, zero_add]
      have k1 := near (l := lx) (rx i)
      have k2 := near (l := ly) (ry j)
      rw [show lx * (((i : ℝ) - ((nx / 2 : ℕ) : ℝ)) / axisCells nx) = ((i : ℝ) - ((nx / 2 : ℕ) : ℝ)) * (lx / axisCells nx) by ring] at k1
      rw [show ly * (((j : ℝ) - ((ny / 2 : ℕ) : ℝ)) / axisCells ny) = ((j : ℝ) - ((ny / 2 : ℕ) : ℝ)) * (ly / axisCells ny) by ring] at k2
      exact ⟨k1, k2⟩
    unfold gridSpec
    generalize List.range ny = js
    induction js with
    | nil => exact List.Forall₂.nil
    | cons j js ih =>
      rw [List.flatMap_cons, List.flatMap_cons]
      exact List.rel_append (row j) ih

/-- **C138.**  Every ray of `asGrid(nx=, ny=, lx=, ly=)` starts next to where it should.  `f` is the height of the stop, reported within `σ`. -/
theorem C138_asGrid (h : Rounds ε rd) (hε : ε ≤ 1 / 7200) {a : Args (Flt rd)} {s : Setup (Flt rd)} (hset : setup true a = .ok s) {d : V3 ℝ} {n D δ σ : ℝ}
    (hs : s.source = none) (hd : s.dirCos = some (d.flt rd)) (hD : s.backDist = Flt.fin rd D) (hD0 : 0 ≤ D)
    (hm : s.medium.getN s.wavelength = Flt.fin rd n) (hn : 0 < n) (hyz : d.y ≠ 0 ∨ d.z ≠ 0) {A B : CoordSys ℝ} (hA : s.stop.coordSys = A.flt rd)
    (hB : s.coordSys = B.flt rd) (nA : Nearly δ A.rot) (nB : Nearly δ B.rot) (hδ : δ ≤ 1 / 100) {nx : ℕ} {ny : Option ℕ} (hx : 0 < nx) (hy : 0 < ny.getD nx)
    {lx : ℝ} {ly : Option ℝ} {f : ℝ × ℝ → ℝ}
    (hsag : ∀ e ∈ gridSpec nx (ny.getD nx) (lx / axisCells nx, 0) (0, ly.getD lx / axisCells (ny.getD nx)), ∀ x y, |x - e.1| ≤ 24 * ε * |e.1| →
      |y - e.2| ≤ 24 * ε * |e.2| → SagWithin rd s.stop.surface x y (f e) σ) (flux : Flt rd) :
    ∃ (v : V3 ℝ) (rays : List (Ray (Flt rd))),
      asGrid a ⟨some (nx : ℤ), ny.map fun k : ℕ => (k : ℤ), none, none, some (.num (Flt.fin rd lx)), ly.map fun l => .num (Flt.fin rd l)⟩ none flux =
        .ok (some ⟨rays, s.coordSys⟩) ∧
      (|v.x - d.x / (n * Real.sqrt (V3.dot d d))| ≤ 12 * ε * |d.x / (n * Real.sqrt (V3.dot d d))| ∧
        |v.y - d.y / (n * Real.sqrt (V3.dot d d))| ≤ 12 * ε * |d.y / (n * Real.sqrt (V3.dot d d))| ∧
        |v.z - d.z / (n * Real.sqrt (V3.dot d d))| ≤ 12 * ε * |d.z / (n * Real.sqrt (V3.dot d d))|) ∧
      List.Forall₂ (fun e ray => ∃ q : V3 ℝ, ray = ⟨q.flt rd, v.flt rd, 0, s.wavelength, flux, false, false⟩ ∧
          ∀ st, LaunchedAt d D (B.toLocal (A.toGlobal ⟨e.1, e.2, f e⟩)) st →
            nrm (q - st) ≤ 10800 * ε * reach D (B.toLocal (A.toGlobal ⟨e.1, e.2, f e⟩)) + 160 * ε * (nrm ⟨e.1, e.2, f e⟩ + nrm (B.origin - A.origin)) +
              8 * δ * nrm (B.origin - A.origin) + 12 * (24 * ε * (|e.1| + |e.2|) + σ))
        (gridSpec nx (ny.getD nx) (lx / axisCells nx, 0) (0, ly.getD lx / axisCells (ny.getD nx))) rays := by
  have h0 := h.nonneg
  have hε' : ε ≤ 1 / 1000 := by linarith
  obtain ⟨pts, ep, kp⟩ := C138_points h hε' hx hy lx (ly.getD lx)
  -- the shape of the grid
  have eg : asGrid a ⟨some (nx : ℤ), ny.map fun k : ℕ => (k : ℤ), none, none, some (.num (Flt.fin rd lx)), ly.map fun l => .num (Flt.fin rd l)⟩ none flux =
      launch s (pts.map fun p => (Flt.fin rd p.1, Flt.fin rd p.2)) (List.replicate pts.length flux) := by
    have e1 : (ny.map fun k : ℕ => (k : ℤ)).getD (nx : ℤ) = ((ny.getD nx : ℕ) : ℤ) := by cases ny <;> rfl
    have e2 : (ly.map fun l => (Ext.num (Flt.fin rd l))).getD (Ext.turn (.num (Flt.fin rd lx))) = Ext.num (Flt.fin rd (ly.getD lx)) := by cases ly <;> rfl
    unfold asGrid
    simp only [gridLength, hset, gridShape, e1, e2, bind, Except.bind, ep, flatFlux, List.length_map]
  rw [eg]
  -- the points in the frame of the rays
  have kq : ∃ q : List (V3 ℝ), List.Forall₂ (fun (p : Flt rd × Flt rd) q => (CoordTransform.make s.stop.coordSys s.coordSys).forward
        ⟨p.1, p.2, s.stop.surface.sag p.1 p.2⟩ = V3.flt rd q) (pts.map fun p => (Flt.fin rd p.1, Flt.fin rd p.2)) q ∧
      List.Forall₂ (fun (e : ℝ × ℝ) q => nrm (q - B.toLocal (A.toGlobal ⟨e.1, e.2, f e⟩)) ≤ 40 * ε * (nrm ⟨e.1, e.2, f e⟩ + nrm (B.origin - A.origin)) +
        2 * δ * nrm (B.origin - A.origin) + 3 * (24 * ε * (|e.1| + |e.2|) + σ))
        (gridSpec nx (ny.getD nx) (lx / axisCells nx, 0) (0, ly.getD lx / axisCells (ny.getD nx))) q := by
    clear ep eg
    generalize gridSpec nx (ny.getD nx) (lx / axisCells nx, 0) (0, ly.getD lx / axisCells (ny.getD nx)) = es at *
    induction kp with
    | nil => exact ⟨[], List.Forall₂.nil, List.Forall₂.nil⟩
    | @cons e p es ps k _ ih =>
      obtain ⟨qs, i1, i2⟩ := ih fun e he => hsag e (List.mem_cons_of_mem _ he)
      obtain ⟨z, hz, kz⟩ := hsag e List.mem_cons_self p.1 p.2 k.1 k.2
      obtain ⟨q, eq, kq⟩ := C111_forward h hε' nA nB hδ ⟨p.1, p.2, z⟩
      refine ⟨q :: qs, List.Forall₂.cons ?_ i1, List.Forall₂.cons ?_ i2⟩
      · simp only [hz, hA, hB]
        exact eq
      · have kd : nrm ((⟨p.1, p.2, z⟩ : V3 ℝ) - ⟨e.1, e.2, f e⟩) ≤ 24 * ε * (|e.1| + |e.2|) + σ := by
          refine (nrm_le_sum _).trans ?_
          simp only [V3.sub_x, V3.sub_y, V3.sub_z]
          linarith [k.1, k.2]
        have k1 := nrm_via q (B.toLocal (A.toGlobal ⟨p.1, p.2, z⟩)) (B.toLocal (A.toGlobal ⟨e.1, e.2, f e⟩))
        have k2 := frames_lip nA nB hδ ⟨p.1, p.2, z⟩ ⟨e.1, e.2, f e⟩
        have k3 := nrm_close ⟨p.1, p.2, z⟩ ⟨e.1, e.2, f e⟩
        have n0 := nrm_nonneg ((⟨p.1, p.2, z⟩ : V3 ℝ) - ⟨e.1, e.2, f e⟩)
        have : ε * nrm ⟨p.1, p.2, z⟩ ≤ ε * nrm ⟨e.1, e.2, f e⟩ + ε * nrm ((⟨p.1, p.2, z⟩ : V3 ℝ) - ⟨e.1, e.2, f e⟩) := by
          rw [← mul_add]; exact mul_le_mul_of_nonneg_left k3 h0
        have : ε * nrm ((⟨p.1, p.2, z⟩ : V3 ℝ) - ⟨e.1, e.2, f e⟩) ≤ 1 / 7200 * nrm ((⟨p.1, p.2, z⟩ : V3 ℝ) - ⟨e.1, e.2, f e⟩) := mul_le_mul_of_nonneg_right hε n0
        linarith
  obtain ⟨q, q1, q2⟩ := kq
  obtain ⟨v, rays, e1, kv, kf, kr⟩ := C137_launch h hε' hs hd hD hD0 hm hn hyz _ q (List.replicate pts.length flux) (by simp) q1
  refine ⟨v, rays, e1, kv, ?_⟩
  have fl : ∀ ray ∈ rays, ray.flux = flux := fun ray hr => by
    have : ray.flux ∈ rays.map (·.flux) := List.mem_map_of_mem hr
    rw [kf] at this
    exact (List.mem_replicate.1 this).2
  have hdd : 0 < V3.dot d d := by
    unfold V3.dot
    rcases hyz with k | k
    · nlinarith [mul_self_nonneg d.x, mul_self_nonneg d.z, mul_self_pos.2 k]
    · nlinarith [mul_self_nonneg d.x, mul_self_nonneg d.y, mul_self_pos.2 k]
  clear e1 kf q1 ep eg kp hsag
  generalize gridSpec nx (ny.getD nx) (lx / axisCells nx, 0) (0, ly.getD lx / axisCells (ny.getD nx)) = es at *
  induction q2 generalizing rays with
  | nil => cases kr; exact List.Forall₂.nil
  | @cons e p es ps k _ ih =>
    cases kr with
    | @cons _ ray _ rays' kr krs =>
      refine List.Forall₂.cons ?_ (ih _ krs fun r hr => fl r (List.mem_cons_of_mem _ hr))
      obtain ⟨w, ew, kw⟩ := kr
      refine ⟨w, ?_, fun st hst => ?_⟩
      · rw [ew, ← fl _ List.mem_cons_self]
      obtain ⟨m, hm'⟩ := launchedAt_exists hdd D p
      obtain ⟨w1, w2, w3⟩ := kw m hm'
      have t1 := nrm_via w m st
      have t2 := launched_lip hm' hst
      have t3 : nrm (w - m) ≤ 10800 * ε * reach D p := by
        refine (nrm_le_sum _).trans ?_
        simp only [V3.sub_x, V3.sub_y, V3.sub_z]
        linarith
      have t4 := mul_le_mul_of_nonneg_left (reach_lip D p (B.toLocal (A.toGlobal ⟨e.1, e.2, f e⟩))) h0
      have t5 : ε * nrm (p - B.toLocal (A.toGlobal ⟨e.1, e.2, f e⟩)) ≤ 1 / 7200 * nrm (p - B.toLocal (A.toGlobal ⟨e.1, e.2, f e⟩)) :=
        mul_le_mul_of_nonneg_right hε (nrm_nonneg _)
      linarith

/-- **C138.**  Every ray of `asFan(nx=, ny=, lx=, ly=)` starts next to where it should, with nearly the right velocity. -/
theorem C138_asFan (h : Rounds ε rd) (hε : ε ≤ 1 / 7200) {a : Args (Flt rd)} {s : Setup (Flt rd)} (hset : setup true a = .ok s) {d : V3 ℝ} {n D δ σ : ℝ}
    (hs : s.source = none) (hd : s.dirCos = some (d.flt rd)) (hD : s.backDist = Flt.fin rd D) (hD0 : 0 ≤ D)
    (hm : s.medium.getN s.wavelength = Flt.fin rd n) (hn : 0 < n) (hyz : d.y ≠ 0 ∨ d.z ≠ 0) {A B : CoordSys ℝ} (hA : s.stop.coordSys = A.flt rd)
    (hB : s.coordSys = B.flt rd) (nA : Nearly δ A.rot) (nB : Nearly δ B.rot) (hδ : δ ≤ 1 / 100) {nx ny : ℕ} (hne : 1 < nx ∨ 1 < ny)
    {lx : ℝ} {ly : Option ℝ} {f : ℝ × ℝ → ℝ}
    (hsag : ∀ e ∈ fanSpec nx ny (lx / axisCells nx) (ly.getD lx / axisCells ny), ∀ x y, |x - e.1| ≤ 24 * ε * |e.1| →
      |y - e.2| ≤ 24 * ε * |e.2| → SagWithin rd s.stop.surface x y (f e) σ) (flux : Flt rd) :
    ∃ rays : List (Ray (Flt rd)),
      asFan a ⟨some (nx : ℤ), some (ny : ℤ), none, none, some (.num (Flt.fin rd lx)), ly.map fun l => .num (Flt.fin rd l)⟩ flux = .ok ⟨rays, s.coordSys⟩ ∧
      List.Forall₂ (fun e ray => ∃ q v : V3 ℝ, ray = ⟨q.flt rd, v.flt rd, 0, s.wavelength, flux, false, false⟩ ∧
          (|v.x - d.x / (n * Real.sqrt (V3.dot d d))| ≤ 12 * ε * |d.x / (n * Real.sqrt (V3.dot d d))| ∧
            |v.y - d.y / (n * Real.sqrt (V3.dot d d))| ≤ 12 * ε * |d.y / (n * Real.sqrt (V3.dot d d))| ∧
            |v.z - d.z / (n * Real.sqrt (V3.dot d d))| ≤ 12 * ε * |d.z / (n * Real.sqrt (V3.dot d d))|) ∧
          ∀ st, LaunchedAt d D (B.toLocal (A.toGlobal ⟨e.1, e.2, f e⟩)) st →
            nrm (q - st) ≤ 10800 * ε * reach D (B.toLocal (A.toGlobal ⟨e.1, e.2, f e⟩)) + 160 * ε * (nrm ⟨e.1, e.2, f e⟩ + nrm (B.origin - A.origin)) +
              8 * δ * nrm (B.origin - A.origin) + 12 * (24 * ε * (|e.1| + |e.2|) + σ))
        (fanSpec nx ny (lx / axisCells nx) (ly.getD lx / axisCells ny)) rays := by
  have X : 1 < nx → _ := fun h1 : 1 < nx => by
    have e := gridSpec_row h1 (lx / axisCells nx) (ly.getD lx / axisCells 1)
    have := C138_asGrid h hε hset hs hd hD hD0 hm hn hyz hA hB nA nB hδ (nx := nx) (ny := some 1) (lx := lx) (ly := ly) (f := f) (σ := σ) (by omega) (by simp)
      (by simp only [Option.getD_some]; rw [e]; exact fun p hp => hsag p (List.mem_append_left _ hp)) flux
    simp only [Option.getD_some, e, Option.map_some, Nat.cast_one] at this
    exact this
  have Y : 1 < ny → _ := fun h2 : 1 < ny => by
    have e := gridSpec_column h2 (lx / axisCells 1) (ly.getD lx / axisCells ny)
    have := C138_asGrid h hε hset hs hd hD hD0 hm hn hyz hA hB nA nB hδ (nx := 1) (ny := some ny) (lx := lx) (ly := ly) (f := f) (σ := σ) (by omega) (by simp; omega)
      (by simp only [Option.getD_some]; rw [e]; exact fun p hp => hsag p (List.mem_append_right _ hp)) flux
    simp only [Option.getD_some, e, Option.map_some, Nat.cast_one] at this
    exact this
  clear hsag
  unfold asFan fanPart fanSpec
  by_cases h1 : 1 < nx <;> by_cases h2 : 1 < ny
  · obtain ⟨v1, r1, e1, w1, k1⟩ := X h1
    obtain ⟨v2, r2, e2, w2, k2⟩ := Y h2
    refine ⟨r1 ++ r2, ?_, List.rel_append (k1.imp fun e ray hr => ?_) (k2.imp fun e ray hr => ?_)⟩
    · simp [h1, h2, e1, e2, Except.map, bind, Except.bind, present, RayVec.concatenate, List.mapM_cons, List.mapM_nil, pure, Except.pure]
    · obtain ⟨q, eq, kq⟩ := hr
      exact ⟨q, v1, eq, w1, kq⟩
    · obtain ⟨q, eq, kq⟩ := hr
      exact ⟨q, v2, eq, w2, kq⟩
  · obtain ⟨v1, r1, e1, w1, k1⟩ := X h1
    have : lineSpec ny (ly.getD lx / axisCells ny) = [] := if_pos (by omega)
    rw [this, List.map_nil, List.append_nil]
    refine ⟨r1, ?_, k1.imp fun e ray hr => ?_⟩
    · simp [h1, h2, e1, Except.map, bind, Except.bind, present, RayVec.concatenate, List.mapM_cons, List.mapM_nil, pure, Except.pure]
    · obtain ⟨q, eq, kq⟩ := hr
      exact ⟨q, v1, eq, w1, kq⟩
  · obtain ⟨v2, r2, e2, w2, k2⟩ := Y h2
    have : lineSpec nx (lx / axisCells nx) = [] := if_pos (by omega)
    rw [this, List.map_nil, List.nil_append]
    refine ⟨r2, ?_, k2.imp fun e ray hr => ?_⟩
    · simp [h1, h2, e2, Except.map, bind, Except.bind, present, RayVec.concatenate, List.mapM_cons, List.mapM_nil, pure, Except.pure]
    · obtain ⟨q, eq, kq⟩ := hr
      exact ⟨q, v2, eq, w2, kq⟩
  · omega

/-- The setup of a plain call with direction `(1/64, 0, -1)` and a wavelength. -/
noncomputable def plainArgs : Args (Flt rd53) := { dirCos := some (V3.flt rd53 ⟨1 / 64, 0, -1⟩), wavelength := some (Flt.fin rd53 1) }

theorem plain_setup : setup true plainArgs = .ok ⟨Flt.fin rd53 40, Medium.const 1, defaultStop, CoordSys.std (Flt rd53), Flt.fin rd53 1, none,
    some (V3.flt rd53 ⟨1 / 64, 0, -1⟩)⟩ := by
  have e40 : (40 : Flt rd53) = Flt.fin rd53 40 := by
    have := Flt.ofNat_fin (rd := rd53) 40
    have r : rd53 ((40 : ℕ) : ℝ) = 40 := by exact_mod_cast rd53_nat 40 (by norm_num)
    rw [r] at this
    exact this
  simp only [setup, plainArgs, fromOptic, pickDirection, bind, Except.bind, Option.getD_none, if_true, e40]
  rfl

theorem std_flt53 : CoordSys.std (Flt rd53) = (CoordSys.std ℝ).flt rd53 := by
  simp only [CoordSys.std, CoordSys.flt, V3.flt, V3.map, M3.flt, M3.map, flt_zero rd53_rounds, flt_one, rd53_one]

/-- A grid of 101 by 101 rays, ten meters wide, in double precision: every ray starts within a nanometer of where it should. -/
example (flux : Flt rd53) : ∃ (v : V3 ℝ) (rays : List (Ray (Flt rd53))),
    asGrid plainArgs ⟨some 101, none, none, none, some (.num (Flt.fin rd53 10)), none⟩ none flux = .ok (some ⟨rays, CoordSys.std (Flt rd53)⟩) ∧
      List.Forall₂ (fun e ray => ∃ q : V3 ℝ, ray = ⟨q.flt rd53, v.flt rd53, 0, Flt.fin rd53 1, flux, false, false⟩ ∧
          ∀ st, LaunchedAt ⟨1 / 64, 0, -1⟩ 40 ⟨e.1, e.2, 0⟩ st → nrm (q - st) ≤ 1 / 10 ^ 9) (gridSpec 101 101 (10 / 100, 0) (0, 10 / 100)) rays := by
  have o : (CoordSys.std ℝ).rot.Orth := M3.orth_one
  have n0 : Nearly 0 (CoordSys.std ℝ).rot := nearly_of_orth o
  have one : (Medium.const (1 : Flt rd53)).getN (Flt.fin rd53 1) = Flt.fin rd53 1 := by
    show (1 : Flt rd53) = _
    rw [flt_one, rd53_one]
  obtain ⟨v, rays, e, -, k⟩ := C138_asGrid (f := fun _ => 0) (σ := 0) (nx := 101) (ny := none) (lx := 10) (ly := none) rd53_rounds (by norm_num) plain_setup rfl rfl rfl
    (by norm_num) one one_pos (Or.inr (by norm_num)) std_flt53 std_flt53 n0 n0 (by norm_num) (by norm_num) (by norm_num)
    (fun e _ x y _ _ => ⟨0, by show (0 : Flt rd53) = _; rw [flt_zero rd53_rounds], by simp⟩) flux
  refine ⟨v, rays, e, ?_⟩
  have ac : axisCells 101 = 100 := rfl
  simp only [Option.getD_none, ac, Nat.cast_ofNat] at k
  rw [List.forall₂_iff_get] at k ⊢
  refine ⟨k.1, fun i h1 h2 => ?_⟩
  obtain ⟨q, eq, kq⟩ := k.2 i h1 h2
  refine ⟨q, eq, fun st hst => ?_⟩
  have mem := List.get_mem (gridSpec 101 101 (10 / 100, 0) (0, 10 / 100)) ⟨i, h1⟩
  generalize (gridSpec 101 101 (10 / 100, 0) (0, 10 / 100)).get ⟨i, h1⟩ = p at *
  have idm : (CoordSys.std ℝ).toLocal ((CoordSys.std ℝ).toGlobal ⟨p.1, p.2, 0⟩) = ⟨p.1, p.2, 0⟩ := by
    ext <;> simp [CoordSys.toLocal, CoordSys.toGlobal, CoordSys.std, M3.mulVec, M3.tr]
  rw [idm] at kq
  refine (kq st hst).trans ?_
  have sm : |p.1| ≤ 5 ∧ |p.2| ≤ 5 := by
    unfold gridSpec at mem
    simp only [List.mem_flatMap, List.mem_map, List.mem_range] at mem
    obtain ⟨j, hj, i, hi, rfl⟩ := mem
    have hi' : (i : ℝ) ≤ 100 := by exact_mod_cast Nat.lt_succ_iff.1 hi
    have hj' : (j : ℝ) ≤ 100 := by exact_mod_cast Nat.lt_succ_iff.1 hj
    have i0 : (0 : ℝ) ≤ i := Nat.cast_nonneg i
    have j0 : (0 : ℝ) ≤ j := Nat.cast_nonneg j
    have b1 : |(i : ℝ) - 50| ≤ 50 := abs_le.2 ⟨by linarith, by linarith⟩
    have b2 : |(j : ℝ) - 50| ≤ 50 := abs_le.2 ⟨by linarith, by linarith⟩
    norm_num
    constructor <;> linarith
  have z : nrm ((CoordSys.std ℝ).origin - (CoordSys.std ℝ).origin) = 0 := by simp [nrm, V3.normSq, V3.dot, CoordSys.std]
  have nb := nrm_le_sum ⟨p.1, p.2, 0⟩
  simp only [reach, abs_zero] at nb ⊢
  rw [z]
  have nb2 : nrm ⟨p.1, p.2, 0⟩ ≤ 10 := by linarith [sm.1, sm.2]
  norm_num
  linarith [sm.1, sm.2]

/-- A fan of seven and five rays, ten meters wide, in double precision. -/
example (flux : Flt rd53) : ∃ rays : List (Ray (Flt rd53)),
    asFan plainArgs ⟨some 7, some 5, none, none, some (.num (Flt.fin rd53 10)), none⟩ flux = .ok ⟨rays, CoordSys.std (Flt rd53)⟩ ∧ rays.length = 12 := by
  have n0 : Nearly 0 (CoordSys.std ℝ).rot := nearly_of_orth M3.orth_one
  have one : (Medium.const (1 : Flt rd53)).getN (Flt.fin rd53 1) = Flt.fin rd53 1 := by
    show (1 : Flt rd53) = _
    rw [flt_one, rd53_one]
  obtain ⟨rays, e, k⟩ := C138_asFan (f := fun _ => 0) (σ := 0) (nx := 7) (ny := 5) (lx := 10) (ly := none) rd53_rounds (by norm_num) plain_setup rfl rfl rfl
    (by norm_num) one one_pos (Or.inr (by norm_num)) std_flt53 std_flt53 n0 n0 (by norm_num) (by norm_num)
    (fun e _ x y _ _ => ⟨0, by show (0 : Flt rd53) = _; rw [flt_zero rd53_rounds], by simp⟩) flux
  refine ⟨rays, e, ?_⟩
  rw [← k.length_eq]
  simp [fanSpec, lineSpec_length]

end results

end Batoid.Props
