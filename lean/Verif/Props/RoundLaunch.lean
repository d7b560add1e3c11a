import Verif.Construct
import Verif.Props.RoundSag
import Verif.Props.RoundPhase
import Verif.Props.RoundField

/-!
# Property C137: plane waves start where they should, in arithmetic with rounding

C43 says that in exact arithmetic the constructors make a plane wave through the points of the stop, starting from a plane at the back distance.  Here:
how far rounding moves the rays.
-/

namespace Batoid.Props
open Batoid Batoid.Construct

section spec

/-- A ray of direction `d` through `p` starts at `q`: on the plane perpendicular to `d`, the distance `D` in front of the origin. -/
def LaunchedAt (d : V3 ℝ) (D : ℝ) (p q : V3 ℝ) : Prop := (∃ τ, p = q + d.smulR τ) ∧ V3.dot q d = -D * Real.sqrt (V3.dot d d)

/-- How far the point and the start are away, which is what rounding errors are compared with. -/
noncomputable def reach (D : ℝ) (p : V3 ℝ) : ℝ := |p.x| + |p.y| + |p.z| + 2 * D

end spec

section lemmas
variable {ε : ℝ} {rd : ℝ → ℝ}

/-- The velocity. -/
theorem velocity_near (h : Rounds ε rd) (hε : ε < 1) {d : V3 ℝ} {n : ℝ} (hd : 0 < V3.dot d d) (hn : 0 < n) :
    ∃ v : V3 ℝ, velocity (d.flt rd) (Flt.fin rd n) = v.flt rd ∧ Rel ε 6 v.x (d.x / (n * Real.sqrt (V3.dot d d))) ∧
      Rel ε 6 v.y (d.y / (n * Real.sqrt (V3.dot d d))) ∧ Rel ε 6 v.z (d.z / (n * Real.sqrt (V3.dot d d))) := by
  have h0 := h.nonneg
  have s1 := h.after hε (((h.rel hε (d.x * d.x))).add hε (h.rel hε (d.y * d.y)) (mul_self_nonneg _) (mul_self_nonneg _))
  have s2 := h.after hε (s1.add hε ((h.rel hε (d.z * d.z)).mono h0 hε (by norm_num : 1 ≤ 1 + 1)) (add_nonneg (mul_self_nonneg _) (mul_self_nonneg _)) (mul_self_nonneg _))
  have s3 := h.after hε ((Rel.refl n).mul hε (h.after hε (s2.sqrt h0 hε hd.le)))
  have hs : 0 < n * Real.sqrt (V3.dot d d) := mul_pos hn (Real.sqrt_pos.2 hd)
  have hne := s3.ne hε hs.ne'
  have hnn := s2.nonneg hε hd.le
  refine ⟨⟨_, _, _⟩, ?_, h.after hε ((Rel.refl d.x).div hε s3), h.after hε ((Rel.refl d.y).div hε s3), h.after hε ((Rel.refl d.z).div hε s3)⟩
  simp only [velocity, V3.dot, V3.flt, V3.map, Flt.mul_fin, Flt.add_fin, Flt.sqrt_fin hnn, Flt.div_fin hne]

/-- The frame from which the rays start; its axes are `(0, -a, b)`, `(-s, b c, a c)`, `(c, b s, a s)`. -/
theorem launchFrame_near (h : Rounds ε rd) (hε : ε < 1) {v : V3 ℝ} {n D a b c s : ℝ} (hn : 0 < n) (hs : 0 < s) (hab : a * a + b * b = 1)
    (hx : Rel ε 6 v.x (-c / n)) (hy : Rel ε 6 v.y (-(b * s) / n)) (hz : Rel ε 6 v.z (-(a * s) / n)) :
    ∃ f : CoordSys ℝ, launchFrame (v.flt rd) (Flt.fin rd n) (Flt.fin rd D) = f.flt rd ∧
      (Rel ε 8 f.origin.x (c * D) ∧ Rel ε 8 f.origin.y (b * s * D) ∧ Rel ε 8 f.origin.z (a * s * D)) ∧
      (f.rot.m11 = 0 ∧ Rel ε 44 f.rot.m21 (-a) ∧ Rel ε 44 f.rot.m31 b) ∧
      (Rel ε 44 f.rot.m12 (-s) ∧ Rel ε 44 f.rot.m22 (b * c) ∧ Rel ε 44 f.rot.m32 (a * c)) ∧
      (Rel ε 7 f.rot.m13 c ∧ Rel ε 7 f.rot.m23 (b * s) ∧ Rel ε 7 f.rot.m33 (a * s)) := by
  have h0 := h.nonneg
  have z0 : rd 0 = 0 := h.zero
  have back : ∀ {w t : ℝ}, Rel ε 6 w (-t / n) → Rel ε 7 (rd (-n * w)) t := fun {w t} r => by
    have := h.after hε ((Rel.refl (-n)).mul hε r)
    rwa [show -n * (-t / n) = t by field_simp] at this
  have wx := back hx
  have wy := back hy
  have wz := back hz
  generalize e1 : rd (-n * v.x) = x at wx
  generalize e2 : rd (-n * v.y) = y at wy
  generalize e3 : rd (-n * v.z) = z at wz
  -- the cross product with the x axis
  have cy : Rel ε 10 (rd (0 - rd (rd 1 * z))) (-(a * s)) := by
    have := h.after hε ((h.after hε ((h.rel hε 1).mul hε wz)).neg)
    rw [one_mul] at this
    rw [zero_sub]
    exact this
  have cz : Rel ε 10 (rd (rd (rd 1 * y) - 0)) (b * s) := by
    have := h.after hε (h.after hε ((h.rel hε 1).mul hε wy))
    rw [one_mul] at this
    rw [sub_zero]
    exact this
  generalize e4 : rd (0 - rd (rd 1 * z)) = p at cy
  generalize e5 : rd (rd (rd 1 * y) - 0) = q at cz
  have q1 := h.after hε (h.after hε (cy.mul hε cy))
  have q2 := h.after hε (cz.mul hε cz)
  have q3 := h.after hε (q1.add hε (q2.mono h0 hε (by norm_num : _ ≤ 10 + 10 + 1 + 1)) (mul_self_nonneg _) (mul_self_nonneg _))
  have qs : -(a * s) * -(a * s) + b * s * (b * s) = s * s := by linear_combination s * s * hab
  rw [qs] at q3
  have q4 := h.after hε (q3.sqrt h0 hε (mul_self_nonneg s))
  rw [Real.sqrt_mul_self hs.le] at q4
  have qnn := q3.nonneg hε (mul_self_nonneg s)
  have lne := q4.ne hε hs.ne'
  have xy := h.after hε (cy.div hε q4)
  have xz := h.after hε (cz.div hε q4)
  rw [show -(a * s) / s = -a by field_simp] at xy
  rw [show b * s / s = b by field_simp] at xz
  generalize e6 : rd (Real.sqrt (rd (rd (rd (p * p)) + rd (q * q)))) = l at *
  generalize e7 : rd (p / l) = X at xy
  generalize e8 : rd (q / l) = Y at xz
  have y1 : Rel ε 44 (rd (rd (X * z) - rd (Y * y))) (-s) := by
    have t1 := (h.after hε (xy.mul hε wz)).neg
    have t2 := h.after hε (xz.mul hε wy)
    have := (h.after hε ((t1.add hε t2 (by nlinarith [mul_self_nonneg a]) (by nlinarith [mul_self_nonneg b])).neg))
    rw [show -(-(-a * (a * s)) + b * (b * s)) = -s by linear_combination -s * hab, show -(-rd (X * z) + rd (Y * y)) = rd (X * z) - rd (Y * y) by ring] at this
    exact this
  have y2 : Rel ε 44 (rd (rd (Y * x) - 0)) (b * c) := by
    rw [sub_zero]
    exact h.after hε (h.after hε (xz.mul hε wx))
  have y3 : Rel ε 44 (rd (0 - rd (X * x))) (a * c) := by
    rw [zero_sub]
    have := h.after hε ((h.after hε (xy.mul hε wx)).neg)
    rwa [show -(-a * c) = a * c by ring] at this
  refine ⟨⟨⟨rd (x * D), rd (y * D), rd (z * D)⟩, ⟨0, _, x, X, _, y, Y, _, z⟩⟩, ?_, ⟨h.after hε (wx.mul hε (Rel.refl D)),
    h.after hε (wy.mul hε (Rel.refl D)), h.after hε (wz.mul hε (Rel.refl D))⟩, ⟨rfl, xy.mono h0 hε (by norm_num), xz.mono h0 hε (by norm_num)⟩, ⟨y1, y2, y3⟩, ⟨wx, wy, wz⟩⟩
  have el : rd (Real.sqrt (rd (rd (0 + rd (p * p)) + rd (q * q)))) = l := by rw [zero_add]; exact e6
  have qnn' : 0 ≤ rd (rd (0 + rd (p * p)) + rd (q * q)) := by rw [zero_add]; exact qnn
  simp only [launchFrame, V3.smul, V3.smulR, V3.cross, normalise, V3.dot, V3.flt, V3.map, CoordSys.flt, M3.flt, M3.map, flt_zero h, flt_one, Flt.neg_fin, Flt.mul_fin,
    e1, e2, e3, zero_mul, mul_zero, z0, Flt.sub_fin, sub_self, e4, e5, Flt.add_fin, Flt.sqrt_fin qnn', el, Flt.div_fin lne, zero_div, e7, e8]

/-- `finishParallel` with such a frame. -/
theorem finish_near (h : Rounds ε rd) (hε : ε ≤ 1 / 1000) {v : V3 ℝ} {n D a b c s : ℝ} (hn : 0 < n) (hD : 0 ≤ D) (hab : a * a + b * b = 1)
    (hcs : s * s + c * c = 1) (hx : Rel ε 6 v.x (-c / n)) (hy : Rel ε 6 v.y (-(b * s) / n)) (hz : Rel ε 6 v.z (-(a * s) / n)) {f : CoordSys ℝ}
    (ho : Rel ε 8 f.origin.x (c * D) ∧ Rel ε 8 f.origin.y (b * s * D) ∧ Rel ε 8 f.origin.z (a * s * D))
    (hX : f.rot.m11 = 0 ∧ Rel ε 44 f.rot.m21 (-a) ∧ Rel ε 44 f.rot.m31 b)
    (hY : Rel ε 44 f.rot.m12 (-s) ∧ Rel ε 44 f.rot.m22 (b * c) ∧ Rel ε 44 f.rot.m32 (a * c))
    (hZ : Rel ε 7 f.rot.m13 c ∧ Rel ε 7 f.rot.m23 (b * s) ∧ Rel ε 7 f.rot.m33 (a * s)) (r : V3 ℝ) :
    ∃ q : V3 ℝ, finishParallel (f.flt rd) (v.flt rd) (r.flt rd) = q.flt rd ∧
      |q.x - (r.x - c * (r.x * c + r.y * (b * s) + r.z * (a * s)) + c * D)| ≤ 3600 * ε * reach D r ∧
      |q.y - (r.y - b * s * (r.x * c + r.y * (b * s) + r.z * (a * s)) + b * s * D)| ≤ 3600 * ε * reach D r ∧
      |q.z - (r.z - a * s * (r.x * c + r.y * (b * s) + r.z * (a * s)) + a * s * D)| ≤ 3600 * ε * reach D r := by
  have h0 := h.nonneg
  have hl : ε < 1 := by linarith
  have le1 : ∀ {t w : ℝ}, t * t + w * w = 1 → |t| ≤ 1 := fun {t w} e => abs_le_one_iff_mul_self_le_one.2 (by nlinarith [mul_self_nonneg w])
  have a1 : |a| ≤ 1 := le1 hab
  have b1 : |b| ≤ 1 := le1 (by linarith : b * b + a * a = 1)
  have s1 : |s| ≤ 1 := le1 hcs
  have c1 : |c| ≤ 1 := le1 (by linarith : c * c + s * s = 1)
  have prod : ∀ {t w : ℝ}, |t| ≤ 1 → |w| ≤ 1 → |t * w| ≤ 1 := fun {t w} p q => by rw [abs_mul]; exact mul_le_one₀ p (abs_nonneg _) q
  have unit : c ^ 2 + (b * s) ^ 2 + (a * s) ^ 2 = 1 := by linear_combination hcs + s * s * hab
  have sum2 : |c| + |b * s| + |a * s| ≤ 2 := by
    rw [← sq_abs c, ← sq_abs (b * s), ← sq_abs (a * s)] at unit
    nlinarith [sq_nonneg (|c| - |b * s|), sq_nonneg (|c| - |a * s|), sq_nonneg (|b * s| - |a * s|), abs_nonneg c, abs_nonneg (b * s), abs_nonneg (a * s)]
  obtain ⟨⟨ox, oy, oz⟩, ⟨m11, m12, m13, m21, m22, m23, m31, m32, m33⟩⟩ := f
  obtain ⟨vx, vy, vz⟩ := v
  obtain ⟨rx, ry, rz⟩ := r
  simp only at *
  obtain ⟨o1, o2, o3⟩ := ho
  obtain ⟨rfl, x2, x3⟩ := hX
  obtain ⟨y1, y2, y3⟩ := hY
  obtain ⟨z1, z2, z3⟩ := hZ
  have n1 : 0 < 1 / n := by positivity
  -- the direction in the frame
  have ent : ∀ {t w : ℝ} {k : ℕ}, Rel ε k t w → k ≤ 44 → |w| ≤ 1 → Err ε 44 t w 1 := fun r hk hw => ((r.err h0 hl).mono h0 hl hk).larger h0 hl hw
  have X1 : Err ε 44 0 0 1 := ent (Rel.refl 0) (by norm_num) (by simp)
  have X2 := ent x2 le_rfl (by rwa [abs_neg])
  have X3 := ent x3 le_rfl b1
  have Y1 := ent y1 le_rfl (by rwa [abs_neg])
  have Y2 := ent y2 le_rfl (prod b1 c1)
  have Y3 := ent y3 le_rfl (prod a1 c1)
  have Z1 := ent z1 (by norm_num) c1
  have Z2 := ent z2 (by norm_num) (prod b1 s1)
  have Z3 := ent z3 (by norm_num) (prod a1 s1)
  have V : ∀ {w t : ℝ}, Rel ε 6 w (-t / n) → Err ε 6 w (-t / n) (|t| * (1 / n)) := fun {w t} r => by
    have := r.err h0 hl
    rw [abs_div, abs_neg, abs_of_pos hn] at this
    rw [← div_eq_mul_one_div]
    exact this
  have along : ∀ {t1 t2 t3 e1 e2 e3 : ℝ}, Err ε 44 t1 e1 1 → Err ε 44 t2 e2 1 → Err ε 44 t3 e3 1 → c * e1 + b * s * e2 + a * s * e3 = 0 →
      Err ε 53 (rd (rd (rd (-vx * t1) - rd (vy * t2)) - rd (vz * t3))) 0 (2 * (1 / n)) := by
    intro t1 t2 t3 e1 e2 e3 p1 p2 p3 e
    have := h.errSub hl (h.errSub hl (h.errMul hl (V hx).neg p1) (h.errMul hl (V hy) p2)) ((h.errMul hl (V hz) p3).mono h0 hl (by norm_num : _ ≤ 6 + 44 + 1 + 1))
    refine (this.congr ?_).larger h0 hl ?_
    · field_simp
      linear_combination e
    · have := mul_le_mul_of_nonneg_right sum2 n1.le
      linarith
  have lx := along X1 X2 X3 (by ring)
  have ly := along Y1 Y2 Y3 (by linear_combination c * s * hab)
  have lz : Rel ε 16 (rd (rd (rd (-vx * m13) - rd (vy * m23)) - rd (vz * m33))) (1 / n) := by
    have t1 := h.after hl (hx.neg.mul hl z1)
    have t2 := (h.after hl (hy.mul hl z2)).neg
    have t3 := (h.after hl (hz.mul hl z3)).neg
    have k1 : 0 ≤ -(-c / n) * c := by rw [neg_div, neg_neg, div_mul_eq_mul_div]; exact div_nonneg (mul_self_nonneg c) hn.le
    have k2 : ∀ t : ℝ, 0 ≤ -(-t / n * t) := fun t => by rw [neg_div, neg_mul, neg_neg, div_mul_eq_mul_div]; exact div_nonneg (mul_self_nonneg t) hn.le
    have := h.after hl ((h.after hl (t1.add hl t2 k1 (k2 _))).add hl (t3.mono h0 hl (by norm_num : _ ≤ 6 + 7 + 1 + 1)) (add_nonneg k1 (k2 _)) (k2 _))
    rw [← sub_eq_add_neg, ← sub_eq_add_neg] at this
    convert this using 1
    field_simp
    linear_combination -unit
  have lze : Err ε 53 (rd (rd (rd (-vx * m13) - rd (vy * m23)) - rd (vz * m33))) (1 / n) (2 * (1 / n)) :=
    ((lz.err h0 hl).mono h0 hl (by norm_num)).larger h0 hl (by rw [abs_of_pos n1]; linarith)
  have lzne := lz.ne hl n1.ne'
  generalize e1 : rd (rd (rd (-vx * 0) - rd (vy * m21)) - rd (vz * m31)) = l1 at lx
  generalize e2 : rd (rd (rd (-vx * m12) - rd (vy * m22)) - rd (vz * m32)) = l2 at ly
  generalize e3 : rd (rd (rd (-vx * m13) - rd (vy * m23)) - rd (vz * m33)) = l3 at lz lze lzne
  -- the point in the frame
  have O : ∀ {w t : ℝ}, Rel ε 8 w (t * D) → Err ε 8 w (t * D) (|t| * D) := fun {w t} r => by
    have := r.err h0 hl
    rwa [abs_mul, abs_of_nonneg hD] at this
  have d1 : Err ε 9 (rd (rx - ox)) (rx - c * D) (|rx| + |c| * D) := h.errSub hl ((Err.exact rx).mono h0 hl (by norm_num : 0 ≤ 8)) (O o1)
  have d2 : Err ε 9 (rd (ry - oy)) (ry - b * s * D) (|ry| + |b * s| * D) := h.errSub hl ((Err.exact ry).mono h0 hl (by norm_num : 0 ≤ 8)) (O o2)
  have d3 : Err ε 9 (rd (rz - oz)) (rz - a * s * D) (|rz| + |a * s| * D) := h.errSub hl ((Err.exact rz).mono h0 hl (by norm_num : 0 ≤ 8)) (O o3)
  generalize e4 : rd (rx - ox) = g1 at d1
  generalize e5 : rd (ry - oy) = g2 at d2
  generalize e6 : rd (rz - oz) = g3 at d3
  have S0 : |rx| + |c| * D + (|ry| + |b * s| * D) + (|rz| + |a * s| * D) ≤ reach D ⟨rx, ry, rz⟩ := by
    have := mul_le_mul_of_nonneg_right sum2 hD
    simp only [reach]
    linarith
  have loc : ∀ {t1 t2 t3 e1 e2 e3 : ℝ}, Err ε 44 t1 e1 1 → Err ε 44 t2 e2 1 → Err ε 44 t3 e3 1 →
      Err ε 56 (rd (rd (rd (g1 * t1) + rd (g2 * t2)) + rd (g3 * t3))) ((rx - c * D) * e1 + (ry - b * s * D) * e2 + (rz - a * s * D) * e3) (reach D ⟨rx, ry, rz⟩) := by
    intro t1 t2 t3 e1 e2 e3 p1 p2 p3
    have := h.errAdd hl (h.errAdd hl (h.errMul hl d1 p1) (h.errMul hl d2 p2)) ((h.errMul hl d3 p3).mono h0 hl (by norm_num : _ ≤ 9 + 44 + 1 + 1))
    exact this.larger h0 hl (by simpa only [mul_one] using S0)
  have px := loc X1 X2 X3
  have py := loc Y1 Y2 Y3
  have pz := loc Z1 Z2 Z3
  have S1 : 0 ≤ reach D ⟨rx, ry, rz⟩ := px.M0
  have D1 : D ≤ reach D ⟨rx, ry, rz⟩ := by
    simp only [reach]
    linarith [abs_nonneg rx, abs_nonneg ry, abs_nonneg rz]
  generalize reach D ⟨rx, ry, rz⟩ = S at *
  generalize e7 : rd (rd (rd (g1 * 0) + rd (g2 * m21)) + rd (g3 * m31)) = p1 at px
  generalize e8 : rd (rd (rd (g1 * m12) + rd (g2 * m22)) + rd (g3 * m32)) = p2 at py
  generalize e9 : rd (rd (rd (g1 * m13) + rd (g2 * m23)) + rd (g3 * m33)) = p3 at pz
  have dt : Err ε 73 _ _ _ := h.errDiv hl pz.neg lz
  rw [abs_of_pos n1] at dt
  generalize e10 : rd (-p3 / l3) = t at dt
  have Q : ∀ {P p L l : ℝ}, Err ε 56 p P S → Err ε 53 l L (2 * (1 / n)) →
      Err ε 128 (rd (p + rd (t * l))) (P + -((rx - c * D) * c + (ry - b * s * D) * (b * s) + (rz - a * s * D) * (a * s)) / (1 / n) * L) (3 * S) := by
    intro P p L l hp hL
    have k : Err ε 127 _ _ _ := h.errMul hl dt hL
    have : Err ε 128 _ _ _ := h.errAdd hl (hp.mono h0 hl (by norm_num : 56 ≤ 127)) k
    refine this.larger h0 hl (le_of_eq ?_)
    field_simp
    ring
  have qx := (Q px lx).congr (show _ = (rx - c * D) * 0 + (ry - b * s * D) * -a + (rz - a * s * D) * b by ring)
  have qy := (Q py ly).congr (show _ = (rx - c * D) * -s + (ry - b * s * D) * (b * c) + (rz - a * s * D) * (a * c) by ring)
  have qz := (Q pz lze).congr (show _ = 0 by field_simp; ring)
  generalize e11 : rd (p1 + rd (t * l1)) = q1 at qx
  generalize e12 : rd (p2 + rd (t * l2)) = q2 at qy
  generalize e13 : rd (p3 + rd (t * l3)) = q3 at qz
  have fin : ∀ {t1 t2 t3 e1 e2 e3 o w T : ℝ}, Err ε 44 t1 e1 1 → Err ε 44 t2 e2 1 → Err ε 44 t3 e3 1 → Rel ε 8 o (w * D) → |w| ≤ 1 →
      ((rx - c * D) * 0 + (ry - b * s * D) * -a + (rz - a * s * D) * b) * e1 + ((rx - c * D) * -s + (ry - b * s * D) * (b * c) + (rz - a * s * D) * (a * c)) * e2 + 0 * e3 + w * D = T →
      |rd (rd (rd (rd (q1 * t1) + rd (q2 * t2)) + rd (q3 * t3)) + o) - T| ≤ 3600 * ε * S := by
    intro t1 t2 t3 e1 e2 e3 o w T k1 k2 k3 ho hw e
    have g1 : Err ε 173 _ _ _ := h.errMul hl qx k1
    have g2 : Err ε 173 _ _ _ := h.errMul hl qy k2
    have g3 : Err ε 173 _ _ _ := h.errMul hl qz k3
    have g4 : Err ε 174 _ _ _ := h.errAdd hl g1 g2
    have f1 : Err ε 175 _ _ _ := h.errAdd hl g4 (g3.mono h0 hl (by norm_num : 173 ≤ 174))
    have f2 : Err ε 176 _ T _ := (h.errAdd hl f1 ((O ho).mono h0 hl (by norm_num : 8 ≤ 175))).congr e
    have f3 : Err ε 176 _ T (10 * S) := f2.larger h0 hl (by
      have := mul_le_mul_of_nonneg_right hw hD
      linarith)
    have := f3.close h0 hl 352 (by norm_num) (by linarith)
    have := mul_nonneg h0 S1
    linarith
  have E1 : s * s + c * c - 1 = 0 := by linarith
  have E2 : a * a + b * b - 1 = 0 := by linarith
  refine ⟨⟨_, _, _⟩, ?_, fin X1 Y1 Z1 o1 c1 ?_, fin X2 Y2 Z2 o2 (prod b1 s1) ?_, fin X3 Y3 Z3 o3 (prod a1 s1) ?_⟩
  · simp only [finishParallel, V3.flt, V3.map, CoordSys.flt, M3.flt, M3.map, V3.sub_x, V3.sub_y, V3.sub_z, Flt.neg_fin, Flt.mul_fin, Flt.sub_fin, Flt.add_fin,
      e1, e2, e3, e4, e5, e6, e7, e8, e9, Flt.div_fin lzne, e10, e11, e12, e13]
  · linear_combination rx * E1 + D * s ^ 2 * c * E2
  · linear_combination (ry * b ^ 2 + rz * a * b) * E1 + (ry - D * b * c ^ 2 * s) * E2
  · linear_combination (rz * a ^ 2 + ry * a * b) * E1 + (rz - D * a * c ^ 2 * s) * E2

end lemmas

section results
variable {ε : ℝ} {rd : ℝ → ℝ}

/-- **C137.**  All rays of a plane wave get the same velocity, which is right to a dozen roundings, and start next to where they should. -/
theorem C137_finish (h : Rounds ε rd) (hε : ε ≤ 1 / 1000) {s : Setup (Flt rd)} {d : V3 ℝ} {n D : ℝ} (hs : s.source = none) (hd : s.dirCos = some (d.flt rd))
    (hD : s.backDist = Flt.fin rd D) (hD0 : 0 ≤ D) (hn : 0 < n) (hyz : d.y ≠ 0 ∨ d.z ≠ 0) (pts : List (V3 ℝ)) (flux : List (Flt rd))
    (hlen : flux.length = pts.length) :
    ∃ (v : V3 ℝ) (rays : List (Ray (Flt rd))), finish s (Flt.fin rd n) (pts.map (V3.flt rd)) flux = .ok (some ⟨rays, s.coordSys⟩) ∧
      (|v.x - d.x / (n * Real.sqrt (V3.dot d d))| ≤ 12 * ε * |d.x / (n * Real.sqrt (V3.dot d d))| ∧
        |v.y - d.y / (n * Real.sqrt (V3.dot d d))| ≤ 12 * ε * |d.y / (n * Real.sqrt (V3.dot d d))| ∧
        |v.z - d.z / (n * Real.sqrt (V3.dot d d))| ≤ 12 * ε * |d.z / (n * Real.sqrt (V3.dot d d))|) ∧
      rays.map (·.flux) = flux ∧
      List.Forall₂ (fun p ray => ∃ q : V3 ℝ, ray = ⟨q.flt rd, v.flt rd, 0, s.wavelength, ray.flux, false, false⟩ ∧
        ∀ e, LaunchedAt d D p e → |q.x - e.x| ≤ 3600 * ε * reach D p ∧ |q.y - e.y| ≤ 3600 * ε * reach D p ∧ |q.z - e.z| ≤ 3600 * ε * reach D p) pts rays := by
  have h0 := h.nonneg
  have hl : ε < 1 := by linarith
  have hdd : 0 < V3.dot d d := by
    unfold V3.dot
    rcases hyz with k | k
    · nlinarith [mul_self_nonneg d.x, mul_self_nonneg d.z, mul_self_pos.2 k]
    · nlinarith [mul_self_nonneg d.x, mul_self_nonneg d.y, mul_self_pos.2 k]
  obtain ⟨v, ev, rx, ry, rz⟩ := velocity_near h hl hdd hn
  have hL := Real.sqrt_pos.2 hdd
  have hLL := Real.mul_self_sqrt hdd.le
  generalize eL : Real.sqrt (V3.dot d d) = L at *
  -- the axes
  have hyz' : 0 < d.y * d.y + d.z * d.z := by
    rcases hyz with k | k
    · nlinarith [mul_self_nonneg d.z, mul_self_pos.2 k]
    · nlinarith [mul_self_nonneg d.y, mul_self_pos.2 k]
  have hg := Real.sqrt_pos.2 hyz'
  have hgg := Real.mul_self_sqrt hyz'.le
  generalize Real.sqrt (d.y * d.y + d.z * d.z) = g at *
  obtain ⟨a, ha⟩ : ∃ a, a = -d.z / g := ⟨_, rfl⟩
  obtain ⟨b, hb⟩ : ∃ b, b = -d.y / g := ⟨_, rfl⟩
  obtain ⟨c, hc⟩ : ∃ c, c = -d.x / L := ⟨_, rfl⟩
  obtain ⟨σ, hσ⟩ : ∃ σ, σ = g / L := ⟨_, rfl⟩
  have hσ0 : 0 < σ := by rw [hσ]; positivity
  have dx : d.x = -c * L := by rw [hc]; field_simp
  have dy : d.y = -(b * σ) * L := by rw [hb, hσ]; field_simp
  have dz : d.z = -(a * σ) * L := by rw [ha, hσ]; field_simp
  have hab : a * a + b * b = 1 := by
    rw [ha, hb]
    field_simp
    linarith
  have hcs : σ * σ + c * c = 1 := by
    rw [hσ, hc]
    field_simp
    unfold V3.dot at hLL
    linarith
  have near : ∀ {w t : ℝ}, Rel ε 6 w t → |w - t| ≤ 12 * ε * |t| := fun r => r.near h0 hl 12 (by norm_num) (by linarith)
  have vx : Rel ε 6 v.x (-c / n) := by convert rx using 1; rw [dx]; field_simp
  have vy : Rel ε 6 v.y (-(b * σ) / n) := by convert ry using 1; rw [dy]; field_simp
  have vz : Rel ε 6 v.z (-(a * σ) / n) := by convert rz using 1; rw [dz]; field_simp
  obtain ⟨f, ef, fo, fX, fY, fZ⟩ := launchFrame_near h hl (D := D) hn hσ0 hab vx vy vz
  refine ⟨v, List.zipWith (fun r fl => ⟨finishParallel (f.flt rd) (v.flt rd) r, v.flt rd, 0, s.wavelength, fl, false, false⟩) (pts.map (V3.flt rd)) flux, ?_,
    ⟨near rx, near ry, near rz⟩, ?_, ?_⟩
  · simp only [finish, hs, hd, ev, hD, ef]
  · rw [List.map_zipWith]
    clear hd
    induction pts generalizing flux with
    | nil => simp at hlen; simp [hlen]
    | cons p ps ih => cases flux with
      | nil => simp at hlen
      | cons x xs => simp only [List.map_cons, List.zipWith_cons_cons]; rw [ih xs (by simpa using hlen)]
  · clear hd
    induction pts generalizing flux with
    | nil => simp
    | cons p ps ih => cases flux with
      | nil => simp at hlen
      | cons x xs =>
        simp only [List.map_cons, List.zipWith_cons_cons]
        refine List.Forall₂.cons ?_ (ih xs (by simpa using hlen))
        obtain ⟨q, eq, k1, k2, k3⟩ := finish_near h hε hn hD0 hab hcs vx vy vz fo fX fY fZ p
        refine ⟨q, by rw [eq], fun e he => ?_⟩
        obtain ⟨⟨τ, hτ⟩, hp⟩ := he
        have t1 : p.x = e.x + d.x * τ := by rw [hτ]; rfl
        have t2 : p.y = e.y + d.y * τ := by rw [hτ]; rfl
        have t3 : p.z = e.z + d.z * τ := by rw [hτ]; rfl
        have hp' : e.x * d.x + e.y * d.y + e.z * d.z = -D * L := by rw [← eL]; exact hp
        have unit : c ^ 2 + (b * σ) ^ 2 + (a * σ) ^ 2 = 1 := by linear_combination hcs + σ * σ * hab
        have ez : e.x * c + e.y * (b * σ) + e.z * (a * σ) = D := by
          rw [dx, dy, dz] at hp'
          have : (e.x * c + e.y * (b * σ) + e.z * (a * σ)) * L = D * L := by linarith
          exact mul_right_cancel₀ hL.ne' this
        have sum : p.x * c + p.y * (b * σ) + p.z * (a * σ) = D - L * τ := by
          rw [t1, t2, t3, dx, dy, dz]
          linear_combination ez - L * τ * unit
        rw [sum] at k1 k2 k3
        rw [show p.x - c * (D - L * τ) + c * D = e.x by rw [t1, dx]; ring] at k1
        rw [show p.y - b * σ * (D - L * τ) + b * σ * D = e.y by rw [t2, dy]; ring] at k2
        rw [show p.z - a * σ * (D - L * τ) + a * σ * D = e.z by rw [t3, dz]; ring] at k3
        exact ⟨k1, k2, k3⟩

/-- **C137.**  The same for `launch`, the end of `asGrid`, `asFan`, `asPolar`, `asSpokes` and `fromStop`: `q` are the points of the stop in the frame of
the rays, as computed. -/
theorem C137_launch (h : Rounds ε rd) (hε : ε ≤ 1 / 1000) {s : Setup (Flt rd)} {d : V3 ℝ} {n D : ℝ} (hs : s.source = none) (hd : s.dirCos = some (d.flt rd))
    (hD : s.backDist = Flt.fin rd D) (hD0 : 0 ≤ D) (hm : s.medium.getN s.wavelength = Flt.fin rd n) (hn : 0 < n) (hyz : d.y ≠ 0 ∨ d.z ≠ 0)
    (pts : List (Flt rd × Flt rd)) (q : List (V3 ℝ)) (flux : List (Flt rd)) (hlen : flux.length = pts.length)
    (hq : List.Forall₂ (fun p q => (CoordTransform.make s.stop.coordSys s.coordSys).forward ⟨p.1, p.2, s.stop.surface.sag p.1 p.2⟩ = V3.flt rd q) pts q) :
    ∃ (v : V3 ℝ) (rays : List (Ray (Flt rd))), launch s pts flux = .ok (some ⟨rays, s.coordSys⟩) ∧
      (|v.x - d.x / (n * Real.sqrt (V3.dot d d))| ≤ 12 * ε * |d.x / (n * Real.sqrt (V3.dot d d))| ∧
        |v.y - d.y / (n * Real.sqrt (V3.dot d d))| ≤ 12 * ε * |d.y / (n * Real.sqrt (V3.dot d d))| ∧
        |v.z - d.z / (n * Real.sqrt (V3.dot d d))| ≤ 12 * ε * |d.z / (n * Real.sqrt (V3.dot d d))|) ∧
      rays.map (·.flux) = flux ∧
      List.Forall₂ (fun p ray => ∃ q : V3 ℝ, ray = ⟨q.flt rd, v.flt rd, 0, s.wavelength, ray.flux, false, false⟩ ∧
        ∀ e, LaunchedAt d D p e → |q.x - e.x| ≤ 3600 * ε * reach D p ∧ |q.y - e.y| ≤ 3600 * ε * reach D p ∧ |q.z - e.z| ≤ 3600 * ε * reach D p) q rays := by
  have e : (pts.map fun p => (CoordTransform.make s.stop.coordSys s.coordSys).forward ⟨p.1, p.2, s.stop.surface.sag p.1 p.2⟩) = q.map (V3.flt rd) := by
    clear hlen
    induction hq with
    | nil => rfl
    | cons k _ ih => simp only [List.map_cons, k, ih]
  have := C137_finish h hε hs hd hD hD0 hn hyz q flux (hlen.trans hq.length_eq)
  unfold launch
  simp only [e, hm]
  exact this

/-- There is such a starting point for every ray. -/
theorem launchedAt_exists {d : V3 ℝ} (hd : 0 < V3.dot d d) (D : ℝ) (p : V3 ℝ) : ∃ e, LaunchedAt d D p e := by
  have hL := Real.sqrt_pos.2 hd
  have hLL := Real.mul_self_sqrt hd.le
  generalize eL : Real.sqrt (V3.dot d d) = L at *
  refine ⟨p - d.smulR ((V3.dot p d + D * L) / V3.dot d d), ⟨(V3.dot p d + D * L) / V3.dot d d, ?_⟩, ?_⟩
  · ext <;> simp [V3.smulR]
  · rw [eL]
    have e : V3.dot (p - d.smulR ((V3.dot p d + D * L) / V3.dot d d)) d = V3.dot p d - (V3.dot p d + D * L) / V3.dot d d * V3.dot d d := by
      simp only [V3.dot, V3.smulR, V3.sub_x, V3.sub_y, V3.sub_z]
      ring
    rw [e, div_mul_cancel₀ _ hd.ne']
    ring

/-- One ray of fromFieldAngles, in one coordinate. -/
theorem backed_up (h : Rounds ε rd) (hε : ε ≤ 1 / 1000) {x a a' n D o : ℝ} (hn : 0 < n) (hD : 0 ≤ D) (ho : 0 ≤ o) (ha : |a| ≤ 1) (hd : |a' - a| ≤ 40 * ε * o) :
    |rd (a' / n) - a / n| ≤ 45 * ε * (1 + o) / n ∧ |rd (x + rd (rd (a' / n) * rd (rd (-D * n) - 0))) - (x - a * D)| ≤ 50 * ε * (|x| + D * (1 + o)) := by
  have h0 := h.nonneg
  have hl : ε < 1 := by linarith
  have eo : ε * o ≤ 1 / 1000 * o := mul_le_mul_of_nonneg_right hε ho
  have a1 : |a'| ≤ 1 + o / 25 := by
    have := abs_sub_abs_le_abs_sub a' a
    linarith
  have ea : ε * |a'| ≤ ε * (1 + o / 25) := mul_le_mul_of_nonneg_left a1 h0
  have eo0 := mul_nonneg h0 ho
  constructor
  · have k := h.err (a' / n)
    rw [abs_div, abs_of_pos hn] at k
    have t := abs_sub_le (rd (a' / n)) (a' / n) (a / n)
    rw [← sub_div, abs_div, abs_of_pos hn] at t
    refine t.trans ?_
    rw [le_div_iff₀ hn, add_mul, div_mul_cancel₀ _ hn.ne']
    have : |rd (a' / n) - a' / n| * n ≤ ε * |a'| := by
      have := mul_le_mul_of_nonneg_right k hn.le
      rwa [mul_assoc, div_mul_cancel₀ _ hn.ne'] at this
    linarith
  · have t1 : Rel ε 2 (rd (rd (-D * n) - 0)) (-D * n) := by
      rw [sub_zero]
      exact h.after hl (h.rel hl _)
    have t2 := h.after hl ((h.rel hl (a' / n)).mul hl t1)
    rw [show a' / n * (-D * n) = -(a' * D) by field_simp] at t2
    have t3 : Err ε 5 _ _ _ := h.errAdd hl ((Err.exact x).mono h0 hl (by norm_num : 0 ≤ 4)) (t2.err h0 hl)
    have t4 := t3.close h0 hl 10 (by norm_num) (by linarith)
    rw [abs_neg, abs_mul, abs_of_nonneg hD] at t4
    have t5 : |x + -(a' * D) - (x - a * D)| ≤ 40 * ε * o * D := by
      rw [show x + -(a' * D) - (x - a * D) = -((a' - a) * D) by ring, abs_neg, abs_mul, abs_of_nonneg hD]
      exact mul_le_mul_of_nonneg_right hd hD
    have t6 := abs_sub_le (rd (x + rd (rd (a' / n) * rd (rd (-D * n) - 0)))) (x + -(a' * D)) (x - a * D)
    have t7 := mul_le_mul_of_nonneg_right ea hD
    have t8 := mul_nonneg eo0 hD
    have t9 := mul_nonneg h0 hD
    have t10 := mul_nonneg h0 (abs_nonneg x)
    nlinarith

/-- **C137.**  `fromFieldAngles`: every ray has the velocity of its field angle, and starts the back distance before the point of the stop. -/
theorem C137_fromFieldAngles (h : Rounds ε rd) (hε : ε ≤ 1 / 1000) {p : Proj} (hp : p.Stable) {a : Args (Flt rd)} (hproj : a.projection = p.name)
    {w : Flt rd} (hw : a.wavelength = some w) {D n x y z : ℝ} (hD0 : 0 ≤ D) (hn : 0 < n)
    {ob : Option (Flt rd)} (hb : fromOptic a.backDist a.optic (·.backDist) = .ok ob) (hD : ob.getD 40 = Flt.fin rd D)
    {om : Option (Medium (Flt rd))} (hm : fromOptic a.medium a.optic (·.inMedium) = .ok om) (hN : (om.getD (Medium.const 1)).getN w = Flt.fin rd n)
    {os : Option (Construct.Stop (Flt rd))} (hs : fromOptic a.stopSurface a.optic (·.stopSurface) = .ok os)
    (hz : (os.getD defaultStop).surface.sag (Flt.fin rd x) (Flt.fin rd y) = Flt.fin rd z) (thetas : List (ℝ × ℝ)) (dir : ℝ × ℝ → V3 ℝ)
    (hdir : ∀ th ∈ thetas, p.Field th.1 th.2 ∧ UnitDir (dir th).x (dir th).y (dir th).z ∧ p.Sees (dir th).z ∧ p.Shows th.1 th.2 (dir th).x (dir th).y (dir th).z)
    (flux : Flt rd) :
    ∃ rays, fromFieldAngles a (thetas.map fun th => (Flt.fin rd th.1, Flt.fin rd th.2)) (Flt.fin rd x) (Flt.fin rd y) flux =
        .ok ⟨rays, (os.getD defaultStop).coordSys⟩ ∧
      List.Forall₂ (fun th ray => ∃ r v : V3 ℝ, ray = ⟨r.flt rd, v.flt rd, Flt.fin rd (rd (-D * n)), w, flux, false, false⟩ ∧
        (|v.x - (dir th).x / n| ≤ 45 * ε * (1 + p.offset th.1) / n ∧ |v.y - (dir th).y / n| ≤ 45 * ε * (1 + p.offset th.2) / n ∧
          |v.z - (dir th).z / n| ≤ 45 * ε * (2 + Real.sqrt (th.1 * th.1 + th.2 * th.2)) / n) ∧
        (|r.x - (x - (dir th).x * D)| ≤ 50 * ε * (|x| + D * (1 + p.offset th.1)) ∧ |r.y - (y - (dir th).y * D)| ≤ 50 * ε * (|y| + D * (1 + p.offset th.2)) ∧
          |r.z - (z - (dir th).z * D)| ≤ 50 * ε * (|z| + D * (2 + Real.sqrt (th.1 * th.1 + th.2 * th.2))))) thetas rays := by
  have h0 := h.nonneg
  have off : ∀ t, 0 ≤ p.offset t := fun t => by cases p <;> exact abs_nonneg _
  have main : ∃ ds : List (Flt rd × Flt rd × Flt rd),
      (thetas.map fun th => (Flt.fin rd th.1, Flt.fin rd th.2)).mapM (fun th => Projection.fieldToDirCos th.1 th.2 p.name) = .ok ds ∧
      List.Forall₂ (fun (th : ℝ × ℝ) (d : Flt rd × Flt rd × Flt rd) => ∃ a' b' c', d = (Flt.fin rd a', Flt.fin rd b', Flt.fin rd c') ∧
        |a' - (dir th).x| ≤ 40 * ε * p.offset th.1 ∧ |b' - (dir th).y| ≤ 40 * ε * p.offset th.2 ∧
        |c' - (dir th).z| ≤ 40 * ε * (1 + Real.sqrt (th.1 * th.1 + th.2 * th.2)) ∧ |(dir th).x| ≤ 1 ∧ |(dir th).y| ≤ 1 ∧ |(dir th).z| ≤ 1) thetas ds := by
    clear hw hb hm hs hz
    induction thetas with
    | nil => exact ⟨[], rfl, List.Forall₂.nil⟩
    | cons th ths ih =>
      obtain ⟨ds, e, k⟩ := ih fun t ht => hdir t (List.mem_cons_of_mem _ ht)
      obtain ⟨hF, hU, hS, hsh⟩ := hdir th List.mem_cons_self
      obtain ⟨a', b', c', e', k1, k2, k3⟩ := C136_direction h hε p hp hF hU hS hsh
      have q1 := sq_nonneg (dir th).x
      have q2 := sq_nonneg (dir th).y
      have q3 := sq_nonneg (dir th).z
      unfold UnitDir at hU
      refine ⟨(Flt.fin rd a', Flt.fin rd b', Flt.fin rd c') :: ds, ?_, List.Forall₂.cons ⟨a', b', c', rfl, k1, k2, k3, ?_, ?_, ?_⟩ k⟩
      · rw [List.map_cons, List.mapM_cons, e', e]; rfl
      all_goals exact abs_le_one_iff_mul_self_le_one.2 (by nlinarith)
  obtain ⟨ds, e, k⟩ := main
  refine ⟨ds.map fun d => Ray.propagate ⟨⟨Flt.fin rd x, Flt.fin rd y, Flt.fin rd z⟩, ⟨d.1 / Flt.fin rd n, d.2.1 / Flt.fin rd n, d.2.2 / Flt.fin rd n⟩, 0, w, flux, false, false⟩
    (-Flt.fin rd D * Flt.fin rd n), ?_, ?_⟩
  · unfold fromFieldAngles
    simp only [hb, hm, hs, bind, Except.bind, hw, hD, hN, hproj, e, hz, RayVec.propagate, List.map_map]
    rfl
  · clear e hdir
    induction k with
    | nil => exact List.Forall₂.nil
    | cons hk _ ih =>
      rw [List.map_cons]
      refine List.Forall₂.cons ?_ ih
      obtain ⟨a', b', c', rfl, k1, k2, k3, m1, m2, m3⟩ := hk
      obtain ⟨u1, w1⟩ := backed_up (x := x) h hε hn hD0 (off _) m1 k1
      obtain ⟨u2, w2⟩ := backed_up (x := y) h hε hn hD0 (off _) m2 k2
      obtain ⟨u3, w3⟩ := backed_up (x := z) h hε hn hD0 (by positivity) m3 k3
      rw [← add_assoc, one_add_one_eq_two] at u3 w3
      refine ⟨⟨_, _, _⟩, ⟨_, _, _⟩, ?_, ⟨u1, u2, u3⟩, ⟨w1, w2, w3⟩⟩
      simp only [Ray.propagate, Flt.div_fin hn.ne', Flt.neg_fin, Flt.mul_fin, flt_zero h, Flt.sub_fin, V3.smulR, V3.flt, V3.map]
      rfl

/-- The whole surface of an ELT, forty meters back, in double precision: rays start within a tenth of a nanometer of where they should. -/
example (x y : ℝ) (hx : |x| ≤ 20) (hy : |y| ≤ 20) (s : Setup (Flt rd53)) (hs : s.source = none) (hd : s.dirCos = some (V3.flt rd53 ⟨1 / 64, 0, -1⟩))
    (hD : s.backDist = Flt.fin rd53 40) (fl : Flt rd53) :
    ∃ (v q : V3 ℝ), finish s (Flt.fin rd53 1) [V3.flt rd53 ⟨x, y, 0⟩] [fl] =
        .ok (some ⟨[⟨q.flt rd53, v.flt rd53, 0, s.wavelength, fl, false, false⟩], s.coordSys⟩) ∧
      ∃ e, LaunchedAt ⟨1 / 64, 0, -1⟩ 40 ⟨x, y, 0⟩ e ∧ |q.x - e.x| ≤ 1 / 10 ^ 10 ∧ |q.y - e.y| ≤ 1 / 10 ^ 10 ∧ |q.z - e.z| ≤ 1 / 10 ^ 10 := by
  obtain ⟨v, rays, e1, -, e2, e3⟩ := C137_finish rd53_rounds (by norm_num) hs hd hD (by norm_num) one_pos (Or.inr (by norm_num)) [⟨x, y, 0⟩] [fl] rfl
  cases e3 with
  | cons k k' =>
    cases k'
    obtain ⟨q, eq, k⟩ := k
    obtain ⟨e, he⟩ := launchedAt_exists (d := ⟨1 / 64, 0, -1⟩) (by norm_num [V3.dot]) 40 ⟨x, y, 0⟩
    obtain ⟨k1, k2, k3⟩ := k e he
    have b : 3600 * 2 ^ (-53 : ℤ) * reach 40 ⟨x, y, 0⟩ ≤ 1 / 10 ^ 10 := by
      simp only [reach, abs_zero]
      norm_num
      linarith
    refine ⟨v, q, ?_, e, he, k1.trans b, k2.trans b, k3.trans b⟩
    simp only [List.map_cons, List.map_nil, List.cons.injEq, and_true] at e1 e2
    rw [e2] at eq
    rw [← eq]
    exact e1

/-- Field angles of up to a radian, ten meters off axis, forty meters back, in double precision: the rays start within a nanometer of where they should. -/
example (thetas : List (ℝ × ℝ)) (hth : ∀ th ∈ thetas, |th.1| ≤ 1 ∧ |th.2| ≤ 1) (flux : Flt rd53) :
    ∃ (dir : ℝ × ℝ → V3 ℝ) (rays : List (Ray (Flt rd53))), (∀ th ∈ thetas, Proj.postel.Shows th.1 th.2 (dir th).x (dir th).y (dir th).z) ∧
      fromFieldAngles { wavelength := some (Flt.fin rd53 1), projection := "postel" } (thetas.map fun th => (Flt.fin rd53 th.1, Flt.fin rd53 th.2)) (Flt.fin rd53 10) (Flt.fin rd53 0) flux =
        .ok ⟨rays, CoordSys.std (Flt rd53)⟩ ∧
      List.Forall₂ (fun th ray => ∃ r v : V3 ℝ, ray = ⟨r.flt rd53, v.flt rd53, Flt.fin rd53 (rd53 (-40 * 1)), Flt.fin rd53 1, flux, false, false⟩ ∧
        |r.x - (10 - (dir th).x * 40)| ≤ 1 / 10 ^ 9) thetas rays := by
  have hF : ∀ th : ℝ × ℝ, |th.1| ≤ 1 ∧ |th.2| ≤ 1 → Proj.postel.Field th.1 th.2 := fun th k => by
    show _ < _
    have k1 := abs_le_one_iff_mul_self_le_one.1 k.1
    have k2 := abs_le_one_iff_mul_self_le_one.1 k.2
    nlinarith [Real.pi_gt_three]
  have ch : ∀ th : ℝ × ℝ, ∃ d : V3 ℝ, (|th.1| ≤ 1 ∧ |th.2| ≤ 1) → UnitDir d.x d.y d.z ∧ Proj.postel.Sees d.z ∧ Proj.postel.Shows th.1 th.2 d.x d.y d.z := fun th => by
    by_cases k : |th.1| ≤ 1 ∧ |th.2| ≤ 1
    · obtain ⟨a, b, c, -, hU, hS, hs, -⟩ := C59_there_and_back .postel th.1 th.2 (hF th k)
      exact ⟨⟨a, b, c⟩, fun _ => ⟨hU, hS, hs⟩⟩
    · exact ⟨⟨0, 0, 0⟩, fun t => absurd t k⟩
  choose dir hdir using ch
  have e40 : (40 : Flt rd53) = Flt.fin rd53 40 := by
    have := Flt.ofNat_fin (rd := rd53) 40
    have r : rd53 ((40 : ℕ) : ℝ) = 40 := by exact_mod_cast rd53_nat 40 (by norm_num)
    rw [r] at this
    exact this
  have one : (Medium.const (1 : Flt rd53)).getN (Flt.fin rd53 1) = Flt.fin rd53 1 := by
    show (1 : Flt rd53) = _
    rw [flt_one, rd53_one]
  obtain ⟨rays, e, k⟩ := C137_fromFieldAngles (p := .postel) (D := 40) (n := 1) (z := 0) (x := 10) (y := 0) (ob := none) (om := none) (os := none)
    (a := { wavelength := some (Flt.fin rd53 1), projection := "postel" }) rd53_rounds (by norm_num) trivial rfl rfl (by norm_num) one_pos rfl e40 rfl one rfl
    (flt_zero rd53_rounds) thetas dir (fun th ht => ⟨hF th (hth th ht), hdir th (hth th ht)⟩) flux
  refine ⟨dir, rays, fun th ht => (hdir th (hth th ht)).2.2, e, ?_⟩
  clear e
  induction k with
  | nil => exact List.Forall₂.nil
  | cons hk _ ih =>
    refine List.Forall₂.cons ?_ (ih fun th ht => hth th (List.mem_cons_of_mem _ ht))
    obtain ⟨r, v, er, -, k1, -⟩ := hk
    refine ⟨r, v, er, k1.trans ?_⟩
    have b := (hth _ List.mem_cons_self).1
    simp only [Proj.offset]
    norm_num
    linarith

end results

end Batoid.Props
