import Verif.Props.Projections
import Verif.Props.RoundSag
import Verif.Props.RoundPhase

/-!
# Property C136: field angles in arithmetic with rounding

C59 says that the six projections follow their textbook laws in exact arithmetic.  Here: how far rounding moves the direction of a field angle, and
where the formulas of `utils.py` lose small angles.
-/

namespace Batoid.Props
open Batoid Batoid.Projection

section spec

/-- What the transverse components of a direction are compared with: the field coordinate, or its tangent. -/
noncomputable def Proj.offset : Proj → ℝ → ℝ
  | .zemax, t => |Real.tan t|
  | _, t => |t|

/-- The projections whose formulas do not cancel. -/
def Proj.Stable : Proj → Prop
  | .postel | .zemax | .gnomonic | .stereographic => True
  | _ => False

end spec

section lemmas
variable {ε : ℝ} {rd : ℝ → ℝ}

theorem Flt.tan_fin {a : ℝ} (h : Real.cos a ≠ 0) : Arith.tan (Flt.fin rd a) = Flt.fin rd (rd (Real.tan a)) := by
  show Flt.rnd rd (Arith.tan (Dbl.fin a)) = _
  rw [Dbl.tan_fin h]; rfl
theorem Flt.atan_fin (a : ℝ) : Arith.atan (Flt.fin rd a) = Flt.fin rd (rd (Real.arctan a)) := by
  show Flt.rnd rd (Arith.atan (Dbl.fin a)) = _
  rw [Dbl.atan_fin]; rfl

theorem one_rel (h : Rounds ε rd) (hε : ε < 1) : Rel ε 1 (rd 1) 1 := h.rel hε 1

/-- The length of `(1, u, v)`. -/
theorem norm_rel (h : Rounds ε rd) (hε : ε < 1) {a b a' b' : ℝ} {k : ℕ} (ha : Rel ε k a' a) (hb : Rel ε k b' b) :
    Rel ε (2 * k + 4) (rd (Real.sqrt (rd (rd (rd 1 + rd (a' * a')) + rd (b' * b'))))) (Real.sqrt (1 + a * a + b * b)) ∧
      0 ≤ rd (rd (rd 1 + rd (a' * a')) + rd (b' * b')) := by
  have h0 := h.nonneg
  have qa := h.after hε (ha.mul hε ha)
  have qb := h.after hε (hb.mul hε hb)
  have s1 := h.after hε (((one_rel h hε).mono h0 hε (by omega : 1 ≤ k + k + 1)).add hε qa zero_le_one (mul_self_nonneg a))
  have s2 := h.after hε (s1.add hε (qb.mono h0 hε (by omega)) (add_nonneg zero_le_one (mul_self_nonneg a)) (mul_self_nonneg b))
  have p := add_nonneg (add_nonneg zero_le_one (mul_self_nonneg a)) (mul_self_nonneg b)
  exact ⟨(h.after hε (s2.sqrt h0 hε p)).mono h0 hε (by omega), s2.nonneg hε p⟩

theorem norm_pos (a b : ℝ) : 0 < Real.sqrt (1 + a * a + b * b) :=
  Real.sqrt_pos.2 (by nlinarith [mul_self_nonneg a, mul_self_nonneg b])

theorem gnomonic_near (h : Rounds ε rd) (hε : ε ≤ 1 / 1000) (u v : ℝ) : ∃ a' b' c', gnomonicToDirCos (Flt.fin rd u) (Flt.fin rd v) =
    (Flt.fin rd a', Flt.fin rd b', Flt.fin rd c') ∧ Rel ε 8 a' (u / Real.sqrt (1 + u * u + v * v)) ∧ Rel ε 8 b' (v / Real.sqrt (1 + u * u + v * v)) ∧
      Rel ε 8 c' (-1 / Real.sqrt (1 + u * u + v * v)) := by
  have h0 := h.nonneg
  have hl : ε < 1 := by linarith
  obtain ⟨r, p⟩ := norm_rel h hl (Rel.refl u) (Rel.refl v)
  have g := h.after hl ((one_rel h hl).div hl r)
  have e : ∀ t : ℝ, t * (1 / Real.sqrt (1 + u * u + v * v)) = t / Real.sqrt (1 + u * u + v * v) := fun t => by ring
  rw [← e u, ← e v, neg_div]
  refine ⟨_, _, _, ?_, (h.after hl ((Rel.refl u).mul hl g)).mono h0 hl (by norm_num), (h.after hl ((Rel.refl v).mul hl g)).mono h0 hl (by norm_num),
    g.neg.mono h0 hl (by norm_num)⟩
  unfold gnomonicToDirCos
  simp only [flt_one, Flt.mul_fin, Flt.add_fin, Flt.sqrt_fin p, Flt.div_fin (r.ne hl (norm_pos u v).ne'), Flt.neg_fin]

theorem zemax_near (h : Rounds ε rd) (hε : ε ≤ 1 / 1000) {u v : ℝ} (hu : Real.cos u ≠ 0) (hv : Real.cos v ≠ 0) : ∃ a' b' c',
    zemaxToDirCos (Flt.fin rd u) (Flt.fin rd v) = (Flt.fin rd a', Flt.fin rd b', Flt.fin rd c') ∧
      Rel ε 8 a' (Real.tan u / Real.sqrt (1 + Real.tan u * Real.tan u + Real.tan v * Real.tan v)) ∧
      Rel ε 8 b' (Real.tan v / Real.sqrt (1 + Real.tan u * Real.tan u + Real.tan v * Real.tan v)) ∧
      Rel ε 8 c' (-1 / Real.sqrt (1 + Real.tan u * Real.tan u + Real.tan v * Real.tan v)) := by
  have h0 := h.nonneg
  have hl : ε < 1 := by linarith
  have tu := h.rel hl (Real.tan u)
  have tv := h.rel hl (Real.tan v)
  obtain ⟨r, p⟩ := norm_rel h hl tu tv
  refine ⟨_, _, _, ?_, (h.after hl (tu.div hl r)).mono h0 hl (by norm_num), (h.after hl (tv.div hl r)).mono h0 hl (by norm_num),
    (h.after hl ((h.rel hl (-1)).div hl r)).mono h0 hl (by norm_num)⟩
  unfold zemaxToDirCos
  simp only [flt_one, Flt.tan_fin hu, Flt.tan_fin hv, Flt.const_fin, Flt.mul_fin, Flt.add_fin, Flt.sqrt_fin p,
    Flt.div_fin (r.ne hl (norm_pos _ _).ne')]
  norm_num

/-- Sine and cosine of a computed angle. -/
theorem sin_near (h : Rounds ε rd) (hε : ε ≤ 1 / 1000) {θ θ' ρ L : ℝ} (h0 : 0 ≤ θ) (hθ : θ ≤ ρ) (hL : 0 ≤ L) (hL' : L ≤ 40) (e : |θ' - θ| ≤ L * ε * ρ) :
    |rd (Real.sin θ') - Real.sin θ| ≤ (L + 2) * ε * ρ ∧ |rd (Real.cos θ') - Real.cos θ| ≤ L * ε * ρ + ε := by
  have hε0 := h.nonneg
  have ρ0 : 0 ≤ ρ := h0.trans hθ
  have s1 := Real.abs_sin_sub_sin_le θ' θ
  have s2 := Real.abs_cos_sub_cos_le θ' θ
  have r1 := h.err (Real.sin θ')
  have r2 := h.err (Real.cos θ')
  have c1 := Real.abs_cos_le_one θ'
  have a1 : |Real.sin θ'| ≤ 2 * ρ := by
    have k := Real.abs_sin_le_abs (x := θ')
    have : |θ'| ≤ |θ| + |θ' - θ| := by have := abs_sub_abs_le_abs_sub θ' θ; linarith
    rw [abs_of_nonneg h0] at this
    have : L * ε * ρ ≤ 1 * ρ := mul_le_mul_of_nonneg_right (by nlinarith) ρ0
    linarith
  have m1 := mul_le_mul_of_nonneg_left a1 hε0
  have m2 := mul_le_mul_of_nonneg_left c1 hε0
  constructor
  · have := abs_sub_le (rd (Real.sin θ')) (Real.sin θ') (Real.sin θ)
    linarith
  · have := abs_sub_le (rd (Real.cos θ')) (Real.cos θ') (Real.cos θ)
    linarith

/-- A transverse component. -/
theorem side_near (h : Rounds ε rd) (hε : ε ≤ 1 / 1000) {t ρ q' s s' K : ℝ} (hρ : 0 < ρ) (hq : Rel ε 4 q' (t / ρ)) (hs : |s| ≤ ρ) (hK : 0 ≤ K) (hK' : K ≤ 40)
    (e : |s' - s| ≤ K * ε * ρ) : |rd (q' * s') - t / ρ * s| ≤ (K + 12) * ε * |t| := by
  have hε0 := h.nonneg
  have hl : ε < 1 := by linarith
  have kq := hq.near hε0 hl 8 (by norm_num) (by linarith)
  have et : |t / ρ| * ρ = |t| := by rw [abs_div, abs_of_pos hρ]; field_simp
  have t0 := abs_nonneg t
  have kq' : |q' - t / ρ| * ρ ≤ 8 * ε * |t| := by
    have := mul_le_mul_of_nonneg_right kq hρ.le
    rwa [mul_assoc, et] at this
  have bq : |q'| * ρ ≤ 101 / 100 * |t| := by
    have : |q'| ≤ |q' - t / ρ| + |t / ρ| := by have := abs_sub_abs_le_abs_sub q' (t / ρ); linarith
    have := mul_le_mul_of_nonneg_right this hρ.le
    nlinarith
  have bs : |s'| ≤ 105 / 100 * ρ := by
    have : |s'| ≤ |s' - s| + |s| := by have := abs_sub_abs_le_abs_sub s' s; linarith
    have : K * ε * ρ ≤ 4 / 100 * ρ := mul_le_mul_of_nonneg_right (by nlinarith) hρ.le
    linarith
  have p1 : |(q' - t / ρ) * s'| ≤ 9 * ε * |t| := by
    rw [abs_mul]
    have a1 := mul_le_mul_of_nonneg_left bs (abs_nonneg (q' - t / ρ))
    nlinarith [mul_nonneg hε0 t0]
  have p2 : |t / ρ * (s' - s)| ≤ K * ε * |t| := by
    rw [abs_mul]
    have a1 := mul_le_mul_of_nonneg_left e (abs_nonneg (t / ρ))
    have : |t / ρ| * (K * ε * ρ) = K * ε * |t| := by rw [← et]; ring
    linarith
  have p3 : |q' * s'| ≤ 2 * |t| := by
    rw [abs_mul]
    have a1 := mul_le_mul_of_nonneg_left bs (abs_nonneg q')
    linarith
  have r := h.err (q' * s')
  have p4 := mul_le_mul_of_nonneg_left p3 hε0
  have e1 : q' * s' - t / ρ * s = (q' - t / ρ) * s' + t / ρ * (s' - s) := by ring
  have p5 : |q' * s' - t / ρ * s| ≤ 9 * ε * |t| + K * ε * |t| := by rw [e1]; exact (abs_add_le _ _).trans (add_le_add p1 p2)
  have := abs_sub_le (rd (q' * s')) (q' * s') (t / ρ * s)
  nlinarith [mul_nonneg hε0 t0]

theorem radius_near (h : Rounds ε rd) (hε : ε ≤ 1 / 1000) (u v : ℝ) :
    |rd (Real.sqrt (rd (rd (u * u) + rd (v * v)))) - Real.sqrt (u * u + v * v)| ≤ 6 * ε * Real.sqrt (u * u + v * v) := by
  have := (radius_rel h (by linarith) u v).near h.nonneg (by linarith) 6 (by norm_num) (by linarith)
  rwa [abs_of_nonneg (Real.sqrt_nonneg _)] at this

/-- Azimuthal formulas: a computed angle gives a computed direction. -/
theorem azimuthal_near (h : Rounds ε rd) (hε : ε ≤ 1 / 1000) {u v θ θ' L : ℝ} (hρ : 0 < Real.sqrt (u * u + v * v)) (h0 : 0 ≤ θ)
    (hθ : θ ≤ Real.sqrt (u * u + v * v)) (hL : 0 ≤ L) (hL' : L ≤ 26) (e : |θ' - θ| ≤ L * ε * Real.sqrt (u * u + v * v)) :
    ∃ a' b' c', (Flt.fin rd u / Flt.fin rd (rd (Real.sqrt (rd (rd (u * u) + rd (v * v))))) * Arith.sin (Flt.fin rd θ'),
        Flt.fin rd v / Flt.fin rd (rd (Real.sqrt (rd (rd (u * u) + rd (v * v))))) * Arith.sin (Flt.fin rd θ'), -Arith.cos (Flt.fin rd θ')) =
      (Flt.fin rd a', Flt.fin rd b', Flt.fin rd c') ∧ |a' - u / Real.sqrt (u * u + v * v) * Real.sin θ| ≤ 40 * ε * |u| ∧
      |b' - v / Real.sqrt (u * u + v * v) * Real.sin θ| ≤ 40 * ε * |v| ∧ |c' - -Real.cos θ| ≤ 40 * ε * (1 + Real.sqrt (u * u + v * v)) := by
  have hε0 := h.nonneg
  have hl : ε < 1 := by linarith
  have rr := radius_rel h hl u v
  obtain ⟨k1, k2⟩ := sin_near h hε h0 hθ hL (by linarith) e
  have hs : |Real.sin θ| ≤ Real.sqrt (u * u + v * v) := (Real.abs_sin_le_abs).trans (by rwa [abs_of_nonneg h0])
  have side : ∀ t : ℝ, |rd (rd (t / rd (Real.sqrt (rd (rd (u * u) + rd (v * v))))) * rd (Real.sin θ')) - t / Real.sqrt (u * u + v * v) * Real.sin θ| ≤ 40 * ε * |t| :=
    fun t => (side_near h hε hρ ((h.after hl ((Rel.refl t).div hl rr)).mono hε0 hl (by norm_num)) hs (by linarith) (by linarith) k1).trans
      (by
        have := mul_nonneg hε0 (abs_nonneg t)
        have := mul_le_mul_of_nonneg_right hL' this
        linarith)
  refine ⟨_, _, -rd (Real.cos θ'), ?_, side u, side v, ?_⟩
  · simp only [Flt.sin_fin, Flt.cos_fin, Flt.div_fin (rr.ne hl hρ.ne'), Flt.mul_fin, Flt.neg_fin]
  · rw [neg_sub_neg, abs_sub_comm]
    have := mul_nonneg hε0 hρ.le
    have := mul_le_mul_of_nonneg_right hL' this
    linarith

theorem atan_lip (x y : ℝ) : |Real.arctan x - Real.arctan y| ≤ |x - y| := by
  have := Convex.norm_image_sub_le_of_norm_hasDerivWithin_le (f := Real.arctan) (f' := fun t => 1 / (1 + t ^ 2)) (s := Set.univ) (C := 1) (x := y) (y := x)
    (fun t _ => (Real.hasDerivAt_arctan t).hasDerivWithinAt)
    (fun t _ => by
      rw [Real.norm_eq_abs, abs_of_nonneg (by positivity), div_le_one (by positivity)]
      nlinarith [sq_nonneg t]) convex_univ (Set.mem_univ _) (Set.mem_univ _)
  simpa using this

/-- The angle of the stereographic projection. -/
theorem stereo_angle (h : Rounds ε rd) (hε : ε ≤ 1 / 1000) {ρ ρ' : ℝ} (hρ : 0 ≤ ρ) (e : Rel ε 3 ρ' ρ) :
    |rd (rd 2 * rd (Real.arctan (rd (ρ' / rd 2)))) - 2 * Real.arctan (ρ / 2)| ≤ 20 * ε * ρ := by
  have hε0 := h.nonneg
  have hl : ε < 1 := by linarith
  have x := (h.after hl (e.div hl (h.rel hl 2))).near hε0 hl 10 (by norm_num) (by linarith)
  rw [abs_of_nonneg (by positivity : 0 ≤ ρ / 2)] at x
  generalize rd (ρ' / rd 2) = t at *
  have k := (atan_lip t (ρ / 2)).trans x
  have a0 : |Real.arctan (ρ / 2)| ≤ ρ / 2 := by
    have := atan_lip (ρ / 2) 0
    rwa [Real.arctan_zero, sub_zero, sub_zero, abs_of_nonneg (by positivity : 0 ≤ ρ / 2)] at this
  have a1 : |Real.arctan t| ≤ ρ := by
    have := abs_sub_abs_le_abs_sub (Real.arctan t) (Real.arctan (ρ / 2))
    nlinarith
  generalize Real.arctan t = A at *
  generalize Real.arctan (ρ / 2) = B at *
  have r1 := h.err A
  have r2 := h.err 2
  rw [abs_of_pos (by norm_num : (0:ℝ) < 2)] at r2
  have m1 := mul_le_mul_of_nonneg_left a1 hε0
  have k1 : |rd A - B| ≤ 6 * ε * ρ := by have := abs_sub_le (rd A) A B; linarith
  have εr := mul_nonneg hε0 hρ
  have εr' : ε * ρ ≤ 1 / 1000 * ρ := mul_le_mul_of_nonneg_right hε hρ
  have b1 : |rd A| ≤ ρ := by have := abs_sub_abs_le_abs_sub (rd A) B; linarith
  have p1 : |(rd 2 - 2) * rd A| ≤ 2 * ε * ρ := by
    rw [abs_mul]
    have := mul_le_mul r2 b1 (abs_nonneg _) (by positivity)
    linarith
  have p2 : |rd 2 * rd A - 2 * B| ≤ 14 * ε * ρ := by
    rw [show rd 2 * rd A - 2 * B = (rd 2 - 2) * rd A + 2 * (rd A - B) by ring]
    refine (abs_add_le _ _).trans ?_
    rw [abs_mul 2, abs_of_pos (by norm_num : (0:ℝ) < 2)]
    linarith
  have p3 : |rd 2 * rd A| ≤ 2 * ρ := by
    have := abs_sub_abs_le_abs_sub (rd 2 * rd A) (2 * B)
    have : |2 * B| ≤ ρ := by rw [abs_mul, abs_of_pos (by norm_num : (0:ℝ) < 2)]; linarith
    linarith
  have r3 := h.err (rd 2 * rd A)
  have m3 := mul_le_mul_of_nonneg_left p3 hε0
  have := abs_sub_le (rd (rd 2 * rd A)) (rd 2 * rd A) (2 * B)
  linarith

/-- The direction of an azimuthal projection is determined by its angle. -/
theorem azimuthal_unique {u v a b c θ k : ℝ} (hU : UnitDir a b c) (h0 : 0 ≤ θ) (hπ : θ < Real.pi) (hc : c = -Real.cos θ) (hk : 0 < k)
    (ha : a = k * u) (hb : b = k * v) : k * Real.sqrt (u * u + v * v) = Real.sin θ := by
  have hs := Real.sin_nonneg_of_nonneg_of_le_pi h0 hπ.le
  have hsc := Real.sin_sq_add_cos_sq θ
  have hq := Real.sq_sqrt (add_nonneg (mul_self_nonneg u) (mul_self_nonneg v))
  have hp := mul_nonneg hk.le (Real.sqrt_nonneg (u * u + v * v))
  unfold UnitDir at hU
  subst ha hb hc
  generalize Real.sqrt (u * u + v * v) = ρ at *
  have : (k * ρ) ^ 2 = Real.sin θ ^ 2 := by rw [mul_pow, hq]; linarith
  exact (pow_left_inj₀ hp hs two_ne_zero).1 this

theorem on_axis {u v : ℝ} (h : ¬ 0 < Real.sqrt (u * u + v * v)) : u = 0 ∧ v = 0 := by
  have : u * u + v * v ≤ 0 := Real.sqrt_eq_zero'.1 (le_antisymm (not_lt.1 h) (Real.sqrt_nonneg _))
  constructor <;> nlinarith [mul_self_nonneg u, mul_self_nonneg v]

theorem centre_near (h : Rounds ε rd) : ((0 : Flt rd), (0 : Flt rd), (Arith.const (-1) : Flt rd)) =
    (Flt.fin rd 0, Flt.fin rd 0, Flt.fin rd (rd (-1))) ∧ |rd (-1) - -1| ≤ 40 * ε * (1 + Real.sqrt (0 * 0 + 0 * 0)) := by
  have hε0 := h.nonneg
  refine ⟨by rw [flt_zero h, Flt.const_fin]; norm_num, ?_⟩
  have := h.err (-1)
  norm_num at this ⊢
  linarith

end lemmas

section results
variable {ε : ℝ} {rd : ℝ → ℝ}

/-- **C136.**  The direction of a field angle is accurate. -/
theorem C136_direction (h : Rounds ε rd) (hε : ε ≤ 1 / 1000) (p : Proj) (hp : p.Stable) {u v a b c : ℝ} (hF : p.Field u v) (hU : UnitDir a b c)
    (hs : p.Sees c) (hsh : p.Shows u v a b c) : ∃ a' b' c', fieldToDirCos (Flt.fin rd u) (Flt.fin rd v) p.name = .ok (Flt.fin rd a', Flt.fin rd b', Flt.fin rd c') ∧
      |a' - a| ≤ 40 * ε * p.offset u ∧ |b' - b| ≤ 40 * ε * p.offset v ∧ |c' - c| ≤ 40 * ε * (1 + Real.sqrt (u * u + v * v)) := by
  have hε0 := h.nonneg
  have hl : ε < 1 := by linarith
  have wide : ∀ {t' t s : ℝ}, Rel ε 8 t' t → |t| ≤ s → |t' - t| ≤ 40 * ε * s := fun {t' t s} r hts => by
    have := r.near hε0 hl 16 (by norm_num) (by linarith)
    have := mul_le_mul_of_nonneg_left hts hε0
    have := mul_nonneg hε0 ((abs_nonneg t).trans hts)
    linarith
  have shrink : ∀ t x y : ℝ, |t / Real.sqrt (1 + x * x + y * y)| ≤ |t| := fun t x y => by
    rw [abs_div, abs_of_pos (norm_pos x y)]
    exact div_le_self (abs_nonneg t) (Real.one_le_sqrt.2 (by nlinarith [mul_self_nonneg x, mul_self_nonneg y]))
  have ρ0 := Real.sqrt_nonneg (u * u + v * v)
  cases p with
  | lambert => exact hp.elim
  | orthographic => exact hp.elim
  | zemax =>
    obtain ⟨hu, hv⟩ := hF
    obtain ⟨a', b', c', e, ra, rb, rc⟩ := zemax_near h hε (cos_ne_of_abs hu) (cos_ne_of_abs hv)
    obtain ⟨sa, sb⟩ := hsh
    have hcn : c < 0 := hs
    have hc : c = -1 / Real.sqrt (1 + Real.tan u * Real.tan u + Real.tan v * Real.tan v) := by
      have n0 := norm_pos (Real.tan u) (Real.tan v)
      have nq := Real.sq_sqrt (by nlinarith [mul_self_nonneg (Real.tan u), mul_self_nonneg (Real.tan v)] : 0 ≤ 1 + Real.tan u * Real.tan u + Real.tan v * Real.tan v)
      generalize Real.sqrt (1 + Real.tan u * Real.tan u + Real.tan v * Real.tan v) = N at *
      unfold UnitDir at hU
      rw [sa, sb] at hU
      have : (-c * N) ^ 2 = 1 ^ 2 := by rw [mul_pow, nq]; linarith
      have := (pow_left_inj₀ (mul_nonneg (by linarith) n0.le) zero_le_one two_ne_zero).1 this
      rw [eq_div_iff n0.ne']
      linarith
    have ha : a = Real.tan u / Real.sqrt (1 + Real.tan u * Real.tan u + Real.tan v * Real.tan v) := by rw [sa, hc]; ring
    have hb : b = Real.tan v / Real.sqrt (1 + Real.tan u * Real.tan u + Real.tan v * Real.tan v) := by rw [sb, hc]; ring
    refine ⟨a', b', c', ?_, ?_, ?_, ?_⟩
    · simp [fieldToDirCos, Proj.name, e]
    · rw [ha]; exact wide ra (shrink _ _ _)
    · rw [hb]; exact wide rb (shrink _ _ _)
    · rw [hc]; exact wide rc ((shrink _ _ _).trans (by simp))
  | gnomonic =>
    obtain ⟨a', b', c', e, ra, rb, rc⟩ := gnomonic_near h hε u v
    obtain ⟨θ, h0, hπ, hc, hr, k, hk, ha, hb⟩ := hsh
    have hcn : c < 0 := hs
    have hkρ := azimuthal_unique hU h0 hπ hc hk ha hb
    have hcos : 0 < Real.cos θ := by linarith
    have hr' : Real.sqrt (u * u + v * v) = Real.sin θ / Real.cos θ := by rw [hr]; exact Real.tan_eq_sin_div_cos θ
    have hN : Real.cos θ = 1 / Real.sqrt (1 + u * u + v * v) := by
      have n0 := norm_pos u v
      have nq := Real.sq_sqrt (by nlinarith [mul_self_nonneg u, mul_self_nonneg v] : 0 ≤ 1 + u * u + v * v)
      have hq := Real.sq_sqrt (add_nonneg (mul_self_nonneg u) (mul_self_nonneg v))
      generalize Real.sqrt (1 + u * u + v * v) = N at *
      have hsc := Real.sin_sq_add_cos_sq θ
      have e1 : Real.sin θ = Real.sqrt (u * u + v * v) * Real.cos θ := by rw [hr']; field_simp
      rw [e1, mul_pow, hq] at hsc
      have : (Real.cos θ * N) ^ 2 = 1 ^ 2 := by rw [mul_pow, nq]; linarith
      have := (pow_left_inj₀ (mul_nonneg hcos.le n0.le) zero_le_one two_ne_zero).1 this
      rw [eq_div_iff n0.ne']
      linarith
    have hside : ∀ t : ℝ, (t = u ∨ t = v) → k * t = t / Real.sqrt (1 + u * u + v * v) := by
      intro t ht
      by_cases hρ : 0 < Real.sqrt (u * u + v * v)
      · have : k = Real.cos θ := by
          have e1 : Real.sin θ = Real.sqrt (u * u + v * v) * Real.cos θ := by rw [hr']; field_simp
          rw [e1, mul_comm] at hkρ
          exact mul_left_cancel₀ hρ.ne' hkρ
        rw [this, hN]; ring
      · obtain ⟨rfl, rfl⟩ := on_axis hρ
        rcases ht with rfl | rfl <;> simp
    refine ⟨a', b', c', ?_, ?_, ?_, ?_⟩
    · simp [fieldToDirCos, Proj.name, e]
    · rw [ha, hside u (Or.inl rfl)]; exact wide ra (shrink _ _ _)
    · rw [hb, hside v (Or.inr rfl)]; exact wide rb (shrink _ _ _)
    · rw [hc, hN, ← neg_div]; exact wide rc ((shrink _ _ _).trans (by simp))
  | postel =>
    obtain ⟨θ, h0, hπ, hc, hr, k, hk, ha, hb⟩ := hsh
    have hkρ := azimuthal_unique hU h0 hπ hc hk ha hb
    have hr' : Real.sqrt (u * u + v * v) = θ := hr
    have rr := radius_rel h hl u v
    by_cases hρ : 0 < Real.sqrt (u * u + v * v)
    · obtain ⟨a', b', c', e, ka, kb, kc⟩ := azimuthal_near h hε (L := 6) hρ h0 hr'.ge (by norm_num) (by norm_num) (by rw [← hr']; exact radius_near h hε u v)
      have hside : ∀ t : ℝ, k * t = t / Real.sqrt (u * u + v * v) * Real.sin θ := fun t => by rw [← hkρ, mul_comm k, ← mul_assoc, div_mul_eq_mul_div, div_mul_eq_mul_div, eq_div_iff hρ.ne']
      refine ⟨a', b', c', ?_, ?_, ?_, ?_⟩
      · rw [← e]
        have : fieldToDirCos (Flt.fin rd u) (Flt.fin rd v) Proj.postel.name = .ok (postelToDirCos (Flt.fin rd u) (Flt.fin rd v)) := by
          simp [fieldToDirCos, Proj.name]
        rw [this, postelToDirCos, radius_eq h hl, flt_zero h]
        simp [rr.ne hl hρ.ne']
      · rw [ha, hside]; exact ka
      · rw [hb, hside]; exact kb
      · rw [hc]; exact kc
    · obtain ⟨rfl, rfl⟩ := on_axis hρ
      obtain ⟨e, ke⟩ := centre_near h
      have hθ : θ = 0 := by rw [← hr']; simp
      refine ⟨0, 0, rd (-1), ?_, ?_, ?_, ?_⟩
      · rw [← e]
        have : fieldToDirCos (Flt.fin rd 0) (Flt.fin rd 0) Proj.postel.name = .ok (postelToDirCos (Flt.fin rd 0) (Flt.fin rd 0)) := by
          simp [fieldToDirCos, Proj.name]
        rw [this, postelToDirCos, radius_eq h hl, flt_zero h]
        simp [h.zero]
      · simp [ha, Proj.offset]
      · simp [hb, Proj.offset]
      · rw [hc, hθ, Real.cos_zero]; exact ke
  | stereographic =>
    obtain ⟨θ, h0, hπ, hc, hr, k, hk, ha, hb⟩ := hsh
    have hkρ := azimuthal_unique hU h0 hπ hc hk ha hb
    have hr' : Real.sqrt (u * u + v * v) = 2 * Real.tan (θ / 2) := hr
    have hθ : θ = 2 * Real.arctan (Real.sqrt (u * u + v * v) / 2) := by
      rw [hr', mul_div_cancel_left₀ _ two_ne_zero, Real.arctan_tan (by linarith) (by linarith)]
      ring
    have rr := radius_rel h hl u v
    by_cases hρ : 0 < Real.sqrt (u * u + v * v)
    · have hle : θ ≤ Real.sqrt (u * u + v * v) := by
        have := atan_lip (Real.sqrt (u * u + v * v) / 2) 0
        rw [Real.arctan_zero, sub_zero, sub_zero, abs_of_nonneg (by positivity : 0 ≤ Real.sqrt (u * u + v * v) / 2)] at this
        have := (le_abs_self _).trans this
        linarith
      obtain ⟨a', b', c', e, ka, kb, kc⟩ := azimuthal_near h hε (L := 20) hρ h0 hle (by norm_num) (by norm_num)
        (by rw [hθ]; exact stereo_angle h hε ρ0 rr)
      have hside : ∀ t : ℝ, k * t = t / Real.sqrt (u * u + v * v) * Real.sin θ := fun t => by rw [← hkρ, mul_comm k, ← mul_assoc, div_mul_eq_mul_div, div_mul_eq_mul_div, eq_div_iff hρ.ne']
      refine ⟨a', b', c', ?_, ?_, ?_, ?_⟩
      · rw [← e]
        have : fieldToDirCos (Flt.fin rd u) (Flt.fin rd v) Proj.stereographic.name = .ok (stereographicToDirCos (Flt.fin rd u) (Flt.fin rd v)) := by
          simp [fieldToDirCos, Proj.name]
        rw [this, stereographicToDirCos, radius_eq h hl, flt_zero h, flt_two, Flt.div_fin ((h.rel hl 2).ne hl two_ne_zero), Flt.atan_fin, Flt.mul_fin]
        simp [rr.ne hl hρ.ne']
      · rw [ha, hside]; exact ka
      · rw [hb, hside]; exact kb
      · rw [hc]; exact kc
    · obtain ⟨rfl, rfl⟩ := on_axis hρ
      obtain ⟨e, ke⟩ := centre_near h
      have hθ0 : θ = 0 := by rw [hθ]; simp
      refine ⟨0, 0, rd (-1), ?_, ?_, ?_, ?_⟩
      · rw [← e]
        have : fieldToDirCos (Flt.fin rd 0) (Flt.fin rd 0) Proj.stereographic.name = .ok (stereographicToDirCos (Flt.fin rd 0) (Flt.fin rd 0)) := by
          simp [fieldToDirCos, Proj.name]
        rw [this, stereographicToDirCos, radius_eq h hl, flt_zero h]
        simp [h.zero]
      · simp [ha, Proj.offset]
      · simp [hb, Proj.offset]
      · rw [hc, hθ0, Real.cos_zero]; exact ke

/-- **C136.**  With the tangents, there and back loses a few roundings. -/
theorem C136_back (h : Rounds ε rd) (hε : ε ≤ 1 / 1000) (p : Proj) (hp : p = .gnomonic ∨ p = .zemax) {u v : ℝ} (hF : p.Field u v) :
    ∃ a b c u' v', fieldToDirCos (Flt.fin rd u) (Flt.fin rd v) p.name = .ok (a, b, c) ∧
      dirCosToField a b c p.name = .ok (Flt.fin rd u', Flt.fin rd v') ∧ |u' - u| ≤ 40 * ε * p.offset u ∧ |v' - v| ≤ 40 * ε * p.offset v := by
  have hε0 := h.nonneg
  have hl : ε < 1 := by linarith
  have quot : ∀ {a' c' t N : ℝ}, 0 < N → Rel ε 8 a' (t / N) → Rel ε 8 c' (-1 / N) → c' ≠ 0 ∧ |rd (-a' / c') - t| ≤ 34 * ε * |t| := by
    intro a' c' t N hN ra rc
    refine ⟨rc.ne hl (div_neg_of_neg_of_pos (by norm_num) hN).ne, ?_⟩
    have := (h.after hl (ra.neg.div hl rc)).near hε0 hl 34 (by norm_num) (by linarith)
    rwa [show -(t / N) / (-1 / N) = t by field_simp] at this
  rcases hp with rfl | rfl
  · obtain ⟨a', b', c', e, ra, rb, rc⟩ := gnomonic_near h hε u v
    obtain ⟨cn, ku⟩ := quot (norm_pos u v) ra rc
    obtain ⟨-, kv⟩ := quot (norm_pos u v) rb rc
    refine ⟨_, _, _, rd (-a' / c'), rd (-b' / c'), by simp only [fieldToDirCos, Proj.name, e]; rfl, ?_, ?_, ?_⟩
    · simp [dirCosToField, Proj.name, dirCosToGnomonic, Flt.div_fin cn]
    · have := mul_nonneg hε0 (abs_nonneg u)
      simp only [Proj.offset]
      linarith
    · have := mul_nonneg hε0 (abs_nonneg v)
      simp only [Proj.offset]
      linarith
  · obtain ⟨hu, hv⟩ := hF
    obtain ⟨a', b', c', e, ra, rb, rc⟩ := zemax_near h hε (cos_ne_of_abs hu) (cos_ne_of_abs hv)
    obtain ⟨cn, ku⟩ := quot (norm_pos _ _) ra rc
    obtain ⟨-, kv⟩ := quot (norm_pos _ _) rb rc
    have back : ∀ {t x : ℝ}, |t| < Real.pi / 2 → |x - Real.tan t| ≤ 34 * ε * |Real.tan t| → |rd (Real.arctan x) - t| ≤ 40 * ε * |Real.tan t| := by
      intro t x ht hx
      have et : Real.arctan (Real.tan t) = t := Real.arctan_tan (by linarith [neg_abs_le t]) (by linarith [le_abs_self t])
      have k := (atan_lip x (Real.tan t)).trans hx
      rw [et] at k
      have a1 : |Real.arctan x| ≤ |x| := by simpa using atan_lip x 0
      have a2 : |x| ≤ 2 * |Real.tan t| := by
        have := abs_sub_abs_le_abs_sub x (Real.tan t)
        nlinarith [abs_nonneg (Real.tan t)]
      have r := h.err (Real.arctan x)
      have := mul_le_mul_of_nonneg_left (a1.trans a2) hε0
      have := mul_nonneg hε0 (abs_nonneg (Real.tan t))
      have := abs_sub_le (rd (Real.arctan x)) (Real.arctan x) t
      linarith
    refine ⟨_, _, _, rd (Real.arctan (rd (-a' / c'))), rd (Real.arctan (rd (-b' / c'))), by simp only [fieldToDirCos, Proj.name, e]; rfl, ?_, back hu ku, back hv kv⟩
    simp [dirCosToField, Proj.name, dirCosToZemax, Flt.div_fin cn, Flt.atan_fin]

/-- Numbers that double precision does not tell from one. -/
theorem rd53_near_one {x : ℝ} (h1 : 1 - 2 ^ (-55 : ℤ) ≤ x) (h2 : x ≤ 1) : rd53 x = 1 := by
  rcases h2.eq_or_lt with rfl | h2
  · exact rd53_one
  have e55 : (2 : ℝ) ^ (-55 : ℤ) = 1 / 2 ^ 55 := by norm_num
  rw [e55] at h1
  have xp : 0 < x := by have : (1 : ℝ) / 2 ^ 55 < 1 := by norm_num
                        linarith
  have l1 : Int.log 2 |x| < 0 := by
    rw [abs_of_pos xp, ← Int.lt_zpow_iff_log_lt (by norm_num) xp]
    simpa using h2
  have l2 : -1 ≤ Int.log 2 |x| := by
    rw [abs_of_pos xp, ← Int.zpow_le_iff_le_log (by norm_num) xp]
    norm_num at h1 ⊢
    linarith
  have l : Int.log 2 |x| = -1 := by omega
  have rn : round (x / 2 ^ ((-1 : ℤ) - 52)) = 2 ^ 53 := by
    have e : x / 2 ^ ((-1 : ℤ) - 52) = x * 2 ^ 53 := by
      norm_num [zpow_neg]
      ring
    rw [e, round_eq, Int.floor_eq_iff]
    norm_num at h1 ⊢
    constructor <;> linarith
  rw [rd53, l, rn]
  norm_num [zpow_neg]

theorem tiny_radius : rd53 (Real.sqrt (rd53 (rd53 ((2 : ℝ) ^ (-30 : ℤ) * 2 ^ (-30 : ℤ)) + rd53 (0 * 0)))) = 2 ^ (-30 : ℤ) ∧
    rd53 (rd53 ((2 : ℝ) ^ (-30 : ℤ) * 2 ^ (-30 : ℤ)) + rd53 (0 * 0)) = 2 ^ (-60 : ℤ) := by
  have z0 : rd53 0 = 0 := rd53_rounds.zero
  have s1 : rd53 (2 ^ (-60 : ℤ)) = 2 ^ (-60 : ℤ) := by simpa using rd53_dyadic 1 (-60) (by norm_num)
  have s2 : rd53 (2 ^ (-30 : ℤ)) = 2 ^ (-30 : ℤ) := by simpa using rd53_dyadic 1 (-30) (by norm_num)
  have e : (2 : ℝ) ^ (-30 : ℤ) * 2 ^ (-30 : ℤ) = 2 ^ (-60 : ℤ) := by rw [← zpow_add₀ (by norm_num)]; norm_num
  have q : Real.sqrt (2 ^ (-60 : ℤ)) = 2 ^ (-30 : ℤ) := by rw [← e]; exact Real.sqrt_mul_self (by positivity)
  rw [e, s1, mul_zero, z0, add_zero, s1, q, s2]
  exact ⟨rfl, rfl⟩

/-- In double precision `dirCosToPostel` reports the centre of the field for directions up to about 1e-8 radians off the axis: it takes the angle from
the cosine, which is then rounded to one, although the transverse component still tells the angle to sixteen digits. -/
theorem C136_postel_violated : ∃ a : ℝ, |a - 2 ^ (-30 : ℤ)| ≤ 2 ^ (-80 : ℤ) ∧
    fieldToDirCos (Flt.fin rd53 (2 ^ (-30 : ℤ))) (Flt.fin rd53 0) "postel" = .ok (Flt.fin rd53 a, Flt.fin rd53 0, Flt.fin rd53 (-1)) ∧
    dirCosToField (Flt.fin rd53 a) (Flt.fin rd53 0) (Flt.fin rd53 (-1)) "postel" = .ok (Flt.fin rd53 0, Flt.fin rd53 0) := by
  obtain ⟨hr, -⟩ := tiny_radius
  have z0 : rd53 0 = 0 := rd53_rounds.zero
  have p30 : (0 : ℝ) < 2 ^ (-30 : ℤ) := by positivity
  have m1 : rd53 (-1) = -1 := by simpa using rd53_int (-1) (by norm_num)
  have c1 : rd53 (Real.cos (2 ^ (-30 : ℤ))) = 1 := by
    refine rd53_near_one ?_ (Real.cos_le_one _)
    have := Real.one_sub_sq_div_two_le_cos (x := (2 : ℝ) ^ (-30 : ℤ))
    refine le_trans ?_ this
    norm_num
  refine ⟨rd53 (rd53 (Real.sin (2 ^ (-30 : ℤ)))), ?_, ?_, ?_⟩
  · have k1 := rd53_rounds.err (Real.sin (2 ^ (-30 : ℤ)))
    have k2 := rd53_rounds.err (rd53 (Real.sin (2 ^ (-30 : ℤ))))
    have s1 := Real.sin_lt p30
    have s2 := Real.sin_gt_sub_cube p30
    have s0 : 0 < Real.sin (2 ^ (-30 : ℤ)) := lt_trans (by norm_num) s2
    generalize Real.sin (2 ^ (-30 : ℤ)) = S at *
    rw [abs_of_pos s0] at k1
    have b1 : |rd53 S| ≤ 2 * S := by
      have := abs_sub_abs_le_abs_sub (rd53 S) S
      rw [abs_of_pos s0] at this
      norm_num at k1 this ⊢
      linarith
    generalize rd53 S = S1 at *
    generalize rd53 S1 = S2 at *
    rw [abs_le] at k1 k2 ⊢
    norm_num at k1 k2 s1 s2 ⊢
    constructor <;> linarith
  · have : fieldToDirCos (Flt.fin rd53 (2 ^ (-30 : ℤ))) (Flt.fin rd53 0) "postel" = .ok (postelToDirCos (Flt.fin rd53 (2 ^ (-30 : ℤ))) (Flt.fin rd53 0)) := by
      simp [fieldToDirCos]
    rw [this, postelToDirCos, radius_eq rd53_rounds (by norm_num), hr, flt_zero rd53_rounds]
    simp only [Flt.eq_fin, p30.ne', decide_false, Bool.false_eq_true, if_false, Flt.sin_fin, Flt.cos_fin, Flt.div_fin p30.ne', Flt.mul_fin, Flt.neg_fin,
      div_self p30.ne', zero_div, rd53_one, z0, one_mul, zero_mul, c1]
  · simp [dirCosToField, dirCosToPostel, Flt.const_fin, m1, flt_zero rd53_rounds]

/-- The same for `dirCosToStereographic`. -/
theorem C136_stereographic_violated : ∃ a : ℝ, 0 < a ∧
    fieldToDirCos (Flt.fin rd53 (2 ^ (-30 : ℤ))) (Flt.fin rd53 0) "stereographic" = .ok (Flt.fin rd53 a, Flt.fin rd53 0, Flt.fin rd53 (-1)) ∧
    dirCosToField (Flt.fin rd53 a) (Flt.fin rd53 0) (Flt.fin rd53 (-1)) "stereographic" = .ok (Flt.fin rd53 0, Flt.fin rd53 0) := by
  obtain ⟨hr, -⟩ := tiny_radius
  have z0 : rd53 0 = 0 := rd53_rounds.zero
  have p30 : (0 : ℝ) < 2 ^ (-30 : ℤ) := by positivity
  have m1 : rd53 (-1) = -1 := by simpa using rd53_int (-1) (by norm_num)
  have t2 : rd53 2 = 2 := by simpa using rd53_int 2 (by norm_num)
  have hl : (2 : ℝ) ^ (-53 : ℤ) < 1 := by norm_num
  have half : rd53 ((2 : ℝ) ^ (-30 : ℤ) / 2) = 2 ^ (-31 : ℤ) := by
    have : (2 : ℝ) ^ (-30 : ℤ) / 2 = 2 ^ (-31 : ℤ) := by norm_num
    rw [this]
    simpa using rd53_dyadic 1 (-31) (by norm_num)
  have p31 : (0 : ℝ) < 2 ^ (-31 : ℤ) := by positivity
  have A0 : 0 < Real.arctan (2 ^ (-31 : ℤ)) := Real.arctan_pos.2 p31
  have A1 : Real.arctan (2 ^ (-31 : ℤ)) < 2 ^ (-31 : ℤ) := by
    have := Real.lt_tan A0 (Real.arctan_lt_pi_div_two _)
    rwa [Real.tan_arctan] at this
  have k1 := rd53_rounds.err (Real.arctan (2 ^ (-31 : ℤ)))
  have B0 := (rd53_rounds.rel hl (Real.arctan (2 ^ (-31 : ℤ)))).pos hl A0
  generalize eA : Real.arctan (2 ^ (-31 : ℤ)) = A at *
  rw [abs_of_pos A0] at k1
  generalize eB : rd53 A = B at *
  have B1 : B ≤ 2 ^ (-30 : ℤ) := by
    have := (abs_le.1 k1).2
    norm_num at this A1 ⊢
    linarith
  have k2 := rd53_rounds.err (2 * B)
  have T0 := (rd53_rounds.rel hl (2 * B)).pos hl (by linarith)
  rw [abs_of_pos (by linarith : 0 < 2 * B)] at k2
  generalize eT : rd53 (2 * B) = T at *
  have T1 : T ≤ 2 ^ (-28 : ℤ) := by
    have := (abs_le.1 k2).2
    norm_num at this B1 ⊢
    linarith
  have c1 : rd53 (Real.cos T) = 1 := by
    refine rd53_near_one ?_ (Real.cos_le_one _)
    refine le_trans ?_ (Real.one_sub_sq_div_two_le_cos (x := T))
    have : T ^ 2 ≤ (2 ^ (-28 : ℤ)) ^ 2 := pow_le_pow_left₀ T0.le T1 2
    norm_num at this ⊢
    linarith
  have S0 : 0 < Real.sin T := Real.sin_pos_of_pos_of_lt_pi T0 (by
    refine lt_of_le_of_lt T1 (lt_trans ?_ Real.pi_gt_three)
    norm_num)
  refine ⟨rd53 (rd53 (Real.sin T)), (rd53_rounds.after hl (rd53_rounds.rel hl _)).pos hl S0, ?_, ?_⟩
  · have : fieldToDirCos (Flt.fin rd53 (2 ^ (-30 : ℤ))) (Flt.fin rd53 0) "stereographic" = .ok (stereographicToDirCos (Flt.fin rd53 (2 ^ (-30 : ℤ))) (Flt.fin rd53 0)) := by
      simp [fieldToDirCos]
    rw [this, stereographicToDirCos, radius_eq rd53_rounds (by norm_num), hr, flt_zero rd53_rounds, flt_two, t2]
    simp only [Flt.eq_fin, p30.ne', decide_false, Bool.false_eq_true, if_false, Flt.sin_fin, Flt.cos_fin, Flt.div_fin p30.ne', Flt.div_fin (two_ne_zero : (2 : ℝ) ≠ 0), Flt.mul_fin, Flt.neg_fin,
      div_self p30.ne', zero_div, rd53_one, z0, one_mul, zero_mul, half, Flt.atan_fin, eA, eB, eT, c1]
  · simp [dirCosToField, dirCosToStereographic, Flt.const_fin, m1, flt_zero rd53_rounds]

/-- In double precision the Lambert projection reports the axis for all field angles up to about 1e-8 radians. -/
theorem C136_lambert_violated :
    fieldToDirCos (Flt.fin rd53 (2 ^ (-30 : ℤ))) (Flt.fin rd53 0) "lambert" = .ok (Flt.fin rd53 0, Flt.fin rd53 0, Flt.fin rd53 (-1)) ∧
    ∃ a b c, UnitDir a b c ∧ Proj.lambert.Sees c ∧ Proj.lambert.Shows (2 ^ (-30 : ℤ)) 0 a b c ∧ 2 ^ (-31 : ℤ) < a := by
  have p30 : (0 : ℝ) < 2 ^ (-30 : ℤ) := by positivity
  constructor
  · obtain ⟨hr, hq⟩ := tiny_radius
    have z0 : rd53 0 = 0 := rd53_rounds.zero
    have t2 : rd53 2 = 2 := by simpa using rd53_int 2 (by norm_num)
    have near : rd53 (2 - 2 ^ (-60 : ℤ)) = 2 := by
      have pos : 0 < |2 - (2 : ℝ) ^ (-60 : ℤ)| := by norm_num [zpow_neg]
      have l1 : Int.log 2 |2 - (2 : ℝ) ^ (-60 : ℤ)| < 1 := by
        rw [← Int.lt_zpow_iff_log_lt (by norm_num) pos]
        norm_num [zpow_neg, abs_of_pos]
      have l2 : 0 ≤ Int.log 2 |2 - (2 : ℝ) ^ (-60 : ℤ)| := by
        rw [← Int.zpow_le_iff_le_log (by norm_num) pos]
        norm_num [zpow_neg, abs_of_pos]
      have l : Int.log 2 |2 - (2 : ℝ) ^ (-60 : ℤ)| = 0 := by omega
      have rn : round ((2 - (2 : ℝ) ^ (-60 : ℤ)) / 2 ^ ((0 : ℤ) - 52)) = 2 ^ 53 := by
        rw [round_eq, Int.floor_eq_iff]
        norm_num [zpow_neg]
      rw [rd53, l, rn]
      norm_num [zpow_neg]
    have p60 : (2 : ℝ) ^ (-60 : ℤ) ≠ 0 := by positivity
    have this : fieldToDirCos (Flt.fin rd53 (2 ^ (-30 : ℤ))) (Flt.fin rd53 0) "lambert" = .ok (lambertToDirCos (Flt.fin rd53 (2 ^ (-30 : ℤ))) (Flt.fin rd53 0)) := by
      simp [fieldToDirCos]
    rw [hq] at hr
    rw [mul_zero, z0] at hq
    rw [this, lambertToDirCos]
    simp only [Flt.mul_fin, Flt.add_fin, mul_zero, hq, flt_zero rd53_rounds, flt_one, flt_two, t2, rd53_one, Flt.eq_fin, p60, decide_false, Bool.false_eq_true, if_false,
      Flt.sub_fin, near, Flt.div_fin two_ne_zero, div_self (two_ne_zero (α := ℝ)), mul_one, sub_self, z0, Flt.sqrt_fin (le_refl (0:ℝ)), Real.sqrt_zero,
      Flt.sqrt_fin (by positivity : (0:ℝ) ≤ 2 ^ (-60 : ℤ)), hr, mul_zero, Flt.div_fin p30.ne', zero_div, Flt.neg_fin]
  · obtain ⟨a, b, c, -, hU, hS, hs, -⟩ := C59_there_and_back .lambert (2 ^ (-30 : ℤ)) 0 (by norm_num [Proj.Field])
    refine ⟨a, b, c, hU, hS, hs, ?_⟩
    obtain ⟨θ, h0, hπ, hc, hr, k, hk, ha, hb⟩ := hs
    have hkρ := azimuthal_unique hU h0 hπ hc hk ha hb
    have er : Real.sqrt ((2 : ℝ) ^ (-30 : ℤ) * 2 ^ (-30 : ℤ) + 0 * 0) = 2 ^ (-30 : ℤ) := by
      rw [mul_zero, add_zero]; exact Real.sqrt_mul_self p30.le
    have hr' : (2 : ℝ) ^ (-30 : ℤ) = 2 * Real.sin (θ / 2) := by rw [← er]; exact hr
    rw [er, ← ha] at hkρ
    have e2 : Real.sin θ = 2 * Real.sin (θ / 2) * Real.cos (θ / 2) := by rw [← Real.sin_two_mul]; congr 1; ring
    have cp : 0 < Real.cos (θ / 2) := Real.cos_pos_of_mem_Ioo ⟨by linarith, by linarith⟩
    have sc := Real.sin_sq_add_cos_sq (θ / 2)
    have hs2 : Real.sin (θ / 2) = 2 ^ (-31 : ℤ) := by
      have : (2 : ℝ) ^ (-30 : ℤ) = 2 * 2 ^ (-31 : ℤ) := by norm_num
      linarith
    have ch : 3 / 4 < Real.cos (θ / 2) := by
      rw [hs2] at sc
      norm_num at sc
      nlinarith
    rw [hkρ, e2, hs2]
    norm_num at ch ⊢
    linarith

theorem Flt.arcsin_fin {a : ℝ} (h : -1 ≤ a ∧ a ≤ 1) : Arith.asin (Flt.fin rd a) = Flt.fin rd (rd (Real.arcsin a)) := by
  show Flt.rnd rd (Arith.asin (Dbl.fin a)) = _
  rw [Dbl.asin_fin h]; rfl

/-- **C136** (orthographic, to 45 degrees off axis): the transverse components are the field angles themselves, there and back; the axial one is right to 40 roundings. -/
theorem C136_orthographic (h : Rounds ε rd) (hε : ε ≤ 1 / 1000) {u v : ℝ} (hr : u * u + v * v ≤ 1 / 2) :
    ∃ c', fieldToDirCos (Flt.fin rd u) (Flt.fin rd v) "orthographic" = .ok (Flt.fin rd u, Flt.fin rd v, Flt.fin rd c') ∧
      dirCosToField (Flt.fin rd u) (Flt.fin rd v) (Flt.fin rd c') "orthographic" = .ok (Flt.fin rd u, Flt.fin rd v) ∧
      ∀ a b c, UnitDir a b c → Proj.orthographic.Sees c → Proj.orthographic.Shows u v a b c → a = u ∧ b = v ∧ |c' - c| ≤ 40 * ε := by
  have hε0 := h.nonneg
  have hl : ε < 1 := by linarith
  have s0 : 0 ≤ u * u + v * v := add_nonneg (mul_self_nonneg u) (mul_self_nonneg v)
  have rs : Rel ε 2 (rd (rd (u * u) + rd (v * v))) (u * u + v * v) :=
    h.after hl ((h.rel hl _).add hl (h.rel hl _) (mul_self_nonneg u) (mul_self_nonneg v))
  have s1 := rs.nonneg hl s0
  generalize eS : rd (rd (u * u) + rd (v * v)) = S at *
  have rr : Rel ε 3 (rd (Real.sqrt S)) (Real.sqrt (u * u + v * v)) := h.after hl (rs.sqrt hε0 hl s0)
  set ρ := Real.sqrt (u * u + v * v) with hρ
  have ρ0 : 0 ≤ ρ := Real.sqrt_nonneg _
  have ρρ : ρ * ρ = u * u + v * v := Real.mul_self_sqrt s0
  have ρ1 : ρ ≤ 71 / 100 := by nlinarith
  have kr := rr.near hε0 hl 6 (by norm_num) (by linarith)
  rw [abs_of_nonneg ρ0] at kr
  have r0 := rr.nonneg hl ρ0
  generalize eR : rd (Real.sqrt S) = R at *
  have kr' : |R - ρ| ≤ 5 * ε := by nlinarith
  have R1 : R ≤ 72 / 100 := by have := (abs_le.1 kr').2; linarith
  have ka := h.err (Real.arcsin R)
  have A0 : 0 ≤ Real.arcsin R := Real.arcsin_nonneg.2 r0
  have A1 : Real.arcsin R ≤ 2 := (Real.arcsin_le_pi_div_two R).trans (by linarith [Real.pi_lt_d2])
  rw [abs_of_nonneg A0] at ka
  have kc := h.err (Real.cos (rd (Real.arcsin R)))
  have c1 := Real.abs_cos_le_one (rd (Real.arcsin R))
  have kc2 := Real.abs_cos_sub_cos_le (rd (Real.arcsin R)) (Real.arcsin R)
  rw [Real.cos_arcsin] at kc2
  refine ⟨-rd (Real.cos (rd (Real.arcsin R))), ?_, rfl, fun a b c hU hs hsh => ?_⟩
  · show Except.ok (orthographicToDirCos _ _) = _
    unfold orthographicToDirCos
    simp only [Flt.mul_fin, Flt.add_fin, eS, Flt.sqrt_fin s1, eR, Flt.arcsin_fin (show -1 ≤ R ∧ R ≤ 1 from ⟨by linarith, by linarith⟩), Flt.cos_fin, Flt.neg_fin]
  · obtain ⟨θ, -, -, hc, hrad, k, k0, rfl, rfl⟩ := hsh
    have hsin : ρ = Real.sin θ := hrad
    have hcc : c * c = 1 - ρ * ρ := by
      rw [hc, hsin]
      linarith [Real.sin_sq_add_cos_sq θ]
    have hcs : c = -Real.sqrt (1 - ρ * ρ) := by
      have hs' : c ≤ 0 := hs
      rw [← hcc, Real.sqrt_mul_self_eq_abs, abs_of_nonpos hs', neg_neg]
    have hk : (k * k - 1) * (ρ * ρ) = 0 := by
      unfold UnitDir at hU
      rw [ρρ] at hcc ⊢
      linear_combination hU - hcc
    have kuv : k * u = u ∧ k * v = v := by
      rcases mul_eq_zero.1 hk with e | e
      · have : k = 1 := by nlinarith
        rw [this, one_mul, one_mul]; exact ⟨rfl, rfl⟩
      · rw [ρρ] at e
        have u0 : u = 0 := mul_self_eq_zero.1 (le_antisymm (by linarith [mul_self_nonneg v]) (mul_self_nonneg u))
        have v0 : v = 0 := mul_self_eq_zero.1 (le_antisymm (by linarith [mul_self_nonneg u]) (mul_self_nonneg v))
        rw [u0, v0, mul_zero]; exact ⟨rfl, rfl⟩
    refine ⟨kuv.1, kuv.2, ?_⟩
    have R2 : R ^ 2 ≤ (72 / 100) ^ 2 := pow_le_pow_left₀ r0 R1 2
    have ρ2 : ρ * ρ ≤ 1 / 2 := ρρ ▸ hr
    have q1 : 1 / 2 ≤ Real.sqrt (1 - R ^ 2) := Real.le_sqrt_of_sq_le (by linarith)
    have q2 : 1 / 2 ≤ Real.sqrt (1 - ρ * ρ) := Real.le_sqrt_of_sq_le (by linarith)
    have e1 : Real.sqrt (1 - R ^ 2) * Real.sqrt (1 - R ^ 2) = 1 - R ^ 2 := Real.mul_self_sqrt (by linarith)
    have e2 : Real.sqrt (1 - ρ * ρ) * Real.sqrt (1 - ρ * ρ) = 1 - ρ * ρ := Real.mul_self_sqrt (by linarith)
    have kd : |Real.sqrt (1 - R ^ 2) - Real.sqrt (1 - ρ * ρ)| ≤ 10 * ε := by
      generalize Real.sqrt (1 - R ^ 2) = P at *
      generalize Real.sqrt (1 - ρ * ρ) = Q at *
      have e3 : (P - Q) * (P + Q) = -((R - ρ) * (R + ρ)) := by linear_combination e1 - e2
      have e4 : |P - Q| * (P + Q) = |R - ρ| * (R + ρ) := by
        have := congrArg abs e3
        rwa [abs_neg, abs_mul, abs_mul, abs_of_nonneg (show 0 ≤ P + Q by linarith), abs_of_nonneg (show 0 ≤ R + ρ by linarith)] at this
      have m1 : |P - Q| * 1 ≤ |P - Q| * (P + Q) := mul_le_mul_of_nonneg_left (by linarith only [q1, q2]) (abs_nonneg _)
      have m2 : |R - ρ| * (R + ρ) ≤ 5 * ε * 2 := mul_le_mul kr' (by linarith only [R1, ρ1]) (by linarith only [r0, ρ0]) (by linarith only [hε0])
      linarith only [m1, m2, e4]
    rw [hcs, show -rd (Real.cos (rd (Real.arcsin R))) - -Real.sqrt (1 - ρ * ρ) = -(rd (Real.cos (rd (Real.arcsin R))) - Real.sqrt (1 - ρ * ρ)) by ring, abs_neg]
    have t1 := abs_sub_le (rd (Real.cos (rd (Real.arcsin R)))) (Real.cos (rd (Real.arcsin R))) (Real.sqrt (1 - ρ * ρ))
    have t2 := abs_sub_le (Real.cos (rd (Real.arcsin R))) (Real.sqrt (1 - R ^ 2)) (Real.sqrt (1 - ρ * ρ))
    have t3 := mul_le_mul_of_nonneg_left c1 hε0
    have t4 := mul_le_mul_of_nonneg_left A1 hε0
    linarith only [t1, t2, t3, t4, kc, kc2, ka, kd, hε0]

/-- Square roots of nearby numbers. -/
theorem sqrt_gap {A B : ℝ} (hA : 0 ≤ A) (hB : 0 ≤ B) : |Real.sqrt A - Real.sqrt B| * Real.sqrt B ≤ |A - B| := by
  have a0 := Real.sqrt_nonneg A
  have b0 := Real.sqrt_nonneg B
  have e : A - B = (Real.sqrt A - Real.sqrt B) * (Real.sqrt A + Real.sqrt B) := by
    linear_combination -(Real.mul_self_sqrt hA) + Real.mul_self_sqrt hB
  rw [e, abs_mul, abs_of_nonneg (add_nonneg a0 b0)]
  exact mul_le_mul_of_nonneg_left (by linarith) (abs_nonneg _)

/-- **C136** (lambert, to 60 degrees off axis): the cancellation in `1 - gamma**2` costs accuracy in proportion to the inverse square of the field angle, and no more, there and
back.  Closer to the axis than 14 square roots of a rounding (1.6e-7 in double precision) nothing is claimed: see `C136_lambert_violated`. -/
theorem C136_lambert (h : Rounds ε rd) (hε : ε ≤ 1 / 1000) {u v : ℝ} (hr : u * u + v * v ≤ 1) (hf : 200 * ε ≤ u * u + v * v) (hne : u ≠ 0 ∨ v ≠ 0) :
    ∃ a' b' c' u' v', fieldToDirCos (Flt.fin rd u) (Flt.fin rd v) "lambert" = .ok (Flt.fin rd a', Flt.fin rd b', Flt.fin rd c') ∧
      dirCosToField (Flt.fin rd a') (Flt.fin rd b') (Flt.fin rd c') "lambert" = .ok (Flt.fin rd u', Flt.fin rd v') ∧
      (|u' - u| ≤ 140 * ε * |u| / (u * u + v * v) ∧ |v' - v| ≤ 140 * ε * |v| / (u * u + v * v)) ∧
      ∀ a b c, UnitDir a b c → Proj.lambert.Sees c → Proj.lambert.Shows u v a b c →
        |a' - a| ≤ 140 * ε * |u| / (u * u + v * v) ∧ |b' - b| ≤ 140 * ε * |v| / (u * u + v * v) ∧ |c' - c| ≤ 20 * ε := by
  have h0 := h.nonneg
  have hl : ε < 1 := by linarith
  have sp : 0 < u * u + v * v := by
    rcases hne with e | e
    · have := mul_self_pos.2 e; linarith [mul_self_nonneg v]
    · have := mul_self_pos.2 e; linarith [mul_self_nonneg u]
  have rs : Rel ε 2 (rd (rd (u * u) + rd (v * v))) (u * u + v * v) :=
    h.after hl ((h.rel hl _).add hl (h.rel hl _) (mul_self_nonneg u) (mul_self_nonneg v))
  have rr : Rel ε 3 (rd (Real.sqrt (rd (rd (u * u) + rd (v * v))))) (Real.sqrt (u * u + v * v)) := h.after hl (rs.sqrt h0 hl sp.le)
  have ρp : 0 < Real.sqrt (u * u + v * v) := Real.sqrt_pos.2 sp
  have ρρ : Real.sqrt (u * u + v * v) * Real.sqrt (u * u + v * v) = u * u + v * v := Real.mul_self_sqrt sp.le
  generalize eρ : Real.sqrt (u * u + v * v) = ρ at *
  have shown : ∀ a b c, UnitDir a b c → Proj.lambert.Shows u v a b c → c = -(1 - (u * u + v * v) / 2) ∧
      a = u * Real.sqrt (1 - (1 - (u * u + v * v) / 2) * (1 - (u * u + v * v) / 2)) / ρ ∧
      b = v * Real.sqrt (1 - (1 - (u * u + v * v) / 2) * (1 - (u * u + v * v) / 2)) / ρ := fun a b c hU hsh => by
    obtain ⟨θ, -, -, hc, hrad, k, k0, rfl, rfl⟩ := hsh
    have hsin : ρ = 2 * Real.sin (θ / 2) := by rw [← eρ]; exact hrad
    have hcos : Real.cos θ = 1 - 2 * Real.sin (θ / 2) ^ 2 := by
      have := Real.cos_two_mul' (θ / 2)
      rw [show 2 * (θ / 2) = θ by ring] at this
      linarith [Real.sin_sq_add_cos_sq (θ / 2)]
    have hc' : c = -(1 - (u * u + v * v) / 2) := by
      rw [hc, hcos, ← ρρ, hsin]; ring
    have kk : Real.sqrt (1 - (1 - (u * u + v * v) / 2) * (1 - (u * u + v * v) / 2)) = k * ρ := by
      rw [← Real.sqrt_mul_self (mul_nonneg k0.le ρp.le)]
      congr 1
      unfold UnitDir at hU
      rw [hc'] at hU
      linear_combination -hU - k ^ 2 * ρρ
    refine ⟨hc', ?_, ?_⟩ <;> · rw [kk]; field_simp
  have sn := rs.ne hl sp.ne'
  have two : rd 2 ≠ 0 := (h.rel hl 2).ne hl two_ne_zero
  have kD : Err ε 3 _ _ _ := h.errSub hl (((h.rel hl 2).err h0 hl).mono h0 hl (by norm_num : 1 ≤ 2)) (rs.err h0 hl)
  have kG : Err ε 5 _ _ _ := h.errDiv hl kD (h.rel hl 2)
  have kg := kG.close h0 hl 10 (by norm_num) (by linarith)
  have kQ : Err ε 12 _ _ _ := h.errSub hl (((h.rel hl 1).err h0 hl).mono h0 hl (by norm_num : 1 ≤ 11)) (h.errMul hl kG kG)
  have kq := kQ.close h0 hl 24 (by norm_num) (by linarith)
  have kW : Err ε 8 _ _ _ := h.errAdd hl (((h.rel hl 2).err h0 hl).mono h0 hl (by norm_num : 1 ≤ 7)) (h.errMul hl ((h.rel hl 2).err h0 hl) kG.neg)
  have kw := kW.close h0 hl 16 (by norm_num) (by linarith)
  clear kD kG kQ kW
  rw [abs_of_pos (two_pos : (0 : ℝ) < 2), abs_of_pos sp] at kg
  rw [abs_of_pos (two_pos : (0 : ℝ) < 2), abs_of_pos sp, abs_one] at kq
  rw [abs_of_pos (two_pos : (0 : ℝ) < 2), abs_of_pos sp] at kw
  rw [show (2 - (u * u + v * v)) / 2 = 1 - (u * u + v * v) / 2 by ring] at kg kq kw
  have rm := h.err (-1)
  rw [abs_neg, abs_one] at rm
  generalize eS : u * u + v * v = s at *
  generalize eS' : rd (rd (u * u) + rd (v * v)) = S at *
  generalize eG : rd (rd (rd 2 - S) / rd 2) = G at *
  generalize eQ : rd (rd 1 - rd (G * G)) = Q at *
  generalize eW : rd (rd 2 + rd (rd 2 * -G)) = W at *
  generalize eR : rd (Real.sqrt S) = R at *
  have b1 : (2 + s) / 2 ≤ 3 / 2 := by linarith only [hr]
  have b2 : 1 + (2 + s) / 2 * ((2 + s) / 2) ≤ 13 / 4 := by
    have := mul_le_mul b1 b1 (by linarith only [sp]) (by norm_num)
    linarith only [this]
  have kg' : |G - (1 - s / 2)| ≤ 20 * ε := kg.trans (by linarith only [mul_le_mul_of_nonneg_left b1 h0, h0])
  have kq' : |Q - (1 - (1 - s / 2) * (1 - s / 2))| ≤ 80 * ε := kq.trans (by linarith only [mul_le_mul_of_nonneg_left b2 h0, h0])
  have kw' : |W - s| ≤ 80 * ε := by
    rw [show 2 + 2 * -(1 - s / 2) = s by ring] at kw
    exact kw.trans (by linarith only [mul_le_mul_of_nonneg_left b1 h0, h0])
  have q34 : 3 / 4 * s ≤ 1 - (1 - s / 2) * (1 - s / 2) := by linarith only [mul_le_mul_of_nonneg_left hr sp.le]
  have q1 : 1 - (1 - s / 2) * (1 - s / 2) ≤ s := by linarith only [mul_self_nonneg s]
  generalize eq : 1 - (1 - s / 2) * (1 - s / 2) = q at *
  have Qp : 0 < Q := by
    rcases h0.eq_or_lt with e | e
    · rw [← e, mul_zero] at kq'
      have := abs_nonpos_iff.1 kq'
      linarith
    · linarith [(abs_le.1 kq').1]
  have Wp : 0 < W := by
    rcases h0.eq_or_lt with e | e
    · rw [← e, mul_zero] at kw'
      have := abs_nonpos_iff.1 kw'
      linarith
    · linarith [(abs_le.1 kw').1]
  have qp : 0 < q := by linarith
  have rQ := h.rel hl (Real.sqrt Q)
  have rW := h.rel hl (Real.sqrt W)
  have Rn := rr.ne hl ρp.ne'
  have tn := rQ.ne hl (Real.sqrt_pos.2 Qp).ne'
  have gQ := sqrt_gap Qp.le qp.le
  have gW := sqrt_gap Wp.le sp.le
  have eρ' : Real.sqrt s = ρ := eρ
  rw [eρ'] at gW
  have Gn : -G ≠ rd (-1) := fun c => by
    have k1 := (abs_le.1 kg').2
    have k2 := (abs_le.1 rm).2
    rcases h0.eq_or_lt with e | e
    · rw [← e] at k1 k2
      linarith
    · linarith
  -- the square roots
  have sq0 := Real.sqrt_pos.2 qp
  have sq1 : Real.sqrt q ≤ ρ := by rw [← eρ']; exact Real.sqrt_le_sqrt q1
  have sqq := Real.mul_self_sqrt qp.le
  have hs1 : ε ≤ ε / s := by rw [le_div_iff₀ sp]; exact mul_le_of_le_one_right h0 hr
  have dQ : |Real.sqrt Q - Real.sqrt q| ≤ 107 * (ε / s) * ρ := by
    have m1 : |Real.sqrt Q - Real.sqrt q| * Real.sqrt q ≤ 107 * (ε / s) * Real.sqrt q * Real.sqrt q := by
      refine (gQ.trans kq').trans ?_
      rw [mul_assoc, sqq, mul_div_assoc', div_mul_eq_mul_div, le_div_iff₀ sp]
      linarith only [mul_le_mul_of_nonneg_left q34 h0, mul_nonneg h0 sp.le]
    exact (le_of_mul_le_mul_right m1 sq0).trans (mul_le_mul_of_nonneg_left sq1 (by positivity))
  have dW : |Real.sqrt W - ρ| ≤ 80 * (ε / s) * ρ := by
    refine le_of_mul_le_mul_right (?_ : _ * ρ ≤ _ * ρ) ρp
    refine (gW.trans kw').trans (le_of_eq ?_)
    rw [mul_assoc, ρρ]
    field_simp
  have small : ε / s ≤ 1 / 200 := by rw [div_le_iff₀ sp]; linarith
  have es0 : 0 ≤ ε / s := div_nonneg h0 sp.le
  -- what a component becomes
  have comp : ∀ t : ℝ, |rd (rd (t * rd (Real.sqrt Q)) / R) - t * Real.sqrt q / ρ| ≤ 140 * ε * |t| / s ∧
      |rd (rd (rd (rd (t * rd (Real.sqrt Q)) / R) * rd (Real.sqrt W)) / rd (Real.sqrt Q)) - t| ≤ 140 * ε * |t| / s := fun t => by
    have ra := h.after hl ((h.after hl ((Rel.refl t).mul hl (Rel.refl (rd (Real.sqrt Q))))).div hl rr)
    have ra1 : Rel ε 8 _ _ := (h.after hl ((h.after hl ((Rel.refl t).mul hl rQ)).div hl rr)).mono h0 hl (by norm_num)
    have rb := h.after hl ((h.after hl (ra.mul hl rW)).div hl (Rel.refl (rd (Real.sqrt Q))))
    have rb1 : Rel ε 8 _ _ := rb.mono h0 hl (by norm_num)
    rw [show t * rd (Real.sqrt Q) / ρ * Real.sqrt W / rd (Real.sqrt Q) = t * Real.sqrt W / ρ by field_simp] at rb1
    have fin : ∀ {x y z : ℝ}, |x - t * y / ρ| ≤ 16 * ε * |t * y / ρ| → 0 ≤ z → z ≤ ρ → |y - z| ≤ 107 * (ε / s) * ρ →
        |x - t * z / ρ| ≤ 140 * ε * |t| / s := fun {x y z} k1 z0 z1 k2 => by
      have e0 : ∀ x : ℝ, |t * x / ρ| = |t| * (|x| / ρ) := fun x => by rw [abs_div, abs_mul, abs_of_pos ρp, mul_div_assoc]
      have d1 : |y - z| / ρ ≤ 107 * (ε / s) := by rw [div_le_iff₀ ρp]; exact k2
      have z2 : |z| / ρ ≤ 1 := by rw [abs_of_nonneg z0]; exact (div_le_one ρp).2 z1
      have y2 : |y| / ρ ≤ |z| / ρ + |y - z| / ρ := by
        rw [← add_div]
        exact div_le_div_of_nonneg_right (by linarith [abs_sub_abs_le_abs_sub y z]) ρp.le
      have t1 := abs_sub_le x (t * y / ρ) (t * z / ρ)
      rw [show t * y / ρ - t * z / ρ = t * (y - z) / ρ by ring, e0 (y - z)] at t1
      rw [e0 y] at k1
      have t0 := abs_nonneg t
      have m1 : |t| * (|y - z| / ρ) ≤ |t| * (107 * (ε / s)) := mul_le_mul_of_nonneg_left d1 t0
      have m2 : ε * (|y| / ρ) ≤ ε / s * (1 + 107 / 200) := by
        refine mul_le_mul hs1 (by linarith) (div_nonneg (abs_nonneg _) ρp.le) es0
      have m3 : |t| * (ε * (|y| / ρ)) ≤ |t| * (ε / s * (1 + 107 / 200)) := mul_le_mul_of_nonneg_left m2 t0
      have m4 := mul_nonneg t0 es0
      rw [show 140 * ε * |t| / s = 140 * (|t| * (ε / s)) by ring]
      linarith
    have n1 := ra1.near h0 hl 16 (by norm_num) (by linarith)
    have n2 := rb1.near h0 hl 16 (by norm_num) (by linarith)
    refine ⟨fin n1 (Real.sqrt_nonneg _) sq1 dQ, ?_⟩
    have := fin n2 ρp.le le_rfl (dW.trans (mul_le_mul_of_nonneg_right (by linarith) ρp.le))
    rwa [mul_div_assoc, div_self ρp.ne', mul_one] at this
  refine ⟨rd (rd (u * rd (Real.sqrt Q)) / R), rd (rd (v * rd (Real.sqrt Q)) / R), -G, _, _, ?_, ?_, ⟨(comp u).2, (comp v).2⟩, fun a b c hU _ hsh => ?_⟩
  · show Except.ok (lambertToDirCos _ _) = _
    unfold lambertToDirCos
    simp only [Flt.mul_fin, Flt.add_fin, eS', flt_zero h, flt_one, flt_two, Flt.eq_fin, sn, decide_false, Bool.false_eq_true, if_false, Flt.sub_fin,
      Flt.div_fin two, eG, eQ, Flt.sqrt_fin Qp.le, Flt.sqrt_fin (rs.nonneg hl sp.le), eR, Flt.div_fin Rn, Flt.neg_fin]
  · show Except.ok (dirCosToLambert _ _ _) = _
    unfold dirCosToLambert
    simp only [Flt.const_fin, Rat.cast_neg, Rat.cast_one, Flt.eq_fin, Gn, decide_false, Bool.false_eq_true, if_false, flt_one, flt_two, Flt.mul_fin, Flt.add_fin,
      Flt.sub_fin, neg_mul_neg, eQ, eW, Flt.sqrt_fin Qp.le, Flt.sqrt_fin Wp.le, Flt.div_fin tn]
  · obtain ⟨rfl, rfl, rfl⟩ := shown a b c hU hsh
    refine ⟨(comp u).1, (comp v).1, ?_⟩
    rw [show -G - -(1 - s / 2) = -(G - (1 - s / 2)) by ring, abs_neg]
    exact kg'

/-- A field angle of two degrees or so: the lambert direction is right to some hundred thousand roundings of the angle. -/
example : ∃ a b c a' b' c', UnitDir a b c ∧ Proj.lambert.Shows (1 / 32) 0 a b c ∧
    fieldToDirCos (Flt.fin rd53 (1 / 32)) (Flt.fin rd53 0) "lambert" = .ok (Flt.fin rd53 a', Flt.fin rd53 b', Flt.fin rd53 c') ∧
    |a' - a| ≤ 1 / 10 ^ 12 := by
  obtain ⟨a, b, c, -, hU, hS, hs, -⟩ := C59_there_and_back .lambert (1 / 32) 0 (by norm_num [Proj.Field])
  obtain ⟨a', b', c', -, -, e, -, -, k⟩ := C136_lambert (u := 1 / 32) (v := 0) rd53_rounds (by norm_num) (by norm_num) (by norm_num) (Or.inl (by norm_num))
  refine ⟨a, b, c, a', b', c', hU, hs, e, (k a b c hU hS hs).1.trans ?_⟩
  norm_num [abs_of_pos]

theorem Flt.acos_fin {a : ℝ} (h : -1 ≤ a ∧ a ≤ 1) : Arith.acos (Flt.fin rd a) = Flt.fin rd (rd (Real.arccos a)) := by
  show Flt.rnd rd (Arith.acos (Dbl.fin a)) = _
  rw [Dbl.acos_fin h]; rfl

/-- `sin t / t` moves no more than the cosine. -/
theorem sinc_gap {a b : ℝ} (ha : 0 < a) (hab : a < b) (hb : b ≤ Real.pi / 2) : |Real.sin b / b - Real.sin a / a| ≤ |Real.cos b - Real.cos a| := by
  have dne : ∀ t ∈ Set.Icc a b, t ≠ 0 := fun t ht => (ha.trans_le ht.1).ne'
  have df : ∀ t ∈ Set.Ioo a b, HasDerivAt (fun t => Real.sin t / t) ((Real.cos t * t - Real.sin t * 1) / t ^ 2) t := fun t ht =>
    (Real.hasDerivAt_sin t).div (hasDerivAt_id t) (dne t ⟨ht.1.le, ht.2.le⟩)
  obtain ⟨c, hc, e⟩ := exists_ratio_hasDerivAt_eq_ratio_slope (fun t => Real.sin t / t) _ hab (Real.continuous_sin.continuousOn.div continuousOn_id dne) df
    Real.cos _ Real.continuous_cos.continuousOn fun t _ => Real.hasDerivAt_cos t
  have c0 : 0 < c := ha.trans hc.1
  have cp : c < Real.pi / 2 := hc.2.trans_le hb
  have sc : 0 < Real.sin c := Real.sin_pos_of_pos_of_lt_pi c0 (by linarith [Real.pi_pos])
  have cc : 0 < Real.cos c := Real.cos_pos_of_mem_Ioo ⟨by linarith, cp⟩
  have up : Real.cos c * c ≤ Real.sin c := by
    have := Real.lt_tan c0 cp
    rw [Real.tan_eq_sin_div_cos, lt_div_iff₀ cc] at this
    linarith
  have lo : Real.sin c - Real.cos c * c ≤ Real.sin c * c ^ 2 := by
    rcases le_total c 1 with k | k
    · have h1 := Real.sin_le c0.le
      have h2 := Real.one_sub_sq_div_two_le_cos (x := c)
      have h3 : Real.sin c * (1 - c ^ 2) ≤ c * (1 - c ^ 2) := mul_le_mul_of_nonneg_right h1 (by nlinarith)
      have h4 := mul_le_mul_of_nonneg_right h2 c0.le
      nlinarith [pow_pos c0 3]
    · have : Real.sin c * 1 ≤ Real.sin c * c ^ 2 := mul_le_mul_of_nonneg_left (by nlinarith) sc.le
      have := mul_pos cc c0
      linarith
  have kd : |(Real.cos c * c - Real.sin c * 1) / c ^ 2| ≤ Real.sin c := by
    rw [abs_div, abs_of_nonpos (by linarith), abs_of_pos (pow_pos c0 2), div_le_iff₀ (pow_pos c0 2)]
    linarith
  have e' := congrArg abs e
  rw [abs_mul, abs_mul, abs_neg, abs_of_pos sc] at e'
  have := mul_le_mul_of_nonneg_left kd (abs_nonneg (Real.cos b - Real.cos a))
  exact le_of_mul_le_mul_right (e' ▸ this) sc

/-- **C136** (postel, there and back, to 43 degrees): only a computed axial component of exactly -1 loses the angle (`C136_postel_violated`); for all others the angle comes back right
to 40 roundings of the coordinate, however small, because `rho / sin(rho)` hardly depends on the badly determined `rho`. -/
theorem C136_postel_back (h : Rounds ε rd) (hε : ε ≤ 1 / 1000) (hone : rd (-1) = -1) {u v : ℝ} (hr : u * u + v * v ≤ 9 / 16) (hne : u ≠ 0 ∨ v ≠ 0) :
    ∃ a' b' c', fieldToDirCos (Flt.fin rd u) (Flt.fin rd v) "postel" = .ok (Flt.fin rd a', Flt.fin rd b', Flt.fin rd c') ∧
      (-1 < c' → ∃ u' v', dirCosToField (Flt.fin rd a') (Flt.fin rd b') (Flt.fin rd c') "postel" = .ok (Flt.fin rd u', Flt.fin rd v') ∧
        |u' - u| ≤ 40 * ε * |u| ∧ |v' - v| ≤ 40 * ε * |v|) := by
  have h0 := h.nonneg
  have hl : ε < 1 := by linarith
  have sp : 0 < u * u + v * v := by
    rcases hne with e | e
    · have := mul_self_pos.2 e; linarith [mul_self_nonneg v]
    · have := mul_self_pos.2 e; linarith [mul_self_nonneg u]
  have rs : Rel ε 2 (rd (rd (u * u) + rd (v * v))) (u * u + v * v) :=
    h.after hl ((h.rel hl _).add hl (h.rel hl _) (mul_self_nonneg u) (mul_self_nonneg v))
  have s1 := rs.nonneg hl sp.le
  have rr : Rel ε 3 (rd (Real.sqrt (rd (rd (u * u) + rd (v * v))))) (Real.sqrt (u * u + v * v)) := h.after hl (rs.sqrt h0 hl sp.le)
  have ρp : 0 < Real.sqrt (u * u + v * v) := Real.sqrt_pos.2 sp
  have ρ1 : Real.sqrt (u * u + v * v) ≤ 3 / 4 := Real.sqrt_le_iff.2 ⟨by norm_num, by linarith⟩
  generalize eS : rd (rd (u * u) + rd (v * v)) = S at *
  have pp := rr.pos hl ρp
  have kp := rr.near h0 hl 6 (by norm_num) (by linarith)
  rw [abs_of_pos ρp] at kp
  have p1 : rd (Real.sqrt S) ≤ 19 / 25 := by
    have := mul_le_mul hε ρ1 ρp.le (by norm_num)
    linarith [(abs_le.1 kp).2]
  generalize eP : rd (Real.sqrt S) = p at *
  have kc := h.err (Real.cos p)
  have c1 := Real.abs_cos_le_one p
  have kc' : |rd (Real.cos p) - Real.cos p| ≤ ε := kc.trans (by nlinarith)
  have cl := Real.one_sub_sq_div_two_le_cos (x := p)
  have pq : p ^ 2 ≤ (19 / 25) ^ 2 := pow_le_pow_left₀ pp.le p1 2
  have C0 : 7 / 10 ≤ rd (Real.cos p) := by linarith [(abs_le.1 kc').1]
  refine ⟨rd (rd (u / p) * rd (Real.sin p)), rd (rd (v / p) * rd (Real.sin p)), -rd (Real.cos p), ?_, fun hc => ?_⟩
  · show Except.ok (postelToDirCos _ _) = _
    unfold postelToDirCos
    simp only [Flt.mul_fin, Flt.add_fin, eS, Flt.sqrt_fin s1, eP, flt_zero h, Flt.eq_fin, pp.ne', decide_false, Bool.false_eq_true, if_false, Flt.sin_fin, Flt.cos_fin,
      Flt.div_fin pp.ne', Flt.neg_fin]
  · generalize eC : rd (Real.cos p) = C at *
    have C1 : C < 1 := by linarith
    have eX : Real.cos (Real.arccos C) = C := Real.cos_arccos (by linarith) C1.le
    have X0 : 0 < Real.arccos C := Real.arccos_pos.2 C1
    have X1 : Real.arccos C ≤ 1 := by
      by_contra k
      have := Real.cos_lt_cos_of_nonneg_of_le_pi zero_le_one (Real.arccos_le_pi C) (not_le.1 k)
      rw [eX] at this
      linarith [Real.cos_one_le]
    have kx := h.err (Real.arccos C)
    rw [abs_of_pos X0] at kx
    have kx' : |rd (Real.arccos C) - Real.arccos C| ≤ ε := kx.trans (by nlinarith)
    have x0 := (h.rel hl (Real.arccos C)).pos hl X0
    have x1 : rd (Real.arccos C) ≤ 1001 / 1000 := by linarith [(abs_le.1 kx').2]
    have cx := Real.abs_cos_sub_cos_le (rd (Real.arccos C)) (Real.arccos C)
    rw [eX] at cx
    have acosE : Arith.acos (Flt.fin rd C) = Flt.fin rd (rd (Real.arccos C)) := by
      exact Flt.acos_fin ⟨by linarith, C1.le⟩
    generalize eXx : rd (Real.arccos C) = x at *
    have kcos : |Real.cos x - Real.cos p| ≤ 2 * ε := by
      have := abs_sub_le (Real.cos x) C (Real.cos p)
      linarith
    have ps : 0 < Real.sin p := Real.sin_pos_of_pos_of_lt_pi pp (by linarith [Real.pi_gt_three])
    have xs : 0 < Real.sin x := Real.sin_pos_of_pos_of_lt_pi x0 (by linarith [Real.pi_gt_three])
    have gap : |Real.sin p / p - Real.sin x / x| ≤ 2 * ε := by
      rcases lt_trichotomy p x with k | k | k
      · have := sinc_gap pp k (by linarith [Real.pi_gt_three])
        rw [abs_sub_comm]
        linarith
      · rw [k, sub_self, abs_zero]; linarith
      · have := sinc_gap x0 k (by linarith [Real.pi_gt_three])
        rw [abs_sub_comm] at kcos
        linarith
    have low : 2 / 5 ≤ Real.sin x / x := by
      have k1 := Real.lt_tan x0 (by linarith [Real.pi_gt_three])
      have xq : x ^ 2 ≤ (1001 / 1000) ^ 2 := pow_le_pow_left₀ x0.le x1 2
      have k2 : 2 / 5 ≤ Real.cos x := by linarith [Real.one_sub_sq_div_two_le_cos (x := x)]
      rw [Real.tan_eq_sin_div_cos, lt_div_iff₀ (by linarith)] at k1
      rw [le_div_iff₀ x0]
      nlinarith
    have ratio : |Real.sin p / p / (Real.sin x / x) - 1| ≤ 5 * ε := by
      have lp : 0 < Real.sin x / x := by linarith
      rw [div_sub_one lp.ne', abs_div, abs_of_pos lp, div_le_iff₀ lp]
      have := mul_le_mul_of_nonneg_left low h0
      linarith
    have sxn := (h.rel hl (Real.sin x)).ne hl xs.ne'
    have comp : ∀ t : ℝ, |rd (rd (rd (rd (t / p) * rd (Real.sin p)) * x) / rd (Real.sin x)) - t| ≤ 40 * ε * |t| := fun t => by
      have r1 := h.after hl ((h.rel hl (t / p)).mul hl (h.rel hl (Real.sin p)))
      have r2 : Rel ε 6 _ _ := (h.after hl ((h.after hl (r1.mul hl (Rel.refl x))).div hl (h.rel hl (Real.sin x)))).mono h0 hl (by norm_num)
      have n := r2.near h0 hl 12 (by norm_num) (by linarith)
      rw [show t / p * Real.sin p * x / Real.sin x = t * (Real.sin p / p / (Real.sin x / x)) by field_simp] at n
      generalize Real.sin p / p / (Real.sin x / x) = k at *
      have t0 := abs_nonneg t
      have k2 : |k| ≤ 2 := by linarith [abs_sub_abs_le_abs_sub k 1, abs_one (α := ℝ)]
      rw [abs_mul] at n
      have m1 := abs_sub_le (rd (rd (rd (rd (t / p) * rd (Real.sin p)) * x) / rd (Real.sin x))) (t * k) t
      rw [show t * k - t = t * (k - 1) by ring, abs_mul] at m1
      have m2 := mul_le_mul_of_nonneg_left ratio t0
      have m3 := mul_le_mul_of_nonneg_left k2 (mul_nonneg h0 t0)
      linarith [mul_nonneg h0 t0]
    refine ⟨_, _, ?_, comp u, comp v⟩
    show Except.ok (dirCosToPostel _ _ _) = _
    unfold dirCosToPostel
    simp only [Flt.const_fin, Rat.cast_neg, Rat.cast_one, hone, Flt.eq_fin, hc.ne', decide_false, Bool.false_eq_true, if_false, Flt.neg_fin, neg_neg, acosE, Flt.sin_fin,
      Flt.mul_fin, Flt.div_fin sxn]

/-- Half a radian in double precision comes back. -/
example : ∃ a b c u' v', fieldToDirCos (Flt.fin rd53 (1 / 2)) (Flt.fin rd53 0) "postel" = .ok (a, b, c) ∧
    dirCosToField a b c "postel" = .ok (Flt.fin rd53 u', Flt.fin rd53 v') ∧ |u' - 1 / 2| ≤ 40 * 2 ^ (-53 : ℤ) * |1 / 2| := by
  obtain ⟨a, b, c, -, hU, hS, hs, -⟩ := C59_there_and_back .postel (1 / 2) 0 (by norm_num [Proj.Field]; nlinarith [Real.pi_gt_three])
  obtain ⟨a1, b1, c1, e1, k⟩ := C136_postel_back (u := 1 / 2) (v := 0) rd53_rounds (by norm_num) (by simpa using rd53_int (-1) (by norm_num)) (by norm_num)
    (Or.inl (by norm_num))
  obtain ⟨a2, b2, c2, e2, -, -, k2⟩ := C136_direction (u := 1 / 2) (v := 0) rd53_rounds (by norm_num) .postel trivial
    (by norm_num [Proj.Field]; nlinarith [Real.pi_gt_three]) hU hS hs
  have ec : c1 = c2 := by
    have := e1.symm.trans e2
    injection this with this
    have := congrArg (fun t : Flt rd53 × Flt rd53 × Flt rd53 => t.2.2.val) this
    exact Dbl.fin_inj.1 this
  obtain ⟨θ, -, -, hc, hr, -⟩ := hs
  have er : Real.sqrt ((1 / 2 : ℝ) * (1 / 2) + 0 * 0) = 1 / 2 := by
    rw [mul_zero, add_zero]; exact Real.sqrt_mul_self (by norm_num)
  have hθ : (1 / 2 : ℝ) = θ := by rw [← er]; exact hr
  rw [er] at k2
  have half := Real.cos_two_mul (1 / 2 : ℝ)
  rw [show 2 * (1 / 2 : ℝ) = 1 by norm_num] at half
  have cl : -9 / 10 ≤ c := by
    rw [hc, ← hθ]
    nlinarith [Real.cos_one_le]
  obtain ⟨u', v', e3, k3, -⟩ := k (by
    rw [ec]
    have := (abs_le.1 k2).1
    norm_num at this
    linarith)
  exact ⟨_, _, _, u', v', e1, e3, k3⟩

/-- Not only the axis: the direction (3/5, 0, -4/5). -/
example : ∃ c', fieldToDirCos (Flt.fin rd53 (3 / 5)) (Flt.fin rd53 0) "orthographic" = .ok (Flt.fin rd53 (3 / 5), Flt.fin rd53 0, Flt.fin rd53 c') :=
  let ⟨c', e, _⟩ := C136_orthographic (u := 3 / 5) (v := 0) rd53_rounds (by norm_num) (by norm_num)
  ⟨c', e⟩

/-- A concrete field angle of two degrees or so, in double precision. -/
example : ∃ a b c a' b' c', UnitDir a b c ∧ Proj.postel.Shows (1 / 32) (1 / 64) a b c ∧
    fieldToDirCos (Flt.fin rd53 (1 / 32)) (Flt.fin rd53 (1 / 64)) "postel" = .ok (Flt.fin rd53 a', Flt.fin rd53 b', Flt.fin rd53 c') ∧
    |a' - a| ≤ 40 * 2 ^ (-53 : ℤ) * |1 / 32| := by
  have hF : Proj.postel.Field (1 / 32) (1 / 64) := by
    show _ < _
    nlinarith [Real.pi_gt_three]
  obtain ⟨a, b, c, -, hU, hS, hs, -⟩ := C59_there_and_back .postel (1 / 32) (1 / 64) hF
  obtain ⟨a', b', c', e, k, -⟩ := C136_direction rd53_rounds (by norm_num) .postel trivial hF hU hS hs
  exact ⟨a, b, c, a', b', c', hU, hs, e, k⟩

example : ∃ a b c u' v', fieldToDirCos (Flt.fin rd53 (1 / 32)) (Flt.fin rd53 (1 / 64)) "gnomonic" = .ok (a, b, c) ∧
    dirCosToField a b c "gnomonic" = .ok (Flt.fin rd53 u', Flt.fin rd53 v') ∧ |u' - 1 / 32| ≤ 40 * 2 ^ (-53 : ℤ) * |1 / 32| := by
  obtain ⟨a, b, c, u', v', e, e', k, -⟩ := C136_back (u := 1 / 32) (v := 1 / 64) rd53_rounds (by norm_num) .gnomonic (Or.inl rfl) trivial
  exact ⟨a, b, c, u', v', e, e', k⟩

end results
end Batoid.Props
