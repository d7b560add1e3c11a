import Verif.Props.RoundCalc
import Verif.Props.Obscurations

/-!
# Property C113: which rays are vignetted, in arithmetic with rounding

Specification vocabulary: `Away u x y o`, the point is further from the edges of the obscuration than a few roundings of the
distances involved.
-/

namespace Batoid

/-- An obscuration with stored numbers. -/
def Obsc.withNums {F : Type} (f : ℝ → F) : Obsc ℝ → Obsc F
  | .circle radius x0 y0 => .circle (f radius) (f x0) (f y0)
  | .annulus inner outer x0 y0 => .annulus (f inner) (f outer) (f x0) (f y0)
  | .rectangle w h x0 y0 th => .rectangle (f w) (f h) (f x0) (f y0) (f th)
  | .ray w th x0 y0 => .ray (f w) (f th) (f x0) (f y0)
  | .polygon pts => .polygon (pts.map fun p => (f p.1, f p.2))
  | .negation o => .negation (o.withNums f)
  | .union os => .union (os.map (Obsc.withNums f))
  | .intersection os => .intersection (os.map (Obsc.withNums f))

namespace Props
open Obsc

section spec

/-- Distance in the plane. -/
noncomputable def pdist (x0 y0 x y : ℝ) : ℝ := Real.sqrt ((x - x0) ^ 2 + (y - y0) ^ 2)

/-- Coordinates along and across a direction `th`. -/
noncomputable def along (x0 y0 th x y : ℝ) : ℝ := (x - x0) * Real.cos th + (y - y0) * Real.sin th
noncomputable def across (x0 y0 th x y : ℝ) : ℝ := -(x - x0) * Real.sin th + (y - y0) * Real.cos th

/-- `(x, y)` is not close to where the edge from `p` to `q` passes the height `y`. -/
def FarFromEdge (u x y : ℝ) (p q : ℝ × ℝ) : Prop :=
  min p.2 q.2 < y → y ≤ max p.2 q.2 → p.1 ≠ q.1 →
    12 * u * (|q.1 - p.1| + |p.1|) < |x - ((y - p.2) * (q.1 - p.1) / (q.2 - p.2) + p.1)|

/-- `(x, y)` is not close to the edges. -/
inductive Away (u x y : ℝ) : Obsc ℝ → Prop
  | circle {radius x0 y0} (h : 6 * u * pdist x0 y0 x y < |pdist x0 y0 x y - radius|) : Away u x y (.circle radius x0 y0)
  | annulus {inner outer x0 y0} (h1 : 6 * u * pdist x0 y0 x y < |pdist x0 y0 x y - inner|)
      (h2 : 6 * u * pdist x0 y0 x y < |pdist x0 y0 x y - outer|) : Away u x y (.annulus inner outer x0 y0)
  | rectangle {w h x0 y0 th} (h1 : 8 * u * pdist x0 y0 x y + 2 * u * |w| < |(|along x0 y0 th x y| - w / 2)|)
      (h2 : 8 * u * pdist x0 y0 x y + 2 * u * |h| < |(|across x0 y0 th x y| - h / 2)|) : Away u x y (.rectangle w h x0 y0 th)
  | ray {w th x0 y0} (h1 : 8 * u * pdist x0 y0 x y < |along x0 y0 th x y|)
      (h2 : 8 * u * pdist x0 y0 x y + 2 * u * |w| < |(|across x0 y0 th x y| - w / 2)|) : Away u x y (.ray w th x0 y0)
  | polygon {pts} (h : ∀ e ∈ pts.zip (pts.rotate 1), FarFromEdge u x y e.1 e.2) : Away u x y (.polygon pts)
  | negation {o} (h : Away u x y o) : Away u x y (.negation o)
  | union {os} (h : ∀ o ∈ os, Away u x y o) : Away u x y (.union os)
  | intersection {os} (h : ∀ o ∈ os, Away u x y o) : Away u x y (.intersection os)

end spec

section basic
variable {u : ℝ} {rd : ℝ → ℝ}

theorem decide_lt_near {a b c d e : ℝ} (h : |a - b| + |c - d| ≤ e) (h2 : e < |b - d|) : decide (a < c) = decide (b < d) := by
  have h3 := abs_sub_comm a b
  have k1 := neg_abs_le (a - b)
  have k2 := le_abs_self (a - b)
  have k3 := neg_abs_le (c - d)
  have k4 := le_abs_self (c - d)
  rcases abs_cases (b - d) with ⟨e1, s⟩ | ⟨e1, s⟩ <;> rw [e1] at h2
  · rw [decide_eq_false (by linarith), decide_eq_false (by linarith)]
  · rw [decide_eq_true (by linarith), decide_eq_true (by linarith)]

theorem decide_le_near {a b c d e : ℝ} (h : |a - b| + |c - d| ≤ e) (h2 : e < |b - d|) : decide (a ≤ c) = decide (b ≤ d) := by
  have k1 := neg_abs_le (a - b)
  have k2 := le_abs_self (a - b)
  have k3 := neg_abs_le (c - d)
  have k4 := le_abs_self (c - d)
  rcases abs_cases (b - d) with ⟨e1, s⟩ | ⟨e1, s⟩ <;> rw [e1] at h2
  · rw [decide_eq_false (by linarith), decide_eq_false (by linarith)]
  · rw [decide_eq_true (by linarith), decide_eq_true (by linarith)]

theorem pdist_nonneg (x0 y0 x y : ℝ) : 0 ≤ pdist x0 y0 x y := Real.sqrt_nonneg _

/-- The computed distance. -/
theorem hypot_near (h : Rounds u rd) (hu : u ≤ 1 / 1000) (x0 y0 x y : ℝ) : ∃ d, Arith.hypot (Flt.fin rd x - Flt.fin rd x0)
    (Flt.fin rd y - Flt.fin rd y0) = Flt.fin rd d ∧ |d - pdist x0 y0 x y| ≤ 6 * u * pdist x0 y0 x y := by
  have hu0 := h.nonneg
  have hu1 : u < 1 := by linarith
  refine ⟨_, by rw [Flt.sub_fin, Flt.sub_fin, Flt.hypot_fin], ?_⟩
  have r1 := h.rel hu1 (x - x0)
  have r2 := h.rel hu1 (y - y0)
  have r3 := (r1.mul hu1 r1).add hu1 (r2.mul hu1 r2) (mul_self_nonneg _) (mul_self_nonneg _)
  have r4 := h.after hu1 (r3.sqrt hu0 hu1 (add_nonneg (mul_self_nonneg _) (mul_self_nonneg _)))
  have e : Real.sqrt ((x - x0) * (x - x0) + (y - y0) * (y - y0)) = pdist x0 y0 x y := by
    rw [pdist]; congr 1; ring
  rw [e] at r4
  have := r4.near hu0 hu1 6 (by norm_num) (by linarith)
  rwa [abs_of_nonneg (pdist_nonneg _ _ _ _)] at this

/-- The computed coordinates. -/
theorem proj_near (h : Rounds u rd) (hu : u ≤ 1 / 1000) {a b c s a' b' c' s' : ℝ} (ha : Rel u 1 a' a) (hb : Rel u 1 b' b)
    (hc : Rel u 1 c' c) (hs : Rel u 1 s' s) (one : c ^ 2 + s ^ 2 = 1) :
    |rd (rd (a' * c') + rd (b' * s')) - (a * c + b * s)| ≤ 8 * u * Real.sqrt (a ^ 2 + b ^ 2) := by
  have hu0 := h.nonneg
  have hu1 : u < 1 := by linarith
  have r1 := (h.after hu1 (ha.mul hu1 hc)).near hu0 hu1 6 (by norm_num) (by linarith)
  have r2 := (h.after hu1 (hb.mul hu1 hs)).near hu0 hu1 6 (by norm_num) (by linarith)
  have r3 := h.err (rd (a' * c') + rd (b' * s'))
  have cs : |a * c| + |b * s| ≤ Real.sqrt (a ^ 2 + b ^ 2) := by
    refine Real.le_sqrt_of_sq_le ?_
    rw [abs_mul, abs_mul]
    have e1 := sq_abs a
    have e2 := sq_abs b
    have e3 := sq_abs c
    have e4 := sq_abs s
    have := sq_nonneg (|a| * |s| - |b| * |c|)
    calc (|a| * |c| + |b| * |s|) ^ 2 ≤ (|a| * |c| + |b| * |s|) ^ 2 + (|a| * |s| - |b| * |c|) ^ 2 := by linarith
      _ = (|a| ^ 2 + |b| ^ 2) * (|c| ^ 2 + |s| ^ 2) := by ring
      _ = _ := by rw [e1, e2, e3, e4, one, mul_one]
  generalize rd (rd (a' * c') + rd (b' * s')) = T at *
  generalize rd (a' * c') = P at *
  generalize rd (b' * s') = Q at *
  generalize a * c = p at *
  generalize b * s = q at *
  have k1 : |P| ≤ |p| + 6 * u * |p| := by have := abs_sub_abs_le_abs_sub P p; linarith
  have k2 : |Q| ≤ |q| + 6 * u * |q| := by have := abs_sub_abs_le_abs_sub Q q; linarith
  have k3 : |P + Q| ≤ 2 * (|p| + |q|) := by
    have := abs_add_le P Q
    have p0 := abs_nonneg p
    have q0 := abs_nonneg q
    nlinarith
  have k4 : |T - (p + q)| ≤ |T - (P + Q)| + |P - p| + |Q - q| := by
    have e : T - (p + q) = (T - (P + Q)) + (P - p) + (Q - q) := by ring
    rw [e]
    exact (abs_add_le _ _).trans (add_le_add (abs_add_le _ _) le_rfl)
  have k5 := mul_le_mul_of_nonneg_left k3 hu0
  have k6 := mul_le_mul_of_nonneg_left cs hu0
  linarith

/-- The computed half width. -/
theorem half_near (h : Rounds u rd) (hu : u ≤ 1 / 1000) (w : ℝ) : ∃ d, Flt.fin rd w / (2 : Flt rd) = Flt.fin rd d ∧
    |d - w / 2| ≤ 2 * u * |w| := by
  have hu0 := h.nonneg
  have hu1 : u < 1 := by linarith
  have r2 := h.rel hu1 2
  have ne := r2.ne hu1 two_ne_zero
  have e2 : (2 : Flt rd) = Flt.fin rd (rd 2) := by simpa using Flt.ofNat_fin (rd := rd) 2
  refine ⟨rd (w / rd 2), by rw [e2, Flt.div_fin ne], ?_⟩
  have := (h.after hu1 ((Rel.refl w).div hu1 r2)).near hu0 hu1 4 (by norm_num) (by linarith)
  rw [abs_div, abs_two] at this
  linarith

theorem strip {a a' w d d' e f : ℝ} (ha : |a' - a| ≤ e) (hd : |d - w / 2| ≤ f) (hd' : |d' - -w / 2| ≤ f)
    (h : e + f < |(|a| - w / 2)|) : (decide (d' < a') && decide (a' < d)) = (decide (-w / 2 < a) && decide (a < w / 2)) := by
  rw [Bool.eq_iff_iff]
  simp only [Bool.and_eq_true, decide_eq_true_eq]
  rw [abs_le] at ha hd hd'
  rcases abs_cases (|a| - w / 2) with ⟨e1, s⟩ | ⟨e1, s⟩ <;> rw [e1] at h <;>
    rcases abs_cases a with ⟨e2, s2⟩ | ⟨e2, s2⟩ <;> rw [e2] at h s
  · constructor <;> rintro ⟨h1, h2⟩ <;> exfalso <;> linarith
  · constructor <;> rintro ⟨h1, h2⟩ <;> exfalso <;> linarith
  · exact ⟨fun _ => ⟨by linarith, by linarith⟩, fun _ => ⟨by linarith, by linarith⟩⟩
  · exact ⟨fun _ => ⟨by linarith, by linarith⟩, fun _ => ⟨by linarith, by linarith⟩⟩

/-- The computed crossing of an edge. -/
theorem crossing_near (h : Rounds u rd) (hu : u ≤ 1 / 1000) {y : ℝ} {p q : ℝ × ℝ} (h1 : min p.2 q.2 < y) (h2 : y ≤ max p.2 q.2) :
    ∃ X, (Flt.fin rd y - Flt.fin rd p.2) * (Flt.fin rd q.1 - Flt.fin rd p.1) / (Flt.fin rd q.2 - Flt.fin rd p.2) + Flt.fin rd p.1 =
      Flt.fin rd X ∧ |X - ((y - p.2) * (q.1 - p.1) / (q.2 - p.2) + p.1)| ≤ 12 * u * (|q.1 - p.1| + |p.1|) := by
  have hu0 := h.nonneg
  have hu1 : u < 1 := by linarith
  have ne : q.2 - p.2 ≠ 0 := by
    intro e
    have : q.2 = p.2 := by linarith
    rw [this, min_self] at h1
    rw [this, max_self] at h2
    linarith
  have rd' := h.rel hu1 (q.2 - p.2)
  refine ⟨_, by rw [Flt.sub_fin, Flt.sub_fin, Flt.sub_fin, Flt.mul_fin, Flt.div_fin (rd'.ne hu1 ne), Flt.add_fin], ?_⟩
  have r1 := (h.after hu1 ((h.after hu1 ((h.rel hu1 (y - p.2)).mul hu1 (h.rel hu1 (q.1 - p.1)))).div hu1 rd')).near hu0 hu1 10
    (by norm_num) (by linarith)
  have r2 := h.err (rd (rd (rd (y - p.2) * rd (q.1 - p.1)) / rd (q.2 - p.2)) + p.1)
  have hQ : |(y - p.2) * (q.1 - p.1) / (q.2 - p.2)| ≤ |q.1 - p.1| := by
    rw [abs_div, abs_mul, div_le_iff₀ (abs_pos.2 ne), mul_comm]
    refine mul_le_mul_of_nonneg_left ?_ (abs_nonneg _)
    rcases le_total p.2 q.2 with hle | hle
    · rw [min_eq_left hle] at h1
      rw [max_eq_right hle] at h2
      rw [abs_of_nonneg (by linarith), abs_of_nonneg (by linarith)]
      linarith
    · rw [min_eq_right hle] at h1
      rw [max_eq_left hle] at h2
      rw [abs_of_nonpos (by linarith), abs_of_nonpos (by linarith)]
      linarith
  generalize rd (rd (rd (rd (y - p.2) * rd (q.1 - p.1)) / rd (q.2 - p.2)) + p.1) = X at *
  generalize rd (rd (rd (y - p.2) * rd (q.1 - p.1)) / rd (q.2 - p.2)) = Q at *
  generalize (y - p.2) * (q.1 - p.1) / (q.2 - p.2) = Q0 at *
  have k1 : |Q| ≤ |Q0| + 10 * u * |Q0| := by have := abs_sub_abs_le_abs_sub Q Q0; linarith
  have k2 := abs_add_le Q p.1
  have k3 : |X - (Q0 + p.1)| ≤ |X - (Q + p.1)| + |Q - Q0| := by
    have e : X - (Q0 + p.1) = (X - (Q + p.1)) + (Q - Q0) := by ring
    rw [e]
    exact abs_add_le _ _
  have p0 := abs_nonneg p.1
  have q0 := abs_nonneg Q0
  have k4 : u * |Q + p.1| ≤ u * (2 * |Q0| + |p.1|) := by
    refine mul_le_mul_of_nonneg_left ?_ hu0
    nlinarith
  have k5 := mul_le_mul_of_nonneg_left hQ hu0
  have k6 := mul_nonneg hu0 p0
  linarith

theorem min_flt (a b : ℝ) : Arith.min (Flt.fin rd a) (Flt.fin rd b) = Flt.fin rd (min a b) := by
  unfold Arith.min
  by_cases h : b < a
  · simp [h, min_eq_right h.le]
  · simp [h, min_eq_left (not_lt.mp h)]
theorem max_flt (a b : ℝ) : Arith.max (Flt.fin rd a) (Flt.fin rd b) = Flt.fin rd (max a b) := by
  unfold Arith.max
  by_cases h : a < b
  · simp [h, max_eq_right h.le]
  · simp [h, max_eq_left (not_lt.mp h)]

theorem polyEdge_near (h : Rounds u rd) (hu : u ≤ 1 / 1000) {x y : ℝ} {p q : ℝ × ℝ} (far : FarFromEdge u x y p q) (b : Bool)
    (s : Flt rd) (s' : Dbl) : (polyEdge (Flt.fin rd x) (Flt.fin rd y) (Flt.fin rd p.1, Flt.fin rd p.2) (Flt.fin rd q.1, Flt.fin rd q.2) (s, b)).2 =
      (polyEdge (Dbl.fin x) (Dbl.fin y) (Dbl.fin p.1, Dbl.fin p.2) (Dbl.fin q.1, Dbl.fin q.2) (s', b)).2 := by
  unfold polyEdge
  simp only [min_flt, max_flt, Flt.gt_fin, Flt.le_fin, Flt.eq_fin, Dbl.min_fin, Dbl.max_fin, Dbl.gt_fin, Dbl.le_fin, Dbl.eq_fin,
    decide_eq_true_eq]
  by_cases h1 : min p.2 q.2 < y
  · by_cases h2 : y ≤ max p.2 q.2
    · by_cases h3 : x ≤ max p.1 q.1
      · have ne : p.2 ≠ q.2 := by
          intro e
          rw [e, min_self] at h1
          rw [e, max_self] at h2
          linarith
        have ne' : q.2 - p.2 ≠ 0 := fun e => ne (by linarith)
        obtain ⟨X, hX, hX'⟩ := crossing_near h hu h1 h2
        simp only [h1, h2, h3, ne, if_true, if_false, hX, Dbl.sub_fin, Dbl.mul_fin, Dbl.div_fin ne', Dbl.add_fin, Dbl.le_fin,
          Flt.le_fin]
        by_cases h4 : p.1 = q.1
        · simp [h4]
        · have := decide_le_near (a := x) (b := x) (c := X) (d := (y - p.2) * (q.1 - p.1) / (q.2 - p.2) + p.1)
            (e := 12 * u * (|q.1 - p.1| + |p.1|)) (by simpa using hX') (far h1 h2 h4)
          rw [this]
      · simp only [h1, h2, h3, if_true, if_false]
    · simp only [h1, h2, if_true, if_false]
  · simp only [h1, if_false]

theorem polyLoop_near (h : Rounds u rd) (hu : u ≤ 1 / 1000) {x y : ℝ} (ps : List (ℝ × ℝ)) : ∀ (p : ℝ × ℝ)
    (_ : ∀ e ∈ (p :: ps).zip ps, FarFromEdge u x y e.1 e.2) (b : Bool) (s : Flt rd) (s' : Dbl),
    (polyLoop (Flt.fin rd x) (Flt.fin rd y) (Flt.fin rd p.1, Flt.fin rd p.2) (ps.map fun p => (Flt.fin rd p.1, Flt.fin rd p.2)) (s, b)).2 =
      (polyLoop (Dbl.fin x) (Dbl.fin y) (Dbl.fin p.1, Dbl.fin p.2) (ps.map fun p => (Dbl.fin p.1, Dbl.fin p.2)) (s', b)).2 := by
  induction ps with
  | nil => intro p _ b s s'; rfl
  | cons q ps ih =>
    intro p far b s s'
    have e := polyEdge_near h hu (far (p, q) (by simp)) b s s'
    simp only [List.map_cons, polyLoop]
    generalize polyEdge (Flt.fin rd x) (Flt.fin rd y) (Flt.fin rd p.1, Flt.fin rd p.2) (Flt.fin rd q.1, Flt.fin rd q.2) (s, b) = t at e
    generalize polyEdge (Dbl.fin x) (Dbl.fin y) (Dbl.fin p.1, Dbl.fin p.2) (Dbl.fin q.1, Dbl.fin q.2) (s', b) = t' at e
    obtain ⟨t1, t2⟩ := t
    obtain ⟨t3, t4⟩ := t'
    obtain rfl : t2 = t4 := e
    exact ih q (fun e he => far e (by simp at he ⊢; exact Or.inr he)) t2 t1 t3

end basic

section c113
variable {u : ℝ} {rd : ℝ → ℝ}

/-- C113: with rounding, every obscuration contains the same points as in exact arithmetic, but for points within a few roundings
of an edge. -/
theorem C113_contains (h : Rounds u rd) (hu : u ≤ 1 / 1000) {x y : ℝ} {o : Obsc ℝ} (far : Away u x y o) :
    (o.withNums (Flt.fin rd)).contains (Flt.fin rd x) (Flt.fin rd y) = (o.withNums Dbl.fin).contains (Dbl.fin x) (Dbl.fin y) := by
  have hu0 := h.nonneg
  have hu1 : u < 1 := by linarith
  induction far with
  | @circle radius x0 y0 hr =>
    obtain ⟨d, hd, hd'⟩ := hypot_near h hu x0 y0 x y
    simp only [Obsc.withNums, contains, circleContains, hd, Flt.lt_fin, Dbl.sub_fin, Dbl.hypot_fin, Dbl.lt_fin]
    have e : Real.sqrt ((x - x0) * (x - x0) + (y - y0) * (y - y0)) = pdist x0 y0 x y := by rw [pdist]; congr 1; ring
    rw [e]
    exact decide_lt_near (by simpa using hd') hr
  | @annulus inner outer x0 y0 h1 h2 =>
    obtain ⟨d, hd, hd'⟩ := hypot_near h hu x0 y0 x y
    simp only [Obsc.withNums, contains, annulusContains, hd, Flt.lt_fin, Flt.le_fin, Dbl.sub_fin, Dbl.hypot_fin, Dbl.lt_fin, Dbl.le_fin]
    have e : Real.sqrt ((x - x0) * (x - x0) + (y - y0) * (y - y0)) = pdist x0 y0 x y := by rw [pdist]; congr 1; ring
    rw [e]
    congr 1
    · exact decide_le_near (by simpa using hd') (by rwa [abs_sub_comm])
    · exact decide_lt_near (by simpa using hd') h2
  | @rectangle w hh x0 y0 th h1 h2 =>
    have one := Real.cos_sq_add_sin_sq th
    have rx := h.rel hu1 (x - x0)
    have ry := h.rel hu1 (y - y0)
    have rc := h.rel hu1 (Real.cos th)
    have rs := h.rel hu1 (Real.sin th)
    have a1 := proj_near h hu rx ry rc rs one
    have a2 := proj_near h hu rx.neg ry rs rc (by rw [add_comm]; exact one)
    rw [neg_sq] at a2
    obtain ⟨d1, e1, k1⟩ := half_near h hu w
    obtain ⟨d2, e2, k2⟩ := half_near h hu (-w)
    obtain ⟨d3, e3, k3⟩ := half_near h hu hh
    obtain ⟨d4, e4, k4⟩ := half_near h hu (-hh)
    rw [abs_neg] at k2 k4
    simp only [Obsc.withNums, contains, rectangleContains, Flt.sub_fin, Flt.cos_fin, Flt.sin_fin, Flt.neg_fin, Flt.mul_fin, Flt.add_fin,
      e1, e2, e3, e4, Flt.gt_fin, Flt.lt_fin, Dbl.sub_fin, Dbl.cos_fin, Dbl.sin_fin, Dbl.neg_fin, Dbl.mul_fin, Dbl.add_fin,
      Dbl.ofNat_dbl', Dbl.div_fin (two_ne_zero (α := ℝ)), Dbl.gt_fin, Dbl.lt_fin]
    have s1 := strip a1 k1 k2 h1
    have s2 := strip a2 k3 k4 h2
    rw [Bool.and_assoc, s2, s1, ← Bool.and_assoc]
  | @ray w th x0 y0 h1 h2 =>
    have one := Real.cos_sq_add_sin_sq th
    have rx := h.rel hu1 (x - x0)
    have ry := h.rel hu1 (y - y0)
    have rc := h.rel hu1 (Real.cos th)
    have rs := h.rel hu1 (Real.sin th)
    have a1 := proj_near h hu rx ry rc rs one
    have a2 := proj_near h hu rx.neg ry rs rc (by rw [add_comm]; exact one)
    rw [neg_sq] at a2
    obtain ⟨d1, e1, k1⟩ := half_near h hu w
    obtain ⟨d2, e2, k2⟩ := half_near h hu (-w)
    rw [abs_neg] at k2
    have e0 : (0 : Flt rd) = Flt.fin rd 0 := by simpa [h.zero] using Flt.ofNat_fin (rd := rd) 0
    simp only [Obsc.withNums, contains, rayContains, Flt.sub_fin, Flt.cos_fin, Flt.sin_fin, Flt.neg_fin, Flt.mul_fin, Flt.add_fin,
      e1, e2, e0, Flt.gt_fin, Flt.lt_fin, Dbl.sub_fin, Dbl.cos_fin, Dbl.sin_fin, Dbl.neg_fin, Dbl.mul_fin, Dbl.add_fin,
      Dbl.ofNat_dbl', Dbl.zero_dbl, Dbl.div_fin (two_ne_zero (α := ℝ)), Dbl.gt_fin, Dbl.lt_fin]
    have s2 := strip a2 k1 k2 h2
    rw [Bool.and_assoc, s2, Bool.and_assoc]
    congr 1
    have : |(0 : ℝ) - along x0 y0 th x y| = |along x0 y0 th x y| := by rw [zero_sub, abs_neg]
    exact decide_lt_near (e := 8 * u * pdist x0 y0 x y) (by simpa [pdist] using a1) (by rw [← this] at h1; exact h1)
  | @polygon pts hp =>
    cases pts with
    | nil => simp [Obsc.withNums, contains, polygonContains]
    | cons p ps =>
      simp only [Obsc.withNums, contains, polygonContains, List.map_cons]
      have := polyLoop_near h hu (x := x) (y := y) (ps ++ [p]) p (by
        intro e he
        refine hp e ?_
        have e1 : (p :: ps).rotate 1 = ps ++ [p] := by simp
        rw [e1]
        have e2 : (p :: (ps ++ [p])).zip (ps ++ [p]) = (p :: ps).zip (ps ++ [p]) := by
          rw [← List.cons_append]
          conv_lhs => rw [← List.append_nil (ps ++ [p])]
          rw [List.zip_append (by simp)]
          simp
        rwa [e2] at he) false 0 0
      simpa using this
  | negation _ ih => simp only [Obsc.withNums, contains, ih]
  | @union os _ ih =>
    rw [Bool.eq_iff_iff]
    simp only [Obsc.withNums, contains, unionContains_iff, List.mem_map, exists_exists_and_eq_and]
    refine or_congr Iff.rfl (exists_congr fun o => and_congr_right fun ho => ?_)
    rw [ih o ho]
  | @intersection os _ ih =>
    rw [Bool.eq_iff_iff]
    simp only [Obsc.withNums, contains, interContains_iff, List.mem_map, forall_exists_index, and_imp, forall_apply_eq_imp_iff₂]
    refine and_congr Iff.rfl (forall_congr' fun o => forall_congr' fun ho => ?_)
    rw [ih o ho]

/-- C113: so `obscure` marks the same rays. -/
theorem C113_obscure (h : Rounds u rd) (hu : u ≤ 1 / 1000) {o : Obsc ℝ} {r : V3 ℝ} (far : Away u r.x r.y o) (ray : Ray (Flt rd))
    (hr : ray.r = r.flt rd) : (ray.obscure (o.withNums (Flt.fin rd))).vignetted =
      (ray.vignetted || (o.withNums Dbl.fin).contains (Dbl.fin r.x) (Dbl.fin r.y)) := by
  unfold Ray.obscure
  simp only [hr]
  rw [← C113_contains h hu far]
  rfl

/-- The bounds are tight up to the factor: points closer to an edge can be decided wrongly.  On the rim of a circle of radius 1, at
distance exactly 1, a rounding that shrinks every number puts the point inside. -/
theorem C113_needs_margin {u : ℝ} (hu0 : 0 < u) (hu : u < 1) : ∃ rd : ℝ → ℝ, Rounds u rd ∧
    ((Obsc.circle 1 0 0).withNums (Flt.fin rd)).contains (Flt.fin rd 1) (Flt.fin rd 0) = true ∧
    ((Obsc.circle 1 0 0).withNums Dbl.fin).contains (Dbl.fin 1) (Dbl.fin 0) = false := by
  refine ⟨fun x => (1 - u) * x, ⟨fun x => ?_⟩, ?_, ?_⟩
  · rw [show (1 - u) * x - x = -(u * x) by ring, abs_neg, abs_mul, abs_of_pos hu0]
  · simp only [Obsc.withNums, contains, circleContains, Flt.sub_fin, Flt.hypot_fin, Flt.lt_fin, decide_eq_true_eq]
    have e : (1 - u) * (1 - 0) * ((1 - u) * (1 - 0)) + (1 - u) * (0 - 0) * ((1 - u) * (0 - 0)) = (1 - u) ^ 2 := by ring
    rw [e, Real.sqrt_sq (by linarith)]
    nlinarith
  · simp [Obsc.withNums, contains, circleContains]

/-- A concrete case: a point in the shadow of a spider vane and of a square baffle, in double precision. -/
example : Away (2 ^ (-53 : ℤ)) 1 0 (.union [.annulus 2 4 0 0, .intersection [.ray (1 / 2) 0 0 0, .negation (.circle 3 0 0)],
    .polygon [(-2, -2), (2, -2), (0, 3)]]) := by
  have hd : pdist 0 0 1 0 = 1 := by simp [pdist]
  refine .union ?_
  intro o ho
  simp only [List.mem_cons, List.not_mem_nil, or_false] at ho
  rcases ho with rfl | rfl | rfl
  · refine .annulus ?_ ?_ <;> rw [hd] <;> norm_num [zpow_neg]
  · refine .intersection ?_
    intro o ho
    simp only [List.mem_cons, List.not_mem_nil, or_false] at ho
    rcases ho with rfl | rfl
    · refine .ray ?_ ?_
      · rw [hd]; norm_num [zpow_neg, along]
      · rw [hd]; norm_num [zpow_neg, across, abs_of_pos]
    · refine .negation (.circle ?_)
      rw [hd]; norm_num [zpow_neg]
  · refine .polygon ?_
    intro e he
    simp at he
    rcases he with rfl | rfl | rfl
    · intro h1 h2 h3; norm_num at h2
    · intro h1 h2 h3; norm_num [zpow_neg, abs_of_pos, abs_of_neg]
    · intro h1 h2 h3; norm_num [zpow_neg, abs_of_pos, abs_of_neg]

end c113
end Props
end Batoid
