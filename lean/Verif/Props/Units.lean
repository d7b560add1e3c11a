import Verif.Props.Trace
import Verif.Props.RoundFrames

/-!
# C119: lengths may be measured in any unit

A telescope described in millimetres must trace like the same telescope described in metres.  The units are a parameter: `σ k`
multiplies by the `k`-th power of the ratio of the units, and an arithmetic admits it when its operations respect dimensions.  The exact
arithmetic admits every positive ratio; the arithmetic of doubles admits the powers of two, for which the results are the same bit for
bit.
-/

namespace Batoid.Props
open Batoid Batoid.Arith

/-- `σ k a` is the measure, in the new unit of length, of a quantity of dimension `length^k` that measures `a` in the old one. -/
structure Units (F : Type) [Arith F] (σ : ℤ → F → F) : Prop where
  zero : ∀ a, σ 0 a = a
  comp : ∀ i j a, σ i (σ j a) = σ (i + j) a
  add : ∀ k a b, σ k a + σ k b = σ k (a + b)
  sub : ∀ k a b, σ k a - σ k b = σ k (a - b)
  neg : ∀ k a, -σ k a = σ k (-a)
  mulL : ∀ k a b, σ k a * b = σ k (a * b)
  mulR : ∀ k a b, a * σ k b = σ k (a * b)
  divL : ∀ k a b, σ k a / b = σ k (a / b)
  divR : ∀ k a b, a / σ k b = σ (-k) (a / b)
  sqrt : ∀ a, Arith.sqrt (σ 2 a) = σ 1 (Arith.sqrt a)
  abs : ∀ k a, Arith.abs (σ k a) = σ k (Arith.abs a)
  hypot : ∀ k a b, Arith.hypot (σ k a) (σ k b) = σ k (Arith.hypot a b)
  lt : ∀ k a b, Arith.lt (σ k a) (σ k b) = Arith.lt a b
  le : ∀ k a b, Arith.le (σ k a) (σ k b) = Arith.le a b
  eq : ∀ k a b, Arith.eq (σ k a) (σ k b) = Arith.eq a b
  nought : ∀ k, σ k 0 = 0
  nan : ∀ k, σ k Arith.nan = Arith.nan

/-! ## Arithmetics with units -/

namespace Dbl'

/-- Multiply by the number `c > 0`. -/
noncomputable def times (c : ℝ) : Dbl → Dbl
  | .fin r => .fin (c * r)
  | d => d

end Dbl'
open Dbl'

/-- A change of unit in the exact arithmetic: the new unit is `1/q` of the old one. -/
noncomputable def unit (q : ℝ) (k : ℤ) : Dbl → Dbl := times (q ^ k)

section
variable {c : ℝ}

theorem times_add (a b : Dbl) : times c a + times c b = times c (a + b) := by
  show Dbl.add _ _ = times c (Dbl.add _ _)
  rcases a with _ | _ | _ | a <;> rcases b with _ | _ | _ | b <;> simp [times, Dbl.add, mul_add]

theorem times_neg (a : Dbl) : -times c a = times c (-a) := by
  show Dbl.neg _ = times c (Dbl.neg _)
  rcases a with _ | _ | _ | a <;> simp [times, Dbl.neg]

theorem times_sub (a b : Dbl) : times c a - times c b = times c (a - b) := by
  show Dbl.add _ (Dbl.neg _) = times c (Dbl.add _ (Dbl.neg _))
  rcases a with _ | _ | _ | a <;> rcases b with _ | _ | _ | b <;> simp [times, Dbl.add, Dbl.neg, mul_add]

theorem times_infMul (hc : 0 < c) (a : ℝ) : Dbl.infMul (c * a) = Dbl.infMul a := by
  have h1 : 0 < c * a ↔ 0 < a := mul_pos_iff_of_pos_left hc
  have h2 : c * a = 0 ↔ a = 0 := by simp [hc.ne']
  unfold Dbl.infMul
  simp only [h1, h2]

theorem times_infMul' (d : ℝ) (a : ℝ) : times d (Dbl.infMul a) = Dbl.infMul a := by
  unfold Dbl.infMul
  split_ifs <;> rfl

theorem times_mulL (hc : 0 < c) (a b : Dbl) : times c a * b = times c (a * b) := by
  show Dbl.mul _ _ = times c (Dbl.mul _ _)
  rcases a with _ | _ | _ | a <;> rcases b with _ | _ | _ | b <;>
    simp [times, Dbl.mul, times_infMul hc, mul_assoc, ← mul_neg]
  all_goals (unfold Dbl.infMul; split_ifs <;> rfl)

theorem times_mulR (hc : 0 < c) (a b : Dbl) : a * times c b = times c (a * b) := by
  show Dbl.mul _ _ = times c (Dbl.mul _ _)
  rcases a with _ | _ | _ | a <;> rcases b with _ | _ | _ | b <;>
    simp [times, Dbl.mul, times_infMul hc, mul_left_comm, ← mul_neg]
  all_goals (unfold Dbl.infMul; split_ifs <;> rfl)

theorem times_divL (hc : 0 < c) (a b : Dbl) : times c a / b = times c (a / b) := by
  show Dbl.div _ _ = times c (Dbl.div _ _)
  rcases a with _ | _ | _ | a <;> rcases b with _ | _ | _ | b <;> simp only [times, Dbl.div, mul_zero]
  · split_ifs <;> rfl
  · split_ifs <;> rfl
  · split_ifs
    · rw [times_infMul hc, ← times_infMul' c a]
      unfold Dbl.infMul; split_ifs <;> rfl
    · simp only [mul_div_assoc]

theorem times_divR (hc : 0 < c) (a b : Dbl) : a / times c b = times c⁻¹ (a / b) := by
  have h1 : ∀ b, 0 ≤ c * b ↔ 0 ≤ b := fun b => mul_nonneg_iff_of_pos_left hc
  show Dbl.div _ _ = times c⁻¹ (Dbl.div _ _)
  rcases a with _ | _ | _ | a <;> rcases b with _ | _ | _ | b <;>
    simp only [times, Dbl.div, mul_zero, h1, mul_eq_zero, hc.ne', false_or]
  · split_ifs <;> rfl
  · split_ifs <;> rfl
  · split_ifs
    · rw [← times_infMul' c⁻¹ a]
      unfold Dbl.infMul; split_ifs <;> rfl
    · simp only [Dbl.fin_inj]
      field_simp

theorem times_sqrt (hc : 0 < c) (a : Dbl) : Arith.sqrt (times (c ^ 2) a) = times c (Arith.sqrt a) := by
  show Dbl.sqrt _ = times c (Dbl.sqrt _)
  rcases a with _ | _ | _ | a <;> simp only [times, Dbl.sqrt]
  have h1 : c ^ 2 * a < 0 ↔ a < 0 := by
    constructor <;> intro h <;> nlinarith [sq_nonneg c, pow_pos hc 2]
  simp only [h1]
  split_ifs
  · rfl
  · rw [Real.sqrt_mul (sq_nonneg c), Real.sqrt_sq hc.le]

theorem times_abs (hc : 0 < c) (a : Dbl) : Arith.abs (times c a) = times c (Arith.abs a) := by
  show Dbl.abs _ = times c (Dbl.abs _)
  rcases a with _ | _ | _ | a <;> simp [times, Dbl.abs, abs_mul, abs_of_pos hc]

theorem times_hypot (hc : 0 < c) (a b : Dbl) : Arith.hypot (times c a) (times c b) = times c (Arith.hypot a b) := by
  show Dbl.hypot _ _ = times c (Dbl.hypot _ _)
  rcases a with _ | _ | _ | a <;> rcases b with _ | _ | _ | b <;> simp only [times, Dbl.hypot]
  rw [show c * a * (c * a) + c * b * (c * b) = c ^ 2 * (a * a + b * b) by ring, Real.sqrt_mul (sq_nonneg c), Real.sqrt_sq hc.le]

theorem times_lt (hc : 0 < c) (a b : Dbl) : Arith.lt (times c a) (times c b) = Arith.lt a b := by
  show Dbl.lt _ _ = Dbl.lt _ _
  rcases a with _ | _ | _ | a <;> rcases b with _ | _ | _ | b <;> simp [times, Dbl.lt, hc]

theorem times_le (hc : 0 < c) (a b : Dbl) : Arith.le (times c a) (times c b) = Arith.le a b := by
  show Dbl.le _ _ = Dbl.le _ _
  rcases a with _ | _ | _ | a <;> rcases b with _ | _ | _ | b <;> simp [times, Dbl.le, hc]

theorem times_eq (hc : 0 < c) (a b : Dbl) : Arith.eq (times c a) (times c b) = Arith.eq a b := by
  show Dbl.eq _ _ = Dbl.eq _ _
  rcases a with _ | _ | _ | a <;> rcases b with _ | _ | _ | b <;> simp [times, Dbl.eq, hc.ne']

end

/-- The exact arithmetic admits every change of unit. -/
theorem units_dbl {q : ℝ} (hq : 0 < q) : Units Dbl (unit q) where
  zero a := by rcases a with _ | _ | _ | a <;> simp [unit, times]
  comp i j a := by rcases a with _ | _ | _ | a <;> simp [unit, times, zpow_add₀ hq.ne', mul_assoc]
  add k a b := times_add a b
  sub k a b := times_sub a b
  neg k a := times_neg a
  mulL k a b := times_mulL (zpow_pos hq k) a b
  mulR k a b := times_mulR (zpow_pos hq k) a b
  divL k a b := times_divL (zpow_pos hq k) a b
  divR k a b := by
    show _ / times _ _ = times _ _
    rw [times_divR (zpow_pos hq k), zpow_neg]
  sqrt a := by
    show Arith.sqrt (times (q ^ (2 : ℤ)) a) = times (q ^ (1 : ℤ)) _
    rw [zpow_one, show (q ^ (2 : ℤ) : ℝ) = q ^ 2 from by norm_cast]
    exact times_sqrt hq a
  abs k a := times_abs (zpow_pos hq k) a
  hypot k a b := times_hypot (zpow_pos hq k) a b
  lt k a b := times_lt (zpow_pos hq k) a b
  le k a b := times_le (zpow_pos hq k) a b
  eq k a b := times_eq (zpow_pos hq k) a b
  nought k := by
    rw [Dbl.zero_dbl]
    simp [unit, times]
  nan k := rfl

/-! ### Arithmetic with rounding -/

/-- A change of unit in arithmetic with rounding. -/
noncomputable def unitFlt (rd : ℝ → ℝ) (q : ℝ) (k : ℤ) (a : Flt rd) : Flt rd := ⟨unit q k a.val⟩

/-- Arithmetic with rounding admits the changes of unit that the rounding respects. -/
theorem units_flt {rd : ℝ → ℝ} {q : ℝ} (hq : 0 < q) (hrd : ∀ (k : ℤ) x, rd (q ^ k * x) = q ^ k * rd x) : Units (Flt rd) (unitFlt rd q) := by
  have U := units_dbl hq
  have hr : ∀ k d, Flt.rnd rd (unit q k d) = unitFlt rd q k (Flt.rnd rd d) := by
    intro k d
    rcases d with _ | _ | _ | d
    · rfl
    · rfl
    · rfl
    · show (⟨.fin (rd (q ^ k * d))⟩ : Flt rd) = ⟨.fin (q ^ k * rd d)⟩
      rw [hrd]
  refine { zero := ?_, comp := ?_, add := ?_, sub := ?_, neg := ?_, mulL := ?_, mulR := ?_, divL := ?_, divR := ?_, sqrt := ?_,
           abs := ?_, hypot := ?_, lt := ?_, le := ?_, eq := ?_, nought := ?_, nan := ?_ }
  · intro a; show (⟨unit q 0 a.val⟩ : Flt rd) = a
    rw [U.zero]
  · intro i j a; show (⟨unit q i (unit q j a.val)⟩ : Flt rd) = ⟨unit q (i + j) a.val⟩
    rw [U.comp]
  · intro k a b; show Flt.rnd rd (unit q k a.val + unit q k b.val) = _
    rw [U.add, hr]; rfl
  · intro k a b; show Flt.rnd rd (unit q k a.val - unit q k b.val) = _
    rw [U.sub, hr]; rfl
  · intro k a; show (⟨-unit q k a.val⟩ : Flt rd) = _
    rw [U.neg]; rfl
  · intro k a b; show Flt.rnd rd (unit q k a.val * b.val) = _
    rw [U.mulL, hr]; rfl
  · intro k a b; show Flt.rnd rd (a.val * unit q k b.val) = _
    rw [U.mulR, hr]; rfl
  · intro k a b; show Flt.rnd rd (unit q k a.val / b.val) = _
    rw [U.divL, hr]; rfl
  · intro k a b; show Flt.rnd rd (a.val / unit q k b.val) = _
    rw [U.divR, hr]; rfl
  · intro a; show Flt.rnd rd (Arith.sqrt (unit q 2 a.val)) = _
    rw [U.sqrt, hr]; rfl
  · intro k a; show (⟨Arith.abs (unit q k a.val)⟩ : Flt rd) = _
    rw [U.abs]; rfl
  · intro k a b; show Flt.rnd rd (Arith.hypot (unit q k a.val) (unit q k b.val)) = _
    rw [U.hypot, hr]; rfl
  · intro k a b; exact U.lt k a.val b.val
  · intro k a b; exact U.le k a.val b.val
  · intro k a b; exact U.eq k a.val b.val
  · intro k
    have h0 : rd 0 = 0 ∨ q ^ k = 1 := by
      have := hrd k 0
      rw [mul_zero] at this
      rcases eq_or_ne (q ^ k) 1 with h | h
      · exact .inr h
      · left
        have : (q ^ k - 1) * rd 0 = 0 := by linarith
        rcases mul_eq_zero.1 this with h' | h'
        · exact absurd (by linarith) h
        · exact h'
    rw [Flt.ofNat_fin]
    show (⟨.fin (q ^ k * _)⟩ : Flt rd) = ⟨.fin _⟩
    rcases h0 with h | h
    · simp [h]
    · simp [h]
  · intro k; rfl

theorem log_shift (m : ℤ) {x : ℝ} (hx : 0 < x) : Int.log 2 ((2 : ℝ) ^ m * x) = m + Int.log 2 x := by
  have h2 : ((2 : ℕ) : ℝ) = 2 := by norm_num
  have hp : (0 : ℝ) < 2 ^ m * x := by positivity
  have a1 := Int.zpow_log_le_self (b := 2) (by norm_num) hx
  have a2 := Int.lt_zpow_succ_log_self (b := 2) (by norm_num) x
  rw [h2] at a1 a2
  apply le_antisymm
  · rw [← Int.lt_add_one_iff, ← Int.lt_zpow_iff_log_lt (by norm_num) hp, h2, add_assoc, zpow_add₀ (by norm_num)]
    exact mul_lt_mul_of_pos_left a2 (by positivity)
  · rw [← Int.zpow_le_iff_le_log (by norm_num) hp, h2, zpow_add₀ (by norm_num)]
    exact mul_le_mul_of_nonneg_left a1 (by positivity)

/-- Rounding to double precision commutes with powers of two. -/
theorem rd53_shift (m : ℤ) (x : ℝ) : rd53 (2 ^ m * x) = 2 ^ m * rd53 x := by
  rcases eq_or_ne x 0 with rfl | hx
  · simp [rd53]
  have hp : (0 : ℝ) < 2 ^ m := by positivity
  unfold rd53
  rw [abs_mul, abs_of_pos hp, log_shift m (abs_pos.2 hx), show m + Int.log 2 |x| - 52 = m + (Int.log 2 |x| - 52) by ring,
    zpow_add₀ (by norm_num), mul_div_mul_left _ _ hp.ne']
  ring

/-- Double precision admits the units whose ratio is a power of two. -/
theorem units_rd53 (m : ℤ) : Units (Flt rd53) (unitFlt rd53 (2 ^ m)) :=
  units_flt (by positivity) fun k x => by rw [← zpow_mul]; exact rd53_shift _ x

/-! ## Surfaces -/

/-- Move a change of unit out of an expression. -/
local macro "units " u:ident : tactic => `(tactic| simp only [Units.comp $u, Units.zero $u, Units.add $u, Units.sub $u, Units.neg $u,
  Units.mulL $u, Units.mulR $u, Units.divL $u, Units.divR $u, Units.sqrt $u, Units.abs $u, Units.hypot $u, Units.lt $u, Units.le $u,
  Units.eq $u, Units.nought $u, Units.nan $u, V3.map_x, V3.map_y, V3.map_z, Int.reduceAdd, Int.reduceNeg, Int.reduceSub, neg_neg,
  neg_add_cancel, add_neg_cancel])

section
variable {F : Type} [Arith F] {σ : ℤ → F → F} (U : Units F σ)

/-- Two surfaces that are one surface in the old and in the new unit. -/
structure SameShape (σ : ℤ → F → F) (s s' : Surface F) : Prop where
  sag : ∀ x y, s'.sag (σ 1 x) (σ 1 y) = σ 1 (s.sag x y)
  normal : ∀ x y, s'.normal (σ 1 x) (σ 1 y) = s.normal x y

/-- A ray meets both, or misses both, and after the same time. -/
def UnitHit (σ : ℤ → F → F) (s s' : Surface F) (niter : ℕ) (r v : V3 F) (dt : F) : Prop :=
  s'.timeToIntersect (r.map (σ 1)) v (σ 1 dt) niter = ((s.timeToIntersect r v dt niter).1, σ 1 (s.timeToIntersect r v dt niter).2)

include U

theorem lt_nought (k : ℤ) (a : F) : lt (σ k a) 0 = lt a 0 := by
  have := U.lt k a 0
  rwa [U.nought] at this
theorem gt_nought (k : ℤ) (a : F) : lt 0 (σ k a) = lt 0 a := by
  have := U.lt k 0 a
  rwa [U.nought] at this
theorem eq_nought (k : ℤ) (a : F) : eq (σ k a) 0 = eq a 0 := by
  have := U.eq k a 0
  rwa [U.nought] at this

theorem shape_plane : SameShape σ (Surface.plane : Surface F) Surface.plane :=
  ⟨fun _ _ => (U.nought 1).symm, fun _ _ => rfl⟩

theorem hit_plane (niter : ℕ) (r v : V3 F) (dt : F) : UnitHit σ (Surface.plane : Surface F) Surface.plane niter r v dt := by
  unfold UnitHit Surface.plane
  dsimp only
  units U
  split_ifs <;> rfl

theorem shape_tilted (a b : F) : SameShape σ (Surface.tilted a b) (Surface.tilted a b) :=
  ⟨fun x y => by unfold Surface.tilted; dsimp only; units U, fun _ _ => rfl⟩

theorem hit_tilted (a b : F) (niter : ℕ) (r v : V3 F) (dt : F) : UnitHit σ (Surface.tilted a b) (Surface.tilted a b) niter r v dt := by
  unfold UnitHit Surface.tilted
  dsimp only
  units U
  split_ifs <;> rfl

theorem shape_paraboloid (R : F) : SameShape σ (Surface.paraboloid R) (Surface.paraboloid (σ 1 R)) := by
  constructor
  · intro x y
    show Surface.paraboloidSag _ _ _ = σ 1 (Surface.paraboloidSag _ _ _)
    unfold Surface.paraboloidSag
    simp only [eq_nought U]
    units U
    split_ifs
    · exact (U.nought 1).symm
    · rfl
  · intro x y
    show Surface.paraboloidNormal _ _ _ = Surface.paraboloidNormal _ _ _
    unfold Surface.paraboloidNormal
    simp only [eq_nought U]
    units U

theorem max_units (k : ℤ) (a b : F) : Arith.max (σ k a) (σ k b) = σ k (Arith.max a b) := by
  unfold Arith.max
  units U
  split_ifs <;> rfl

theorem min_units (k : ℤ) (a b : F) : Arith.min (σ k a) (σ k b) = σ k (Arith.min a b) := by
  unfold Arith.min
  units U
  split_ifs <;> rfl

theorem isNaN_units (k : ℤ) (a : F) : Arith.isNaN (σ k a) = Arith.isNaN a := by
  unfold Arith.isNaN
  units U

theorem rootPair_paraboloid (a b c disc : F) :
    Surface.rootPair (σ (-1) a) b (σ 1 c) disc = (σ 1 (Surface.rootPair a b c disc).1, σ 1 (Surface.rootPair a b c disc).2) := by
  unfold Surface.rootPair
  dsimp only
  split_ifs <;> units U

theorem rootPair_sphere (a b c disc : F) :
    Surface.rootPair a (σ 1 b) (σ 2 c) (σ 2 disc) = (σ 1 (Surface.rootPair a b c disc).1, σ 1 (Surface.rootPair a b c disc).2) := by
  unfold Surface.rootPair Arith.gt
  simp only [gt_nought U]
  split_ifs <;> units U

theorem hit_paraboloid (R : F) (niter : ℕ) (r v : V3 F) (dt : F) :
    UnitHit σ (Surface.paraboloid R) (Surface.paraboloid (σ 1 R)) niter r v dt := by
  show Surface.paraboloidTime _ _ _ _ = ((Surface.paraboloidTime _ _ _ _).1, σ 1 (Surface.paraboloidTime _ _ _ _).2)
  unfold Surface.paraboloidTime
  dsimp only
  units U
  simp only [eq_nought U, lt_nought U, rootPair_paraboloid U, max_units U, min_units U]
  split_ifs <;> rfl

theorem shape_sphere (R : F) : SameShape σ (Surface.sphere R) (Surface.sphere (σ 1 R)) := by
  constructor
  · intro x y
    show Surface.sphereSag _ _ _ = σ 1 (Surface.sphereSag _ _ _)
    unfold Surface.sphereSag
    simp only [eq_nought U]
    units U
    split_ifs
    · exact (U.nought 1).symm
    · rfl
  · intro x y
    show Surface.sphereNormal _ _ _ = Surface.sphereNormal _ _ _
    unfold Surface.sphereNormal Surface.sphereDzdr
    units U
    simp only [eq_nought U]

theorem hit_sphere (R : F) (niter : ℕ) (r v : V3 F) (dt : F) : UnitHit σ (Surface.sphere R) (Surface.sphere (σ 1 R)) niter r v dt := by
  show Surface.sphereTime _ _ _ _ = ((Surface.sphereTime _ _ _ _).1, σ 1 (Surface.sphereTime _ _ _ _).2)
  unfold Surface.sphereTime
  dsimp only
  units U
  simp only [lt_nought U, rootPair_sphere U, max_units U, min_units U]
  split_ifs <;> rfl

theorem quadricSag_units (R k x y : F) : Surface.quadricSag (σ 1 R) k (σ 1 x) (σ 1 y) = σ 1 (Surface.quadricSag R k x y) := by
  unfold Surface.quadricSag
  dsimp only
  simp only [eq_nought U]
  units U
  split_ifs
  · exact (U.nought 1).symm
  · rfl

theorem quadricDzdr_units (R k r : F) : Surface.quadricDzdr (σ 1 R) k (σ 1 r) = Surface.quadricDzdr R k r := by
  unfold Surface.quadricDzdr
  simp only [eq_nought U]
  units U

theorem radialNormal_units {f f' : F → F} (h : ∀ r, f' (σ 1 r) = f r) (x y : F) :
    Surface.radialNormal f' (σ 1 x) (σ 1 y) = Surface.radialNormal f x y := by
  unfold Surface.radialNormal
  dsimp only
  units U
  simp only [eq_nought U, h]

theorem quadricTime_units (R k : F) (r v : V3 F) (dt : F) :
    Surface.quadricTime (σ 1 R) k (r.map (σ 1)) v (σ 1 dt) = ((Surface.quadricTime R k r v dt).1, σ 1 (Surface.quadricTime R k r v dt).2) := by
  unfold Surface.quadricTime
  dsimp only
  units U
  simp only [lt_nought U, rootPair_sphere U]
  units U
  split_ifs <;> rfl

theorem shape_quadric (R k : F) : SameShape σ (Surface.quadric R k) (Surface.quadric (σ 1 R) k) :=
  ⟨quadricSag_units U R k, radialNormal_units U (quadricDzdr_units U R k)⟩

theorem hit_quadric (R k : F) (niter : ℕ) (r v : V3 F) (dt : F) : UnitHit σ (Surface.quadric R k) (Surface.quadric (σ 1 R) k) niter r v dt :=
  quadricTime_units U R k r v dt

/-! ### Aspheres -/

omit U in
/-- The coefficients of `r^(2n), r^(2n+2), ...` in the new unit. -/
def powerCoefs (σ : ℤ → F → F) : ℕ → List F → List F
  | _, [] => []
  | n, c :: cs => σ (1 - 2 * n) c :: powerCoefs σ (n + 1) cs

theorem asphereSagLoop_units (r2 : F) : ∀ (n : ℕ) (cs : List F) (rr res : F),
    (Surface.asphereSagLoop (σ 2 r2) (powerCoefs σ (n + 1) cs) (σ (2 * n) rr, σ 1 res)).2 = σ 1 (Surface.asphereSagLoop r2 cs (rr, res)).2
  | _, [], _, _ => rfl
  | n, c :: cs, rr, res => by
    simp only [powerCoefs, Surface.asphereSagLoop]
    rw [show σ (2 * (n : ℤ)) rr * σ 2 r2 = σ (2 * ((n + 1 : ℕ) : ℤ)) (rr * r2) by
        rw [U.mulL, U.mulR, U.comp]; congr 1,
      show σ (1 - 2 * ((n + 1 : ℕ) : ℤ)) c * σ (2 * ((n + 1 : ℕ) : ℤ)) (rr * r2) = σ 1 (c * (rr * r2)) by
        rw [U.mulL, U.mulR, U.comp]; congr 1; push_cast; ring, U.add]
    exact asphereSagLoop_units r2 (n + 1) cs _ _

theorem asphereDzdrLoop_units (rr : F) : ∀ (n i : ℕ) (cs : List F) (rrr res : F),
    (Surface.asphereDzdrLoop (σ 2 rr) (Surface.dzdrCoefs i (powerCoefs σ (n + 1) cs)) (σ (2 * n + 1) rrr, res)).2 =
      (Surface.asphereDzdrLoop rr (Surface.dzdrCoefs i cs) (rrr, res)).2
  | _, _, [], _, _ => rfl
  | n, i, c :: cs, rrr, res => by
    simp only [powerCoefs, Surface.dzdrCoefs, Surface.asphereDzdrLoop]
    rw [show σ (2 * (n : ℤ) + 1) rrr * σ 2 rr = σ (2 * ((n + 1 : ℕ) : ℤ) + 1) (rrr * rr) by
        rw [U.mulL, U.mulR, U.comp]; congr 1,
      show σ (1 - 2 * ((n + 1 : ℕ) : ℤ)) c * const (i : ℚ) * σ (2 * (n : ℤ) + 1) rrr = c * const (i : ℚ) * rrr by
        rw [U.mulL, U.mulL, U.mulR, U.comp]
        rw [show 1 - 2 * ((n + 1 : ℕ) : ℤ) + (2 * (n : ℤ) + 1) = 0 by push_cast; ring, U.zero]]
    exact asphereDzdrLoop_units rr (n + 1) (i + 2) cs _ _

theorem shape_asphere (R k : F) (cs : List F) : SameShape σ (Surface.asphere R k cs) (Surface.asphere (σ 1 R) k (powerCoefs σ 1 cs)) := by
  constructor
  · intro x y
    show Surface.asphereSag _ _ _ _ _ = σ 1 (Surface.asphereSag _ _ _ _ _)
    unfold Surface.asphereSag
    rw [quadricSag_units U]
    units U
    have := asphereSagLoop_units U (x * x + y * y) 0 cs 1 (Surface.quadricSag R k x y)
    simpa [U.zero] using this
  · apply radialNormal_units U
    intro r
    unfold Surface.asphereDzdr
    rw [quadricDzdr_units U]
    units U
    have := asphereDzdrLoop_units U (r * r) 0 2 cs r (Surface.quadricDzdr R k r)
    simpa using this

/-! ### The iteration -/

theorem newtonIter_units {s s' : Surface F} (h : SameShape σ s s') (r v : V3 F) : ∀ (n : ℕ) (dt : F),
    Surface.newtonIter s'.sag s'.normal (r.map (σ 1)) v n (σ 1 dt) = σ 1 (Surface.newtonIter s.sag s.normal r v n dt)
  | 0, _ => rfl
  | n + 1, dt => by
    have : Surface.newtonStep s'.sag s'.normal (r.map (σ 1)) v (σ 1 dt) = σ 1 (Surface.newtonStep s.sag s.normal r v dt) := by
      unfold Surface.newtonStep
      simp only [V3.add_x, V3.add_y, V3.smulR_x, V3.smulR_y]
      units U
      rw [h.sag, h.normal]
      units U
    simp only [Surface.newtonIter, this]
    exact newtonIter_units h r v n _

omit U in
/-- The distance between the surface and the last point of the iteration, along the axis. -/
def lastMiss (s : Surface F) (niter : ℕ) (r v : V3 F) (dt : F) : F :=
  Arith.abs (s.sag (r + v.smulR (Surface.newtonIter s.sag s.normal r v niter dt)).x (r + v.smulR (Surface.newtonIter s.sag s.normal r v niter dt)).y
    - (r + v.smulR (Surface.newtonIter s.sag s.normal r v niter dt)).z)

/-- The iteration runs through the same points in every unit.  Whether it reports success is decided by comparing the last distance
to the surface with `1e-12` of the unit. -/
theorem newton_units {s s' : Surface F} (h : SameShape σ s s') (r v : V3 F) (niter : ℕ) (dt : F) :
    Surface.newton s'.sag s'.normal (r.map (σ 1)) v (σ 1 dt) niter =
      (lt (lastMiss s niter r v dt) (σ (-1) (const (1/10^12))), σ 1 (Surface.newton s.sag s.normal r v dt niter).2) := by
  unfold Surface.newton lastMiss
  dsimp only
  rw [newtonIter_units U h]
  simp only [V3.add_x, V3.add_y, V3.add_z, V3.smulR_x, V3.smulR_y, V3.smulR_z]
  units U
  rw [h.sag]
  units U
  congr 1
  conv_rhs => rw [← U.lt 1, U.comp]
  units U

omit U in
/-- The last point of the iteration is within the tolerance, or outside it, in both units. -/
def SameVerdict (σ : ℤ → F → F) (s : Surface F) (niter : ℕ) (r v : V3 F) (dt : F) : Prop :=
  lt (lastMiss s niter r v dt) (σ (-1) (const (1/10^12))) = lt (lastMiss s niter r v dt) (const (1/10^12))

theorem newton_same {s s' : Surface F} (h : SameShape σ s s') {r v : V3 F} {niter : ℕ} {dt : F} (hv : SameVerdict σ s niter r v dt) :
    Surface.newton s'.sag s'.normal (r.map (σ 1)) v (σ 1 dt) niter =
      ((Surface.newton s.sag s.normal r v dt niter).1, σ 1 (Surface.newton s.sag s.normal r v dt niter).2) := by
  rw [newton_units U h, hv]
  rfl

theorem hit_asphere (R k : F) (cs : List F) (niter : ℕ) (r v : V3 F) (dt : F)
    (hv : SameVerdict σ (Surface.asphere R k cs) niter r v (Surface.quadricTime R k r v dt).2) :
    UnitHit σ (Surface.asphere R k cs) (Surface.asphere (σ 1 R) k (powerCoefs σ 1 cs)) niter r v dt := by
  have := newton_same U (shape_asphere U R k cs) hv
  unfold UnitHit
  simp only [Surface.asphere, quadricTime_units U] at this ⊢
  revert this
  rcases Surface.quadricTime R k r v dt with ⟨_ | _, dt'⟩
  · intro _; rfl
  · intro h; exact h

/-! ### Polynomials -/

omit U in
/-- The coefficients of one polynomial surface in two units. -/
structure SamePoly (σ : ℤ → F → F) (p p' : Surface.PolyData F) : Prop where
  coefs : ∀ i j : ℕ, i < p.ysize → j < p.xsize → p'.coefs (i * p.xsize + j) = σ (1 - i - j) (p.coefs (i * p.xsize + j))
  gradx : ∀ i j : ℕ, i < p.ysize - 1 → j < p.xsize - 1 → p'.gradx (i * (p.xsize - 1) + j) = σ (-i - j) (p.gradx (i * (p.xsize - 1) + j))
  grady : ∀ i j : ℕ, i < p.ysize - 1 → j < p.xsize - 1 → p'.grady (i * (p.xsize - 1) + j) = σ (-i - j) (p.grady (i * (p.xsize - 1) + j))
  xorigin : p'.xorigin = σ 1 p.xorigin
  yorigin : p'.yorigin = σ 1 p.yorigin
  xsize : p'.xsize = p.xsize
  ysize : p'.ysize = p.ysize

theorem foldr_units (k : ℤ) (x : F) {f f' : ℕ → F} : ∀ (n m : ℕ), (∀ i, m ≤ i → i < m + n → f' i = σ (k - i) (f i)) →
    (List.range' m n).foldr (fun i res => res * σ 1 x + f' i) 0 = σ (k - m) ((List.range' m n).foldr (fun i res => res * x + f i) 0)
  | 0, m, _ => (U.nought _).symm
  | n + 1, m, h => by
    simp only [List.range'_succ, List.foldr_cons]
    rw [foldr_units k x n (m + 1) (fun i h1 h2 => h i (by omega) (by omega)), h m le_rfl (by omega), U.mulL, U.mulR, U.comp,
      show k - ((m + 1 : ℕ) : ℤ) + 1 = k - m by push_cast; ring, U.add]

theorem horner_units (k : ℤ) (x : F) {f f' : ℕ → F} (n : ℕ) (h : ∀ i, i < n → f' i = σ (k - i) (f i)) :
    Surface.horner (σ 1 x) f' n = σ k (Surface.horner x f n) := by
  unfold Surface.horner
  rw [List.range_eq_range']
  have := foldr_units U k x (f := f) (f' := f') n 0 (fun i _ h2 => h i (by omega))
  simpa using this

theorem horner2d_units (k : ℤ) (x y : F) {f f' : ℕ → F} (nx ny : ℕ) (h : ∀ i j : ℕ, i < ny → j < nx → f' (i * nx + j) = σ (k - i - j) (f (i * nx + j))) :
    Surface.horner2d (σ 1 x) (σ 1 y) f' nx ny = σ k (Surface.horner2d x y f nx ny) := by
  unfold Surface.horner2d
  rw [List.range_eq_range']
  have := foldr_units U k x (f := fun i => Surface.horner y (fun j => f (i * nx + j)) nx)
    (f' := fun i => Surface.horner (σ 1 y) (fun j => f' (i * nx + j)) nx) ny 0
    (fun i _ h2 => horner_units U (k - i) y nx (fun j hj => h i j (by omega) hj))
  simpa using this

theorem shape_polynomial {p p' : Surface.PolyData F} (h : SamePoly σ p p') : SameShape σ (Surface.polynomial p) (Surface.polynomial p') := by
  constructor
  · intro x y
    show Surface.polySag _ _ _ = σ 1 (Surface.polySag _ _ _)
    unfold Surface.polySag
    rw [h.xorigin, h.yorigin, h.xsize, h.ysize, U.sub, U.sub]
    exact horner2d_units U 1 _ _ _ _ h.coefs
  · intro x y
    show Surface.polyNormal _ _ _ = Surface.polyNormal _ _ _
    unfold Surface.polyNormal
    rw [h.xorigin, h.yorigin, h.xsize, h.ysize, U.sub, U.sub,
      horner2d_units U 0 _ _ _ _ (by simpa using h.gradx), horner2d_units U 0 _ _ _ _ (by simpa using h.grady), U.zero, U.zero]

theorem hit_polynomial {p p' : Surface.PolyData F} (h : SamePoly σ p p') (niter : ℕ) (r v : V3 F) (dt : F)
    (hv : SameVerdict σ (Surface.polynomial p) niter r v dt) : UnitHit σ (Surface.polynomial p) (Surface.polynomial p') niter r v dt :=
  newton_same U (shape_polynomial U h) hv

/-! ### Tables -/

omit U in
/-- One table in two units. -/
structure SameTable (σ : ℤ → F → F) (T T' : Surface.Table F) : Prop where
  x0 : T'.x0 = σ 1 T.x0
  y0 : T'.y0 = σ 1 T.y0
  dx : T'.dx = σ 1 T.dx
  dy : T'.dy = σ 1 T.dy
  z : ∀ i, T'.z i = σ 1 (T.z i)
  dzdx : ∀ i, T'.dzdx i = T.dzdx i
  dzdy : ∀ i, T'.dzdy i = T.dzdy i
  d2zdxdy : ∀ i, T'.d2zdxdy i = σ (-1) (T.d2zdxdy i)
  nx : T'.nx = T.nx
  ny : T'.ny = T.ny
  useNan : T'.useNan = T.useNan

theorem oneDSpline_units (k : ℤ) (x a b c d : F) :
    Surface.oneDSpline x (σ k a) (σ k b) (σ k c) (σ k d) = σ k (Surface.oneDSpline x a b c d) := by
  unfold Surface.oneDSpline
  units U

theorem oneDGrad_units (k : ℤ) (x a b c d : F) :
    Surface.oneDGrad x (σ k a) (σ k b) (σ k c) (σ k d) = σ k (Surface.oneDGrad x a b c d) := by
  unfold Surface.oneDGrad
  units U

section
variable {T T' : Surface.Table F} (h : SameTable σ T T')
include h

theorem cell_units (x y : F) : T'.cell (σ 1 x) (σ 1 y) = T.cell x y := by
  unfold Surface.Table.cell
  rw [h.x0, h.y0, h.dx, h.dy, h.nx, h.ny]
  units U

theorem xfrac_units (x : F) (i : ℕ) : T'.xfrac (σ 1 x) i = T.xfrac x i := by
  unfold Surface.Table.xfrac
  rw [h.x0, h.dx]
  units U

theorem yfrac_units (x : F) (i : ℕ) : T'.yfrac (σ 1 x) i = T.yfrac x i := by
  unfold Surface.Table.yfrac
  rw [h.y0, h.dy]
  units U

theorem patch_units (i j : ℕ) (x y : F) : T'.patch i j x y = σ 1 (T.patch i j x y) := by
  unfold Surface.Table.patch
  simp only [h.z, h.dzdx, h.dzdy, h.d2zdxdy, h.dx, h.dy, h.nx]
  repeat (first | simp only [oneDSpline_units U] | units U)

theorem patchGradX_units (i j : ℕ) (x y : F) : T'.patchGradX i j x y = T.patchGradX i j x y := by
  unfold Surface.Table.patchGradX
  simp only [h.z, h.dzdx, h.dzdy, h.d2zdxdy, h.dx, h.dy, h.nx]
  repeat (first | simp only [oneDGrad_units U, oneDSpline_units U] | units U)

theorem patchGradY_units (i j : ℕ) (x y : F) : T'.patchGradY i j x y = T.patchGradY i j x y := by
  unfold Surface.Table.patchGradY
  simp only [h.z, h.dzdx, h.dzdy, h.d2zdxdy, h.dx, h.dy, h.nx]
  repeat (first | simp only [oneDGrad_units U, oneDSpline_units U] | units U)

theorem shape_bicubic : SameShape σ (Surface.bicubic T) (Surface.bicubic T') := by
  constructor
  · intro x y
    show T'.eval _ _ = σ 1 (T.eval _ _)
    unfold Surface.Table.eval
    rw [cell_units U h, h.useNan]
    rcases T.cell x y with _ | ⟨i, j⟩
    · dsimp only
      split_ifs
      · exact (U.nan 1).symm
      · exact (U.nought 1).symm
    · dsimp only
      rw [xfrac_units U h, yfrac_units U h, patch_units U h]
  · intro x y
    have hg : T'.grad (σ 1 x) (σ 1 y) = T.grad x y := by
      unfold Surface.Table.grad
      rw [cell_units U h, h.useNan]
      rcases T.cell x y with _ | ⟨i, j⟩
      · rfl
      · dsimp only
        rw [xfrac_units U h, yfrac_units U h, patchGradX_units U h, patchGradY_units U h]
    show Surface.bicubicNormal _ _ _ = Surface.bicubicNormal _ _ _
    unfold Surface.bicubicNormal
    rw [hg]

theorem hit_bicubic (niter : ℕ) (r v : V3 F) (dt : F) (hv : SameVerdict σ (Surface.bicubic T) niter r v dt) :
    UnitHit σ (Surface.bicubic T) (Surface.bicubic T') niter r v dt :=
  newton_same U (shape_bicubic U h) hv

end

/-- A grid of heights given in the new unit makes the table in the new unit. -/
theorem sameTable_ofGrid (xa xb ya yb : F) (nx ny : ℕ) (z : ℕ → ℕ → F) (useNan : Bool) :
    SameTable σ (Surface.Table.ofGrid xa xb ya yb nx ny z useNan)
      (Surface.Table.ofGrid (σ 1 xa) (σ 1 xb) (σ 1 ya) (σ 1 yb) nx ny (fun i j => σ 1 (z i j)) useNan) := by
  have d1 : ∀ (n : ℕ) (hh : F) (f : ℕ → F) (i : ℕ), Surface.rowDiff n (σ 1 hh) (fun i => σ 1 (f i)) i = Surface.rowDiff n hh f i := by
    intro n hh f i
    unfold Surface.rowDiff
    units U
  have d2 : ∀ (n : ℕ) (hh : F) (f : ℕ → F) (i : ℕ), Surface.rowDiff n (σ 1 hh) f i = σ (-1) (Surface.rowDiff n hh f i) := by
    intro n hh f i
    unfold Surface.rowDiff
    units U
    split_ifs <;> rfl
  constructor <;> (try intro i) <;> simp only [Surface.Table.ofGrid] <;> units U <;> first
    | exact d1 _ _ _ _
    | (simp only [d1]; exact d2 _ _ _ _)

/-! ### Sums -/

omit U in
/-- Two lists of surfaces, one for each unit. -/
abbrev SameShapes (σ : ℤ → F → F) : List (Surface F) → List (Surface F) → Prop := List.Forall₂ (SameShape σ)

theorem sumSag_units {ss ss' : List (Surface F)} (h : SameShapes σ ss ss') (x y : F) :
    Surface.sumSag ss' (σ 1 x) (σ 1 y) = σ 1 (Surface.sumSag ss x y) := by
  unfold Surface.sumSag
  have : ∀ acc, ss'.foldl (fun acc s => acc + s.sag (σ 1 x) (σ 1 y)) (σ 1 acc) = σ 1 (ss.foldl (fun acc s => acc + s.sag x y) acc) := by
    induction h with
    | nil => intro acc; rfl
    | cons h1 _ ih =>
      intro acc
      simp only [List.foldl_cons]
      rw [h1.sag, U.add]
      exact ih _
  have h0 := this 0
  rwa [U.nought] at h0

omit U in
theorem sumNormal_units {ss ss' : List (Surface F)} (h : SameShapes σ ss ss') (x y : F) :
    Surface.sumNormal ss' (σ 1 x) (σ 1 y) = Surface.sumNormal ss x y := by
  have : ∀ acc : F × F, ss'.foldl (fun (acc : F × F) s => (acc.1 + (s.normal (σ 1 x) (σ 1 y)).x / (s.normal (σ 1 x) (σ 1 y)).z,
      acc.2 + (s.normal (σ 1 x) (σ 1 y)).y / (s.normal (σ 1 x) (σ 1 y)).z)) acc =
      ss.foldl (fun (acc : F × F) s => (acc.1 + (s.normal x y).x / (s.normal x y).z, acc.2 + (s.normal x y).y / (s.normal x y).z)) acc := by
    induction h with
    | nil => intro acc; rfl
    | cons h1 _ ih =>
      intro acc
      simp only [List.foldl_cons]
      rw [h1.normal]
      exact ih _
  unfold Surface.sumNormal
  dsimp only
  rw [this]

theorem shape_sum {ss ss' : List (Surface F)} (h : SameShapes σ ss ss') : SameShape σ (Surface.sum ss) (Surface.sum ss') :=
  ⟨sumSag_units U h, sumNormal_units h⟩

theorem hit_sum {s s' : Surface F} {ss ss' : List (Surface F)} (h1 : SameShape σ s s') (h : SameShapes σ ss ss') (niter : ℕ) (r v : V3 F) (dt : F)
    (hh : UnitHit σ s s' niter r v dt)
    (hv : SameVerdict σ (Surface.sum (s :: ss)) niter r v (s.timeToIntersect r v dt niter).2) :
    UnitHit σ (Surface.sum (s :: ss)) (Surface.sum (s' :: ss')) niter r v dt := by
  have := newton_same U (shape_sum U (List.Forall₂.cons h1 h)) hv
  unfold UnitHit
  simp only [Surface.sum, Surface.sumTime, show s'.timeToIntersect (r.map (σ 1)) v (σ 1 dt) niter = _ from hh] at this ⊢
  revert this
  rcases s.timeToIntersect r v dt niter with ⟨_ | _, dt'⟩
  · intro _; rfl
  · intro h; exact h

/-! ## Obscurations -/

omit U [Arith F] in
mutual
/-- An obscuration in the new unit: lengths are converted and angles are not. -/
def inUnit (σ : ℤ → F → F) : Obsc F → Obsc F
  | .circle radius x0 y0 => .circle (σ 1 radius) (σ 1 x0) (σ 1 y0)
  | .annulus inner outer x0 y0 => .annulus (σ 1 inner) (σ 1 outer) (σ 1 x0) (σ 1 y0)
  | .rectangle w h x0 y0 th => .rectangle (σ 1 w) (σ 1 h) (σ 1 x0) (σ 1 y0) th
  | .ray w th x0 y0 => .ray (σ 1 w) th (σ 1 x0) (σ 1 y0)
  | .polygon pts => .polygon (pts.map fun p => (σ 1 p.1, σ 1 p.2))
  | .negation o => .negation (inUnit σ o)
  | .union os => .union (inUnits σ os)
  | .intersection os => .intersection (inUnits σ os)
/-- A list of obscurations in the new unit. -/
def inUnits (σ : ℤ → F → F) : List (Obsc F) → List (Obsc F)
  | [] => []
  | o :: os => inUnit σ o :: inUnits σ os
end

theorem polyEdge_units (x y : F) (p1 p2 : F × F) (st : F × Bool) :
    Obsc.polyEdge (σ 1 x) (σ 1 y) (σ 1 p1.1, σ 1 p1.2) (σ 1 p2.1, σ 1 p2.2) (σ 1 st.1, st.2) =
      (σ 1 (Obsc.polyEdge x y p1 p2 st).1, (Obsc.polyEdge x y p1 p2 st).2) := by
  unfold Obsc.polyEdge Arith.gt
  dsimp only
  simp only [min_units U, max_units U]
  units U
  have hi : (if eq p1.2 p2.2 = true then σ 1 st.1 else σ 1 ((y - p1.2) * (p2.1 - p1.1) / (p2.2 - p1.2) + p1.1)) =
      σ 1 (if eq p1.2 p2.2 = true then st.1 else (y - p1.2) * (p2.1 - p1.1) / (p2.2 - p1.2) + p1.1) := by split_ifs <;> rfl
  rw [hi]
  units U
  by_cases h1 : lt (Arith.min p1.2 p2.2) y = true
  · by_cases h2 : le y (Arith.max p1.2 p2.2) = true
    · by_cases h3 : le x (Arith.max p1.1 p2.1) = true
      · simp only [h1, h2, h3, if_true]
      · simp only [h1, h2, h3, if_true]; rfl
    · simp only [h1, h2, if_true]; rfl
  · simp only [h1]; rfl

theorem polyLoop_units (x y : F) : ∀ (ps : List (F × F)) (p : F × F) (st : F × Bool),
    Obsc.polyLoop (σ 1 x) (σ 1 y) (σ 1 p.1, σ 1 p.2) (ps.map fun p => (σ 1 p.1, σ 1 p.2)) (σ 1 st.1, st.2) =
      (σ 1 (Obsc.polyLoop x y p ps st).1, (Obsc.polyLoop x y p ps st).2)
  | [], _, _ => rfl
  | q :: ps, p, st => by
    simp only [List.map_cons, Obsc.polyLoop]
    rw [polyEdge_units U]
    exact polyLoop_units x y ps q _

theorem polygon_units (pts : List (F × F)) (x y : F) :
    Obsc.polygonContains (pts.map fun p => (σ 1 p.1, σ 1 p.2)) (σ 1 x) (σ 1 y) = Obsc.polygonContains pts x y := by
  cases pts with
  | nil => rfl
  | cons p ps =>
    have := polyLoop_units U x y (ps ++ [p]) p (0, false)
    rw [U.nought, List.map_append, List.map_cons, List.map_nil] at this
    simp only [Obsc.polygonContains, List.map_cons]
    rw [this]

set_option linter.unusedSectionVars false in
mutual
theorem contains_units : ∀ (o : Obsc F) (x y : F), (inUnit σ o).contains (σ 1 x) (σ 1 y) = o.contains x y
  | .circle radius x0 y0, x, y => by
    simp only [inUnit, Obsc.contains, Obsc.circleContains]
    units U
  | .annulus inner outer x0 y0, x, y => by
    simp only [inUnit, Obsc.contains, Obsc.annulusContains]
    units U
  | .rectangle w h x0 y0 th, x, y => by
    simp only [inUnit, Obsc.contains, Obsc.rectangleContains, Arith.gt]
    units U
  | .ray w th x0 y0, x, y => by
    simp only [inUnit, Obsc.contains, Obsc.rayContains, Arith.gt]
    units U
    simp only [gt_nought U]
  | .polygon pts, x, y => by
    simp only [inUnit, Obsc.contains]
    exact polygon_units U pts x y
  | .negation o, x, y => by
    simp only [inUnit, Obsc.contains]
    rw [contains_units o x y]
  | .union os, x, y => by
    simp only [inUnit, Obsc.contains]
    exact unionContains_units os x y false
  | .intersection os, x, y => by
    simp only [inUnit, Obsc.contains]
    exact interContains_units os x y true
theorem unionContains_units : ∀ (os : List (Obsc F)) (x y : F) (b : Bool),
    Obsc.unionContains (inUnits σ os) (σ 1 x) (σ 1 y) b = Obsc.unionContains os x y b
  | [], _, _, _ => rfl
  | o :: os, x, y, b => by
    simp only [inUnits, Obsc.unionContains]
    rw [contains_units o x y]
    exact unionContains_units os x y _
theorem interContains_units : ∀ (os : List (Obsc F)) (x y : F) (b : Bool),
    Obsc.interContains (inUnits σ os) (σ 1 x) (σ 1 y) b = Obsc.interContains os x y b
  | [], _, _, _ => rfl
  | o :: os, x, y, b => by
    simp only [inUnits, Obsc.interContains]
    rw [contains_units o x y]
    exact interContains_units os x y _
end

/-! ## Frames and rays -/

omit U [Arith F] in
/-- A frame in the new unit. -/
def frameIn (σ : ℤ → F → F) (c : CoordSys F) : CoordSys F := ⟨c.origin.map (σ 1), c.rot⟩

omit U [Arith F] in
/-- A ray in the new unit; wavelengths are converted by `ω`. -/
def rayIn (σ : ℤ → F → F) (ω : F → F) (ray : Ray F) : Ray F :=
  { ray with r := ray.r.map (σ 1), t := σ 1 ray.t, wavelength := ω ray.wavelength }

omit U [Arith F] in
/-- A bundle in the new unit. -/
def bundleIn (σ : ℤ → F → F) (ω : F → F) (rv : RayVec F) : RayVec F := ⟨rv.rays.map (rayIn σ ω), frameIn σ rv.coordSys⟩

theorem forward_units (a b : CoordSys F) (r : V3 F) :
    (CoordTransform.make (frameIn σ a) (frameIn σ b)).forward (r.map (σ 1)) = ((CoordTransform.make a b).forward r).map (σ 1) := by
  unfold CoordTransform.forward CoordTransform.make frameIn M3.mulVec
  ext <;> simp only [V3.sub_x, V3.sub_y, V3.sub_z] <;> units U

theorem reverse_units (a b : CoordSys F) (r : V3 F) :
    (CoordTransform.make (frameIn σ a) (frameIn σ b)).reverse (r.map (σ 1)) = ((CoordTransform.make a b).reverse r).map (σ 1) := by
  unfold CoordTransform.reverse CoordTransform.make frameIn M3.mulVec
  ext <;> simp only [V3.sub_x, V3.sub_y, V3.sub_z, V3.add_x, V3.add_y, V3.add_z] <;> units U <;> rfl

omit U in
theorem forwardVel_units (a b : CoordSys F) (v : V3 F) :
    (CoordTransform.make (frameIn σ a) (frameIn σ b)).forwardVel v = (CoordTransform.make a b).forwardVel v := rfl

theorem step_units (r v : V3 F) (dt : F) : r.map (σ 1) + v.smulR (σ 1 dt) = (r + v.smulR dt).map (σ 1) := by
  ext <;> simp only [V3.add_x, V3.add_y, V3.add_z, V3.smulR_x, V3.smulR_y, V3.smulR_z] <;> units U <;> rfl

/-! ## Kernels -/

section
variable {ω : F → F} {a b : CoordSys F} {s s' : Surface F} (hs : SameShape σ s s') {niter : ℕ} {ray : Ray F}
  (hh : ray.failed = false → UnitHit σ s s' niter ((CoordTransform.make a b).forward ray.r) ((CoordTransform.make a b).forwardVel ray.v) 0)
include hs hh

/-- A coating in the new unit. -/
def SameCoating (ω : F → F) : Option (Coating F) → Option (Coating F) → Prop
  | none, none => True
  | some c, some c' => ∀ w q, c'.getReflect (ω w) q = c.getReflect w q ∧ c'.getTransmit (ω w) q = c.getTransmit w q
  | _, _ => False

theorem intersect_units {co co' : Option (Coating F)} (hc : SameCoating ω co co') :
    Ray.intersect s' (CoordTransform.make (frameIn σ a) (frameIn σ b)) co' niter (rayIn σ ω ray) =
      rayIn σ ω (Ray.intersect s (CoordTransform.make a b) co niter ray) := by
  unfold Ray.intersect
  cases hf : ray.failed
  · have h0 := hh hf
    unfold UnitHit at h0
    rw [U.nought] at h0
    simp only [rayIn, hf, forward_units U, forwardVel_units, h0, Bool.false_eq_true, if_false]
    rcases s.timeToIntersect _ _ 0 niter with ⟨_ | _, dt⟩
    · simp only [Ray.markFailed]
    · dsimp only
      simp only [step_units U, V3.map_x, V3.map_y, hs.normal, U.add]
      rcases co with _ | co <;> rcases co' with _ | co'
      · rfl
      · exact hc.elim
      · exact hc.elim
      · simp only [(hc _ _).2]
  · simp only [rayIn, hf, if_true]

theorem reflect_units {co co' : Option (Coating F)} (hc : SameCoating ω co co') :
    Ray.reflect s' (CoordTransform.make (frameIn σ a) (frameIn σ b)) co' niter (rayIn σ ω ray) =
      rayIn σ ω (Ray.reflect s (CoordTransform.make a b) co niter ray) := by
  unfold Ray.reflect
  cases hf : ray.failed
  · have h0 := hh hf
    unfold UnitHit at h0
    rw [U.nought] at h0
    simp only [rayIn, hf, forward_units U, forwardVel_units, h0, Bool.false_eq_true, if_false]
    rcases s.timeToIntersect _ _ 0 niter with ⟨_ | _, dt⟩
    · simp only [Ray.markFailed]
    · dsimp only
      simp only [step_units U, V3.map_x, V3.map_y, hs.normal, U.add]
      rcases co with _ | co <;> rcases co' with _ | co'
      · rfl
      · exact hc.elim
      · exact hc.elim
      · simp only [(hc _ _).1]
  · simp only [rayIn, hf, if_true]

theorem refract_units {m m' : Medium F} (hm : m'.getN (ω ray.wavelength) = m.getN ray.wavelength) {co co' : Option (Coating F)} (hc : SameCoating ω co co') :
    Ray.refract s' (CoordTransform.make (frameIn σ a) (frameIn σ b)) m' co' niter (rayIn σ ω ray) =
      rayIn σ ω (Ray.refract s (CoordTransform.make a b) m co niter ray) := by
  unfold Ray.refract
  cases hf : ray.failed
  · have h0 := hh hf
    unfold UnitHit at h0
    rw [U.nought] at h0
    simp only [rayIn, hf, forward_units U, forwardVel_units, h0, Bool.false_eq_true, if_false]
    rcases s.timeToIntersect _ _ 0 niter with ⟨_ | _, dt⟩
    · simp only [Ray.markFailed]
    · dsimp only
      simp only [step_units U, V3.map_x, V3.map_y, hs.normal, U.add, hm]
      rcases Ray.refractDir (m.getN ray.wavelength) _ _ with _ | v'
      all_goals
        rcases co with _ | co <;> rcases co' with _ | co'
        · rfl
        · exact hc.elim
        · exact hc.elim
        · simp only [(hc _ _).2]
  · simp only [rayIn, hf, if_true]

theorem rSplit_units {m m' : Medium F} (hm : m'.getN (ω ray.wavelength) = m.getN ray.wavelength) {co co' : Coating F}
    (hc : SameCoating ω (some co) (some co')) :
    Ray.rSplit s' (CoordTransform.make (frameIn σ a) (frameIn σ b)) m' co' niter (rayIn σ ω ray) =
      (rayIn σ ω (Ray.rSplit s (CoordTransform.make a b) m co niter ray).1, rayIn σ ω (Ray.rSplit s (CoordTransform.make a b) m co niter ray).2) := by
  unfold Ray.rSplit
  cases hf : ray.failed
  · have h0 := hh hf
    unfold UnitHit at h0
    rw [U.nought] at h0
    simp only [rayIn, hf, forward_units U, forwardVel_units, h0, Bool.false_eq_true, if_false]
    rcases s.timeToIntersect _ _ 0 niter with ⟨_ | _, dt⟩
    · simp only [Ray.markFailed]
    · dsimp only
      simp only [step_units U, V3.map_x, V3.map_y, hs.normal, U.add, hm, Coating.getCoefs, (hc _ _).1, (hc _ _).2]
      rcases Ray.refractDir (m.getN ray.wavelength) _ _ with _ | v' <;> rfl
  · simp only [rayIn, hf, if_true]

theorem refractScreen_units {p p' : Surface F} (hp : SameShape σ p p') :
    Ray.refractScreen s' (CoordTransform.make (frameIn σ a) (frameIn σ b)) p' niter (rayIn σ ω ray) =
      rayIn σ ω (Ray.refractScreen s (CoordTransform.make a b) p niter ray) := by
  unfold Ray.refractScreen
  cases hf : ray.failed
  · have h0 := hh hf
    unfold UnitHit at h0
    rw [U.nought] at h0
    simp only [rayIn, hf, forward_units U, forwardVel_units, h0, Bool.false_eq_true, if_false]
    rcases s.timeToIntersect _ _ 0 niter with ⟨_ | _, dt⟩
    · simp only [Ray.markFailed]
    · dsimp only
      simp only [step_units U, V3.map_x, V3.map_y, hs.normal, hp.sag, U.add, Surface.grad, hp.normal]
  · simp only [rayIn, hf, if_true]

end

/-! ## Systems -/

omit U in
/-- The kinds of two interfaces that are one interface in two units. -/
def SameKind (σ : ℤ → F → F) : Kind F → Kind F → Prop
  | .plain, .plain => True
  | .refractive, .refractive => True
  | .mirror, .mirror => True
  | .detector, .detector => True
  | .baffle, .baffle => True
  | .screen p, .screen p' => SameShape σ p p'
  | _, _ => False

omit U in
/-- One interface in two units. -/
structure SameIface (σ : ℤ → F → F) (ω : F → F) (d d' : Iface F) : Prop where
  kind : SameKind σ d.kind d'.kind
  surface : SameShape σ d.surface d'.surface
  obscuration : d'.obscuration = d.obscuration.map (inUnit σ)
  coordSys : d'.coordSys = frameIn σ d.coordSys
  inMedium : ∀ w, d'.inMedium.getN (ω w) = d.inMedium.getN w
  outMedium : ∀ w, d'.outMedium.getN (ω w) = d.outMedium.getN w

omit U in
mutual
/-- One system in two units. -/
def SameOptic (σ : ℤ → F → F) (ω : F → F) : Optic F → Optic F → Prop
  | .iface d, .iface d' => SameIface σ ω d d' ∧ d'.skip = d.skip
  | .compound c items, .compound c' items' => c'.skip = c.skip ∧ UnitItems σ ω items items'
  | _, _ => False
/-- One list of optics in two units. -/
def UnitItems (σ : ℤ → F → F) (ω : F → F) : List (Optic F) → List (Optic F) → Prop
  | [], [] => True
  | o :: os, o' :: os' => SameOptic σ ω o o' ∧ UnitItems σ ω os os'
  | _, _ => False
end

omit U [Arith F] in
theorem sameOptic_skip {ω : F → F} : ∀ {o o' : Optic F}, SameOptic σ ω o o' → o'.skip = o.skip
  | .iface _, .iface _, h => h.2
  | .compound _ _, .compound _ _, h => by simp only [SameOptic] at h; exact h.1
  | .iface _, .compound _ _, h => by simp only [SameOptic] at h
  | .compound _ _, .iface _, h => by simp only [SameOptic] at h

omit U [Arith F] in
mutual
theorem sameOptic_visits {ω : F → F} : ∀ {o o' : Optic F}, SameOptic σ ω o o' → List.Forall₂ (SameIface σ ω) (visits o) (visits o')
  | .iface _, .iface _, h => by
    simp only [SameOptic] at h
    exact .cons h.1 .nil
  | .compound _ items, .compound _ items', h => by
    simp only [SameOptic] at h
    simp only [visits]
    exact unitItems_visits h.2
  | .iface _, .compound _ _, h => by simp only [SameOptic] at h
  | .compound _ _, .iface _, h => by simp only [SameOptic] at h
theorem unitItems_visits {ω : F → F} : ∀ {os os' : List (Optic F)}, UnitItems σ ω os os' →
    List.Forall₂ (SameIface σ ω) (visitsItems os) (visitsItems os')
  | [], [], _ => by simp only [visitsItems]; exact .nil
  | o :: os, o' :: os', h => by
    simp only [UnitItems] at h
    simp only [visitsItems, sameOptic_skip h.1]
    split_ifs
    · simpa using unitItems_visits h.2
    · exact List.rel_append (sameOptic_visits h.1) (unitItems_visits h.2)
  | [], _ :: _, h => by simp only [UnitItems] at h
  | _ :: _, [], h => by simp only [UnitItems] at h
end

omit U in
/-- Along the trace of `rv` in the old unit every ray meets, or misses, each surface in both units alike. -/
def UnitHits (σ : ℤ → F → F) (niter : ℕ) (reverse : Bool) : List (Iface F) → List (Iface F) → RayVec F → Prop
  | d :: l, d' :: l', rv =>
    (∀ ray ∈ rv.rays, ray.failed = false → UnitHit σ d.surface d'.surface niter ((CoordTransform.make rv.coordSys d.coordSys).forward ray.r)
      ((CoordTransform.make rv.coordSys d.coordSys).forwardVel ray.v) 0) ∧ UnitHits σ niter reverse l l' (d.trace niter reverse rv)
  | _, _, _ => True

theorem onRay_units {ω : F → F} {d d' : Iface F} (h : SameIface σ ω d d') (niter : ℕ) (reverse : Bool) {c : CoordSys F} {ray : Ray F}
    (hh : ray.failed = false → UnitHit σ d.surface d'.surface niter ((CoordTransform.make c d.coordSys).forward ray.r)
      ((CoordTransform.make c d.coordSys).forwardVel ray.v) 0) :
    Iface.onRay d' niter reverse (CoordTransform.make (frameIn σ c) (frameIn σ d.coordSys)) (rayIn σ ω ray) =
      rayIn σ ω (Iface.onRay d niter reverse (CoordTransform.make c d.coordSys) ray) := by
  have hk := h.kind
  unfold Iface.onRay
  cases e : d.kind <;> cases e' : d'.kind <;> rw [e, e'] at hk <;> (try exact hk.elim) <;> dsimp only
  · exact intersect_units U h.surface hh trivial
  · refine refract_units U h.surface hh ?_ trivial
    cases reverse
    · exact h.outMedium _
    · exact h.inMedium _
  · exact reflect_units U h.surface hh trivial
  · exact intersect_units U h.surface hh trivial
  · exact intersect_units U h.surface hh trivial
  · exact refractScreen_units U h.surface hh hk

theorem traceIface_units {ω : F → F} {d d' : Iface F} (h : SameIface σ ω d d') (niter : ℕ) (reverse : Bool) {rv : RayVec F}
    (hh : ∀ ray ∈ rv.rays, ray.failed = false → UnitHit σ d.surface d'.surface niter ((CoordTransform.make rv.coordSys d.coordSys).forward ray.r)
      ((CoordTransform.make rv.coordSys d.coordSys).forwardVel ray.v) 0) :
    d'.trace niter reverse (bundleIn σ ω rv) = bundleIn σ ω (d.trace niter reverse rv) := by
  unfold Iface.trace Iface.applyObscuration
  rw [interact_rays, interact_rays, h.obscuration]
  have key : (bundleIn σ ω rv).rays.map (Iface.onRay d' niter reverse (CoordTransform.make (bundleIn σ ω rv).coordSys d'.coordSys)) =
      (rv.rays.map (Iface.onRay d niter reverse (CoordTransform.make rv.coordSys d.coordSys))).map (rayIn σ ω) := by
    simp only [bundleIn, List.map_map, h.coordSys]
    apply List.map_congr_left
    intro ray hr
    exact onRay_units U h niter reverse (hh ray hr)
  rw [key, h.coordSys]
  cases d.obscuration with
  | none => rfl
  | some o =>
    simp only [Option.map_some, RayVec.obscure, bundleIn, List.map_map]
    congr 1
    apply List.map_congr_left
    intro ray _
    simp only [Function.comp_apply, Ray.obscure, rayIn, V3.map_x, V3.map_y, contains_units U]

theorem fold_units {ω : F → F} (niter : ℕ) (reverse : Bool) {l l' : List (Iface F)} (h : List.Forall₂ (SameIface σ ω) l l') :
    ∀ {rv : RayVec F}, UnitHits σ niter reverse l l' rv →
      l'.foldl (fun rv d => d.trace niter reverse rv) (bundleIn σ ω rv) = bundleIn σ ω (l.foldl (fun rv d => d.trace niter reverse rv) rv) := by
  induction h with
  | nil => intro rv _; rfl
  | cons h1 _ ih =>
    intro rv hh
    simp only [UnitHits] at hh
    simp only [List.foldl_cons]
    rw [traceIface_units U h1 niter reverse hh.1]
    exact ih hh.2

omit U in
/-- The interfaces of a system in the order in which a trace visits them. -/
def visitOrder (reverse : Bool) (o : Optic F) : List (Iface F) := if reverse then (visits o).reverse else visits o

/-- C119: a system and a bundle of rays described in another unit of length give, ray by ray, the same result in the other unit:
positions and times are converted, and velocities, fluxes, vignetting and failures are the same.  Surfaces that are met by iteration
enter through `UnitHits`. -/
theorem C119_trace {ω : F → F} {o o' : Optic F} (h : SameOptic σ ω o o') (niter : ℕ) (reverse : Bool) {rv : RayVec F}
    (hh : UnitHits σ niter reverse (visitOrder reverse o) (visitOrder reverse o') rv) :
    o'.trace niter reverse (bundleIn σ ω rv) = bundleIn σ ω (o.trace niter reverse rv) := by
  cases reverse
  · rw [trace_visits, trace_visits]
    exact fold_units U niter false (sameOptic_visits h) hh
  · rw [trace_visits_rev, trace_visits_rev]
    exact fold_units U niter true (List.rel_reverse (sameOptic_visits h)) hh

omit U in
/-- Surfaces that are met alike in both units, whatever the ray. -/
def MetAlike (σ : ℤ → F → F) (s s' : Surface F) : Prop := ∀ niter r v dt, UnitHit σ s s' niter r v dt

omit U in
theorem sameHits_closed (niter : ℕ) (reverse : Bool) {l l' : List (Iface F)} (h : List.Forall₂ (fun d d' => MetAlike σ d.surface d'.surface) l l') :
    ∀ rv : RayVec F, UnitHits σ niter reverse l l' rv := by
  induction h with
  | nil => intro rv; trivial
  | cons h1 _ ih => intro rv; exact ⟨fun ray _ _ => h1 _ _ _ _, ih _⟩

/-- C119: planes, tilted planes, spheres, paraboloids and quadrics need nothing more. -/
theorem C119_closed {ω : F → F} {o o' : Optic F} (h : SameOptic σ ω o o')
    (hc : List.Forall₂ (fun d d' => MetAlike σ d.surface d'.surface) (visits o) (visits o')) (niter : ℕ) (reverse : Bool) (rv : RayVec F) :
    o'.trace niter reverse (bundleIn σ ω rv) = bundleIn σ ω (o.trace niter reverse rv) := by
  apply C119_trace U h
  apply sameHits_closed
  cases reverse
  · exact hc
  · exact List.rel_reverse hc

/-- C119: the rays split at a coated surface, in another unit. -/
theorem C119_split {ω : F → F} {a b : CoordSys F} {s s' : Surface F} (hs : SameShape σ s s') (hm : MetAlike σ s s') {m m' : Medium F}
    {co co' : Coating F} {niter : ℕ} {ray : Ray F} (hn : m'.getN (ω ray.wavelength) = m.getN ray.wavelength)
    (hc : SameCoating ω (some co) (some co')) :
    Ray.rSplit s' (CoordTransform.make (frameIn σ a) (frameIn σ b)) m' co' niter (rayIn σ ω ray) =
      (rayIn σ ω (Ray.rSplit s (CoordTransform.make a b) m co niter ray).1, rayIn σ ω (Ray.rSplit s (CoordTransform.make a b) m co niter ray).2) :=
  rSplit_units U hs (fun _ => hm _ _ _ _) hn hc

/-- C119: with wavelengths in the new unit as well, the phase of a ray at a point and a time is the same. -/
theorem C119_phase (ray : Ray F) (r : V3 F) (t : F) : (rayIn σ (σ 1) ray).phase (r.map (σ 1)) (σ 1 t) = ray.phase r t := by
  unfold Ray.phase rayIn V3.dot
  simp only [V3.sub_x, V3.sub_y, V3.sub_z]
  units U

/-- C119: and so is the sum of the amplitudes of a bundle. -/
theorem C119_amplitude (rv : RayVec F) (r : V3 F) (t : F) (ignore : Bool) :
    (bundleIn σ (σ 1) rv).sumAmplitude (r.map (σ 1)) (σ 1 t) ignore = rv.sumAmplitude r t ignore := by
  unfold RayVec.sumAmplitude bundleIn
  rw [List.foldl_map]
  congr 1
  funext acc ray
  unfold RayVec.sumAmplitudeStep Ray.amplitude
  rw [C119_phase U]
  rfl

/-! ### Media -/

theorem upperIdx_units (w : F) : ∀ (as : List F) (i : ℕ), Medium.upperIdx (σ 1 w) i (as.map (σ 1)) = Medium.upperIdx w i as
  | [], _ => rfl
  | a :: as, i => by
    simp only [List.map_cons, Medium.upperIdx, U.lt, upperIdx_units w as]

/-- C119: a table of indices is converted by converting its wavelengths. -/
theorem C119_table (args vals : List F) (w : F) : Medium.tableGetN (args.map (σ 1)) vals (σ 1 w) = Medium.tableGetN args vals w := by
  unfold Medium.tableGetN
  simp only [List.getElem?_map, List.length_map, ← List.map_tail, upperIdx_units U, Arith.gt]
  rcases args[0]? with _ | a0
  · rfl
  rcases args[args.length - 1]? with _ | al
  · simp [U.lt]
  simp only [Option.map_some, Option.bind_eq_bind, Option.bind_some, U.lt]
  rcases args[Medium.upperIdx w 1 args.tail - 1]? with _ | alo
  · rfl
  rcases args[Medium.upperIdx w 1 args.tail]? with _ | ahi
  · rfl
  simp only [Option.map_some, Option.bind_some]
  units U

end

/-! ## The two arithmetics -/

/-- The surfaces whose intersection is given by a formula, in two units. -/
inductive Formula {F : Type} [Arith F] (σ : ℤ → F → F) : Surface F → Surface F → Prop
  | plane : Formula σ Surface.plane Surface.plane
  | tilted (a b : F) : Formula σ (Surface.tilted a b) (Surface.tilted a b)
  | sphere (R : F) : Formula σ (Surface.sphere R) (Surface.sphere (σ 1 R))
  | paraboloid (R : F) : Formula σ (Surface.paraboloid R) (Surface.paraboloid (σ 1 R))
  | quadric (R k : F) : Formula σ (Surface.quadric R k) (Surface.quadric (σ 1 R) k)

theorem formula_shape {F : Type} [Arith F] {σ : ℤ → F → F} (U : Units F σ) {s s' : Surface F} (h : Formula σ s s') : SameShape σ s s' := by
  cases h
  · exact shape_plane U
  · exact shape_tilted U _ _
  · exact shape_sphere U _
  · exact shape_paraboloid U _
  · exact shape_quadric U _ _

theorem formula_met {F : Type} [Arith F] {σ : ℤ → F → F} (U : Units F σ) {s s' : Surface F} (h : Formula σ s s') : MetAlike σ s s' := by
  intro niter r v dt
  cases h
  · exact hit_plane U _ _ _ _
  · exact hit_tilted U _ _ _ _ _ _
  · exact hit_sphere U _ _ _ _ _
  · exact hit_paraboloid U _ _ _ _ _
  · exact hit_quadric U _ _ _ _ _ _

/-- C119: in exact arithmetic any two units of length give the same results. -/
theorem C119_exact {q : ℝ} (hq : 0 < q) {ω : Dbl → Dbl} {o o' : Optic Dbl} (h : SameOptic (unit q) ω o o')
    (hc : List.Forall₂ (fun d d' => Formula (unit q) d.surface d'.surface) (visits o) (visits o')) (niter : ℕ) (reverse : Bool) (rv : RayVec Dbl) :
    o'.trace niter reverse (bundleIn (unit q) ω rv) = bundleIn (unit q) ω (o.trace niter reverse rv) :=
  C119_closed (units_dbl hq) h (hc.imp fun _ _ h => formula_met (units_dbl hq) h) niter reverse rv

/-- C119: in double precision two units whose ratio is a power of two give the same results, bit for bit. -/
theorem C119_double (m : ℤ) {ω : Flt rd53 → Flt rd53} {o o' : Optic (Flt rd53)} (h : SameOptic (unitFlt rd53 (2 ^ m)) ω o o')
    (hc : List.Forall₂ (fun d d' => Formula (unitFlt rd53 (2 ^ m)) d.surface d'.surface) (visits o) (visits o')) (niter : ℕ) (reverse : Bool)
    (rv : RayVec (Flt rd53)) :
    o'.trace niter reverse (bundleIn (unitFlt rd53 (2 ^ m)) ω rv) = bundleIn (unitFlt rd53 (2 ^ m)) ω (o.trace niter reverse rv) :=
  C119_closed (units_rd53 m) h (hc.imp fun _ _ h => formula_met (units_rd53 m) h) niter reverse rv

/-! ### Surfaces met by iteration -/

/-- C119: the verdict of the iteration is the same in both units when the last point is nearer than both tolerances, or farther than
both. -/
theorem C119_iterated_partial {q : ℝ} (hq : 0 < q) (s : Surface Dbl) {niter : ℕ} {r v : V3 Dbl} {dt : Dbl} {ρ : ℝ}
    (hm : lastMiss s niter r v dt = .fin ρ) (h : (ρ < 1/10^12 ∧ q * ρ < 1/10^12) ∨ (1/10^12 ≤ ρ ∧ 1/10^12 ≤ q * ρ)) :
    SameVerdict (unit q) s niter r v dt := by
  unfold SameVerdict
  rw [hm]
  show Dbl.lt (.fin ρ) (.fin (q ^ (-1 : ℤ) * ((1/10^12 : ℚ) : ℝ))) = Dbl.lt (.fin ρ) (.fin ((1/10^12 : ℚ) : ℝ))
  have e : ρ < q ^ (-1 : ℤ) * ((1/10^12 : ℚ) : ℝ) ↔ q * ρ < 1/10^12 := by
    rw [zpow_neg_one, inv_mul_eq_div, lt_div_iff₀ hq, mul_comm]
    push_cast
    rfl
  simp only [Dbl.lt, e]
  push_cast
  rcases h with ⟨h1, h2⟩ | ⟨h1, h2⟩
  · rw [decide_eq_true h1, decide_eq_true h2]
  · rw [decide_eq_false (not_lt.2 h1), decide_eq_false (not_lt.2 h2)]

/-- The trough `z = x^2` in metres. -/
noncomputable def trough (c g : ℝ) : Surface.PolyData Dbl :=
  ⟨fun k => if k = 4 then .fin c else 0, fun k => if k = 1 then .fin g else 0, fun _ => 0, 0, 0, 2, 3⟩

theorem trough_sag (c g x y : ℝ) : Surface.polySag (trough c g) (.fin x) (.fin y) = .fin (c * x ^ 2) := by
  simp [Surface.polySag, Surface.horner2d, Surface.horner, trough, List.range_succ, Dbl.zero_dbl]
  ring

theorem trough_normal (c g x y : ℝ) : Surface.polyNormal (trough c g) (.fin x) (.fin y) =
    ⟨.fin (-(g * x) * (1 / Real.sqrt ((g * x) ^ 2 + 1))), .fin 0, .fin (1 / Real.sqrt ((g * x) ^ 2 + 1))⟩ := by
  have h0 : 0 ≤ g * x * (g * x) + 1 := by nlinarith [mul_self_nonneg (g * x)]
  have h1 : Real.sqrt (g * x * (g * x) + 1) ≠ 0 := (Real.sqrt_pos.2 (by nlinarith [mul_self_nonneg (g * x)])).ne'
  simp [Surface.polyNormal, Surface.horner2d, Surface.horner, trough, List.range_succ, Dbl.zero_dbl, Dbl.one_dbl, Dbl.sqrt_fin h0, Dbl.div_fin h1, pow_two]

theorem trough_step {c g a h dt : ℝ} (hg : g ≠ 0) (hx : a + dt ≠ 0) :
    Surface.newtonStep (Surface.polySag (trough c g)) (Surface.polyNormal (trough c g)) ⟨.fin a, .fin 0, .fin h⟩ ⟨.fin 1, .fin 0, .fin 0⟩ (.fin dt) =
      .fin (dt - (c * (a + dt) ^ 2 - h) / (g * (a + dt))) := by
  have hs : 0 < Real.sqrt ((g * (a + dt)) ^ 2 + 1) := Real.sqrt_pos.2 (by positivity)
  have hd : -(g * (a + dt)) * (1 / Real.sqrt ((g * (a + dt)) ^ 2 + 1)) ≠ 0 :=
    mul_ne_zero (neg_ne_zero.2 (mul_ne_zero hg hx)) (by positivity)
  unfold Surface.newtonStep
  simp only [V3.add_x, V3.add_y, V3.smulR_x, V3.smulR_y, Dbl.mul_fin, Dbl.add_fin, one_mul, zero_mul, add_zero, trough_sag, trough_normal, V3.dot,
    Dbl.sub_fin, mul_one, mul_zero]
  rw [Dbl.div_fin hd, Dbl.fin_inj]
  field_simp
  ring

/-- The same trough in millimetres. -/
theorem trough_mm : SamePoly (unit 1000) (trough 1 2) (trough (1/1000) (2/1000)) where
  coefs i j hi hj := by
    have hi : i < 3 := hi
    have hj : j < 2 := hj
    interval_cases i <;> interval_cases j <;> simp [trough, unit, times, Dbl.zero_dbl]
  gradx i j hi hj := by
    have hi : i < 2 := hi
    have hj : j < 1 := hj
    interval_cases i <;> interval_cases j <;> simp [trough, unit, times, Dbl.zero_dbl]
    norm_num
  grady i j _ _ := by simp [trough, unit, times, Dbl.zero_dbl]
  xorigin := by simp [trough, unit, times, Dbl.zero_dbl]
  yorigin := by simp [trough, unit, times, Dbl.zero_dbl]
  xsize := rfl
  ysize := rfl

theorem trough_iter : Surface.newtonIter (Surface.polySag (trough 1 2)) (Surface.polyNormal (trough 1 2)) ⟨.fin 3, .fin 0, .fin 2⟩
    ⟨.fin 1, .fin 0, .fin 0⟩ 5 0 = .fin (-242106589722373183199/152672884556058511392) := by
  have s0 := trough_step (c := 1) (g := 2) (a := 3) (h := 2) (dt := (0/1)) (by norm_num) (by norm_num)
  rw [show ((0/1) - (1 * (3 + (0/1)) ^ 2 - 2) / (2 * (3 + (0/1))) : ℝ) = (-7/6) by norm_num] at s0
  have s1 := trough_step (c := 1) (g := 2) (a := 3) (h := 2) (dt := (-7/6)) (by norm_num) (by norm_num)
  rw [show ((-7/6) - (1 * (3 + (-7/6)) ^ 2 - 2) / (2 * (3 + (-7/6))) : ℝ) = (-203/132) by norm_num] at s1
  have s2 := trough_step (c := 1) (g := 2) (a := 3) (h := 2) (dt := (-203/132)) (by norm_num) (by norm_num)
  rw [show ((-203/132) - (1 * (3 + (-203/132)) ^ 2 - 2) / (2 * (3 + (-203/132))) : ℝ) = (-80759/50952) by norm_num] at s2
  have s3 := trough_step (c := 1) (g := 2) (a := 3) (h := 2) (dt := (-80759/50952)) (by norm_num) (by norm_num)
  rw [show ((-80759/50952) - (1 * (3 + (-80759/50952)) ^ 2 - 2) / (2 * (3 + (-80759/50952))) : ℝ) = (-11650728047/7346972688) by norm_num] at s3
  have s4 := trough_step (c := 1) (g := 2) (a := 3) (h := 2) (dt := (-11650728047/7346972688)) (by norm_num) (by norm_num)
  rw [show ((-11650728047/7346972688) - (1 * (3 + (-11650728047/7346972688)) ^ 2 - 2) / (2 * (3 + (-11650728047/7346972688))) : ℝ) = (-242106589722373183199/152672884556058511392) by norm_num] at s4
  rw [Dbl.zero_dbl, show (0 : ℝ) = (0/1) by norm_num]
  simp only [Surface.newtonIter]
  rw [show (.fin 0 : Dbl) = .fin (0/1) by norm_num] at *
  rw [s0, s1, s2, s3, s4]

theorem trough_miss : ∃ ρ : ℝ, lastMiss (Surface.polynomial (trough 1 2)) 5 ⟨.fin 3, .fin 0, .fin 2⟩ ⟨.fin 1, .fin 0, .fin 0⟩ 0 = .fin ρ ∧
    1/10^15 ≤ ρ ∧ ρ < 1/10^12 := by
  refine ⟨|1 * (3 + (-242106589722373183199/152672884556058511392)) ^ 2 - 2|, ?_, ?_, ?_⟩
  · unfold lastMiss
    rw [show Surface.newtonIter (Surface.polynomial (trough 1 2)).sag (Surface.polynomial (trough 1 2)).normal ⟨.fin 3, .fin 0, .fin 2⟩
      ⟨.fin 1, .fin 0, .fin 0⟩ 5 0 = _ from trough_iter]
    show Arith.abs (Surface.polySag _ _ _ - _) = _
    simp only [V3.add_x, V3.add_y, V3.add_z, V3.smulR_x, V3.smulR_y, V3.smulR_z, Dbl.mul_fin, Dbl.add_fin, one_mul, zero_mul, add_zero, trough_sag,
      Dbl.sub_fin, Dbl.abs_fin]
  · rw [abs_of_pos (by norm_num)]; norm_num
  · rw [abs_of_pos (by norm_num)]; norm_num

/-- C119 fails for surfaces met by iteration: a ray meets a trough described in metres and, at the same iterates, misses the same trough
described in millimetres, because the tolerance is `1e-12` of whatever the unit is. -/
theorem C119_newton_violated : ∃ (s s' : Surface Dbl) (r v : V3 Dbl), SameShape (unit 1000) s s' ∧
    (s.timeToIntersect r v 0 5).1 = true ∧ (s'.timeToIntersect (r.map (unit 1000 1)) v 0 5).1 = false := by
  have U := units_dbl (q := 1000) (by norm_num)
  obtain ⟨ρ, h1, h2, h3⟩ := trough_miss
  refine ⟨_, _, ⟨.fin 3, .fin 0, .fin 2⟩, ⟨.fin 1, .fin 0, .fin 0⟩, shape_polynomial U trough_mm, ?_, ?_⟩
  · show lt (lastMiss (Surface.polynomial (trough 1 2)) 5 ⟨.fin 3, .fin 0, .fin 2⟩ ⟨.fin 1, .fin 0, .fin 0⟩ 0) _ = true
    rw [h1]
    show Dbl.lt (.fin ρ) (.fin ((1/10^12 : ℚ) : ℝ)) = true
    simp only [Dbl.lt]
    push_cast
    exact decide_eq_true h3
  · have := newton_units U (shape_polynomial U trough_mm) ⟨.fin 3, .fin 0, .fin 2⟩ ⟨.fin 1, .fin 0, .fin 0⟩ 5 0
    rw [U.nought] at this
    refine (congrArg Prod.fst this).trans ?_
    dsimp only
    rw [h1]
    show Dbl.lt (.fin ρ) (.fin ((1000 : ℝ) ^ (-1 : ℤ) * ((1/10^12 : ℚ) : ℝ))) = false
    simp only [Dbl.lt]
    push_cast
    apply decide_eq_false
    norm_num at h2 ⊢
    linarith

/-! ### Glasses -/

/-- C119 fails for glasses given by a formula: in every unit other than the metre some Sellmeier glass has another index. -/
theorem C119_glass_violated {q : ℝ} (hq : 0 < q) (h1 : q ≠ 1) : ∃ B C w : ℝ, 0 < w ∧
    Medium.sellmeierN (.fin B) 0 0 (.fin C) 0 0 (unit q 1 (.fin w)) ≠ Medium.sellmeierN (.fin B) 0 0 (.fin C) 0 0 (.fin w : Dbl) := by
  have key : ∀ w : ℝ, 0 < w → Medium.sellmeierN (.fin 1) 0 0 (.fin (-1)) 0 0 (.fin w : Dbl) =
      .fin (Real.sqrt (1 + w * w * 10 ^ 12 / (w * w * 10 ^ 12 + 1))) := by
    intro w hw
    have hp : 0 < w * w * 10 ^ 12 := by positivity
    unfold Medium.sellmeierN
    have hc : (Arith.const (10 ^ 12) : Dbl) = .fin (10 ^ 12) := by
      show Dbl.fin ((10 ^ 12 : ℚ) : ℝ) = _
      push_cast; rfl
    simp only [hc, Dbl.zero_dbl, Dbl.one_dbl, Dbl.mul_fin, Dbl.sub_fin, one_mul, zero_mul, sub_zero, sub_neg_eq_add]
    rw [Dbl.div_fin (by positivity), Dbl.div_fin hp.ne', Dbl.add_fin, Dbl.add_fin, Dbl.add_fin, Dbl.sqrt_fin (by positivity)]
    simp
  refine ⟨1, -1, 1, one_pos, ?_⟩
  have e : unit q 1 (.fin 1) = .fin q := by simp [unit, times]
  rw [e, key q hq, key 1 one_pos]
  intro h
  rw [Dbl.fin_inj, Real.sqrt_inj (by positivity) (by positivity)] at h
  field_simp at h
  have : q * q = 1 := by nlinarith
  have : (q - 1) * (q + 1) = 0 := by linarith
  rcases mul_eq_zero.1 this with h | h
  · exact h1 (by linarith)
  · linarith

/-! ### Concrete systems -/

/-- A parabolic mirror of radius `R` behind a disc of radius `a`, and a detector at distance `f`. -/
def newtonian {F : Type} [Arith F] (R a f : F) : Optic F :=
  .compound ⟨false, [], CoordSys.std F, Medium.const 1, Medium.const 1, false, none⟩
    [.iface ⟨.mirror, [], Surface.paraboloid R, some (.negation (.circle a 0 0)), CoordSys.std F, Medium.const 1, Medium.const 1, false, none, none, none⟩,
     .iface ⟨.detector, [], Surface.plane, none, ⟨⟨0, 0, f⟩, ⟨1, 0, 0, 0, 1, 0, 0, 0, 1⟩⟩, Medium.const 1, Medium.const 1, false, none, none, none⟩]

theorem newtonian_same {F : Type} [Arith F] {σ : ℤ → F → F} (U : Units F σ) (R a f : F) :
    SameOptic σ id (newtonian R a f) (newtonian (σ 1 R) (σ 1 a) (σ 1 f)) ∧
      List.Forall₂ (fun d d' => Formula σ d.surface d'.surface) (visits (newtonian R a f)) (visits (newtonian (σ 1 R) (σ 1 a) (σ 1 f))) := by
  have h0 := U.nought 1
  constructor
  · simp only [newtonian, SameOptic, UnitItems, and_true, true_and]
    refine ⟨⟨trivial, shape_paraboloid U R, ?_, ?_, fun _ => rfl, fun _ => rfl⟩, ⟨trivial, shape_plane U, rfl, ?_, fun _ => rfl, fun _ => rfl⟩⟩
    · simp only [Option.map_some, inUnit, h0]
    · simp only [frameIn, CoordSys.std, V3.map, h0]
    · simp only [frameIn, V3.map, h0]
  · simp only [newtonian, visits, visitsItems, Optic.skip, Bool.false_eq_true, if_false, List.cons_append, List.nil_append, List.append_nil]
    exact .cons (.paraboloid R) (.cons .plane .nil)

/-- Metres and millimetres. -/
example (rv : RayVec Dbl) : (newtonian (unit 1000 1 (.fin 2)) (unit 1000 1 (.fin 3)) (unit 1000 1 (.fin 1))).trace 5 false (bundleIn (unit 1000) id rv) =
    bundleIn (unit 1000) id ((newtonian (.fin 2) (.fin 3) (.fin 1)).trace 5 false rv) :=
  C119_exact (by norm_num) (newtonian_same (units_dbl (by norm_num)) _ _ _).1 (newtonian_same (units_dbl (by norm_num)) _ _ _).2 5 false rv

/-- In doubles, units in the ratio of eight. -/
example (R a f : Flt rd53) (rv : RayVec (Flt rd53)) :
    (newtonian (unitFlt rd53 (2 ^ (3 : ℤ)) 1 R) (unitFlt rd53 (2 ^ (3 : ℤ)) 1 a) (unitFlt rd53 (2 ^ (3 : ℤ)) 1 f)).trace 5 true
        (bundleIn (unitFlt rd53 (2 ^ (3 : ℤ))) id rv) =
      bundleIn (unitFlt rd53 (2 ^ (3 : ℤ))) id ((newtonian R a f).trace 5 true rv) :=
  C119_double 3 (newtonian_same (units_rd53 3) _ _ _).1 (newtonian_same (units_rd53 3) _ _ _).2 5 true rv

/-- The trough, for a ray that meets it exactly: `1` iteration from `x = 1` on `z = x^2` to the height `1`. -/
example : UnitHit (unit 1000) (Surface.polynomial (trough 1 2)) (Surface.polynomial (trough (1/1000) (2/1000))) 1 ⟨.fin 1, .fin 0, .fin 1⟩
    ⟨.fin 1, .fin 0, .fin 0⟩ 0 := by
  refine hit_polynomial (units_dbl (by norm_num)) trough_mm _ _ _ _ (C119_iterated_partial (by norm_num) _ (ρ := 0) ?_ (.inl (by norm_num)))
  unfold lastMiss
  have e : Surface.newtonIter (Surface.polynomial (trough 1 2)).sag (Surface.polynomial (trough 1 2)).normal ⟨.fin 1, .fin 0, .fin 1⟩
      ⟨.fin 1, .fin 0, .fin 0⟩ 1 0 = .fin 0 := by
    have := trough_step (c := 1) (g := 2) (a := 1) (h := 1) (dt := 0) (by norm_num) (by norm_num)
    rw [show (0 - (1 * (1 + 0) ^ 2 - 1) / (2 * (1 + 0)) : ℝ) = 0 by norm_num] at this
    rw [Dbl.zero_dbl]
    exact this
  rw [e]
  show Arith.abs (Surface.polySag _ _ _ - _) = _
  simp only [V3.add_x, V3.add_y, V3.add_z, V3.smulR_x, V3.smulR_y, V3.smulR_z, Dbl.mul_fin, Dbl.add_fin, trough_sag, Dbl.sub_fin, Dbl.abs_fin]
  norm_num

end Batoid.Props
