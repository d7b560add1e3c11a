import Verif.Props.Bicubic
import Verif.Props.RoundPoly
import Verif.Props.RoundPhase

/-!
# Property C135: bicubic tables in arithmetic with rounding

C26 and C27 describe tables in exact arithmetic.  Here: how far rounding moves heights and normals.  Rounding may also put a point next to a grid line
into the neighbouring cell; that the patches match along the lines keeps the result close.

Specification vocabulary: the same table in exact arithmetic (`exactTable`, `sagR`, `slopeX`, `slopeY` of C26), a bound of its entries (`Sizes`).
-/

namespace Batoid.Props
open Batoid Batoid.Surface

section spec
variable {rd : ℝ → ℝ}

/-- The same entries in exact arithmetic. -/
def exactTable (T : Table (Flt rd)) : Table Dbl :=
  { x0 := T.x0.val, y0 := T.y0.val, dx := T.dx.val, dy := T.dy.val, z := fun k => (T.z k).val, dzdx := fun k => (T.dzdx k).val,
    dzdy := fun k => (T.dzdy k).val, d2zdxdy := fun k => (T.d2zdxdy k).val, nx := T.nx, ny := T.ny, useNan := T.useNan }

/-- `Z` bounds the heights and what the tabulated derivatives make of them within one cell. -/
structure Sizes (nx ny : ℕ) (dx dy : ℝ) (z zx zy zxy : ℕ → ℕ → ℝ) (Z : ℝ) : Prop where
  z : ∀ i < nx, ∀ j < ny, |z i j| ≤ Z
  zx : ∀ i < nx, ∀ j < ny, |zx i j| * dx ≤ Z
  zy : ∀ i < nx, ∀ j < ny, |zy i j| * dy ≤ Z
  zxy : ∀ i < nx, ∀ j < ny, |zxy i j| * dx * dy ≤ Z

/-- Coordinates that rounding does not push over the edges of a grid of `n` nodes. -/
def WellInside (u : ℝ) (n : ℕ) (x0 dx x : ℝ) : Prop := x0 ≤ x ∧ x - x0 < (1 - 5 * u) * ((n : ℝ) - 1) * dx

/-- Coordinates that rounding does not pull over the edges. -/
def WellOutside (u : ℝ) (n : ℕ) (x0 dx x : ℝ) : Prop := x < x0 ∨ (1 + 5 * u) * ((n : ℝ) - 1) * dx ≤ x - x0

/-- How many cells a coordinate is away from zero. -/
noncomputable def cellsAway (x0 dx x : ℝ) : ℝ := (|x| + |x0|) / dx

/-- The slack of heights, and of slopes times the size of a cell. -/
def tableSlack (u Z R : ℝ) : ℝ := u * Z * (50000 + 140000 * R)

end spec

section cubic
variable {A x w f0 f1 d0 d1 : ℝ}

theorem abs3_le (h0 : |f0| ≤ A) (h1 : |f1| ≤ A) (h2 : |d0| ≤ A) (h3 : |d1| ≤ A) :
    |2 * (f0 - f1) + d0 + d1| ≤ 6 * A ∧ |3 * (f1 - f0) - 2 * d0 - d1| ≤ 9 * A := by
  rw [abs_le] at h0 h1 h2 h3
  constructor <;> rw [abs_le] <;> constructor <;> linarith

theorem herm_le (hx : |x| ≤ 11 / 10) (h0 : |f0| ≤ A) (h1 : |f1| ≤ A) (h2 : |d0| ≤ A) (h3 : |d1| ≤ A) : |herm x f0 f1 d0 d1| ≤ 21 * A := by
  obtain ⟨ha, hb⟩ := abs3_le h0 h1 h2 h3
  have A0 : 0 ≤ A := (abs_nonneg _).trans h0
  unfold herm
  generalize 2 * (f0 - f1) + d0 + d1 = a at *
  generalize 3 * (f1 - f0) - 2 * d0 - d1 = b at *
  have k1 : |x * a| ≤ 11 / 10 * (6 * A) := by rw [abs_mul]; exact mul_le_mul hx ha (abs_nonneg _) (by norm_num)
  have k2 : |x * (b + x * a)| ≤ 11 / 10 * (16 * A) := by
    rw [abs_mul]; refine mul_le_mul hx ((abs_add_le _ _).trans ?_) (abs_nonneg _) (by norm_num); linarith
  have k3 : |x * (d0 + x * (b + x * a))| ≤ 11 / 10 * (18.16 * A) := by
    rw [abs_mul]; refine mul_le_mul hx ((abs_add_le _ _).trans ?_) (abs_nonneg _) (by norm_num); 
    have k1' : |b + x * a| ≤ 15.6 * A := (abs_add_le _ _).trans (by linarith)
    have : |x * (b + x * a)| ≤ 11 / 10 * (15.6 * A) := by rw [abs_mul]; exact mul_le_mul hx k1' (abs_nonneg _) (by norm_num)
    linarith
  refine (abs_add_le _ _).trans ?_
  linarith

theorem hermG_le (hx : |x| ≤ 11 / 10) (h0 : |f0| ≤ A) (h1 : |f1| ≤ A) (h2 : |d0| ≤ A) (h3 : |d1| ≤ A) : |hermG x f0 f1 d0 d1| ≤ 43 * A := by
  obtain ⟨ha, hb⟩ := abs3_le h0 h1 h2 h3
  have A0 : 0 ≤ A := (abs_nonneg _).trans h0
  unfold hermG
  generalize 2 * (f0 - f1) + d0 + d1 = a at *
  generalize 3 * (f1 - f0) - 2 * d0 - d1 = b at *
  have k1 : |x * 3 * a| ≤ 11 / 10 * 3 * (6 * A) := by
    rw [abs_mul, abs_mul, abs_of_pos (by norm_num : (0:ℝ) < 3)]
    exact mul_le_mul (by linarith) ha (abs_nonneg _) (by norm_num)
  have k0 : |2 * b| ≤ 18 * A := by rw [abs_mul, abs_of_pos (by norm_num : (0:ℝ) < 2)]; linarith
  have k2 : |x * (2 * b + x * 3 * a)| ≤ 11 / 10 * (37.8 * A) := by
    rw [abs_mul]; refine mul_le_mul hx ((abs_add_le _ _).trans ?_) (abs_nonneg _) (by norm_num); linarith
  refine (abs_add_le _ _).trans ?_
  linarith

theorem herm_lip (hx : |x| ≤ 11 / 10) (hw : |w| ≤ 11 / 10) (h0 : |f0| ≤ A) (h1 : |f1| ≤ A) (h2 : |d0| ≤ A) (h3 : |d1| ≤ A) :
    |herm x f0 f1 d0 d1 - herm w f0 f1 d0 d1| ≤ 43 * A * |x - w| := by
  obtain ⟨ha, hb⟩ := abs3_le h0 h1 h2 h3
  have A0 : 0 ≤ A := (abs_nonneg _).trans h0
  unfold herm
  generalize 2 * (f0 - f1) + d0 + d1 = a at *
  generalize 3 * (f1 - f0) - 2 * d0 - d1 = b at *
  rw [show f0 + x * (d0 + x * (b + x * a)) - (f0 + w * (d0 + w * (b + w * a))) = (d0 + (b * (x + w) + a * (x * x + x * w + w * w))) * (x - w) by ring, abs_mul]
  refine mul_le_mul_of_nonneg_right ?_ (abs_nonneg _)
  have s1 : |x + w| ≤ 22 / 10 := (abs_add_le _ _).trans (by linarith)
  have m : ∀ {p q : ℝ}, |p| ≤ 11 / 10 → |q| ≤ 11 / 10 → |p * q| ≤ 121 / 100 := fun hp hq => by
    rw [abs_mul]; exact (mul_le_mul hp hq (abs_nonneg _) (by norm_num)).trans (by norm_num)
  have s2 : |x * x + x * w + w * w| ≤ 363 / 100 := by
    have := abs_add_le (x * x + x * w) (w * w)
    have := abs_add_le (x * x) (x * w)
    have := m hx hx
    have := m hx hw
    have := m hw hw
    linarith
  have t1 : |b * (x + w)| ≤ 9 * A * (22 / 10) := by rw [abs_mul]; exact mul_le_mul hb s1 (abs_nonneg _) (by positivity)
  have t2 : |a * (x * x + x * w + w * w)| ≤ 6 * A * (363 / 100) := by rw [abs_mul]; exact mul_le_mul ha s2 (abs_nonneg _) (by positivity)
  have := abs_add_le d0 (b * (x + w) + a * (x * x + x * w + w * w))
  have := abs_add_le (b * (x + w)) (a * (x * x + x * w + w * w))
  linarith

theorem hermG_lip (hx : |x| ≤ 11 / 10) (hw : |w| ≤ 11 / 10) (h0 : |f0| ≤ A) (h1 : |f1| ≤ A) (h2 : |d0| ≤ A) (h3 : |d1| ≤ A) :
    |hermG x f0 f1 d0 d1 - hermG w f0 f1 d0 d1| ≤ 58 * A * |x - w| := by
  obtain ⟨ha, hb⟩ := abs3_le h0 h1 h2 h3
  have A0 : 0 ≤ A := (abs_nonneg _).trans h0
  unfold hermG
  generalize 2 * (f0 - f1) + d0 + d1 = a at *
  generalize 3 * (f1 - f0) - 2 * d0 - d1 = b at *
  rw [show d0 + x * (2 * b + x * 3 * a) - (d0 + w * (2 * b + w * 3 * a)) = (2 * b + 3 * a * (x + w)) * (x - w) by ring, abs_mul]
  refine mul_le_mul_of_nonneg_right ?_ (abs_nonneg _)
  have s1 : |x + w| ≤ 22 / 10 := (abs_add_le _ _).trans (by linarith)
  have t1 : |3 * a * (x + w)| ≤ 18 * A * (22 / 10) := by
    rw [abs_mul, abs_mul, abs_of_pos (by norm_num : (0:ℝ) < 3)]; exact mul_le_mul (by linarith) s1 (abs_nonneg _) (by positivity)
  have t0 : |2 * b| ≤ 18 * A := by rw [abs_mul, abs_of_pos (by norm_num : (0:ℝ) < 2)]; linarith
  have := abs_add_le (2 * b) (3 * a * (x + w))
  linarith

end cubic

section computed
variable {u : ℝ} {rd : ℝ → ℝ} {k : ℕ} {A x f0 f1 d0 d1 f0' f1' d0' d1' : ℝ}

theorem flt_three : (3 : Flt rd) = Flt.fin rd (rd 3) := by simpa using Flt.ofNat_fin (rd := rd) 3

/-- The two coefficients of `oneDSpline`, as computed. -/
theorem coefs_err (h : Rounds u rd) (hu : u < 1) (h0 : Err u k f0' f0 A) (h1 : Err u k f1' f1 A) (h2 : Err u k d0' d0 A) (h3 : Err u k d1' d1 A) :
    ∃ a b, (2 * (Flt.fin rd f0' - Flt.fin rd f1') + Flt.fin rd d0' + Flt.fin rd d1' : Flt rd) = Flt.fin rd a ∧
      (3 * (Flt.fin rd f1' - Flt.fin rd f0') - 2 * Flt.fin rd d0' - Flt.fin rd d1' : Flt rd) = Flt.fin rd b ∧
      Err u (k + 5) a (2 * (f0 - f1) + d0 + d1) (6 * A) ∧ Err u (k + 5) b (3 * (f1 - f0) - 2 * d0 - d1) (9 * A) := by
  have hu0 := h.nonneg
  have A0 := h0.M0
  have two := (h.rel hu 2).err hu0 hu
  have three := (h.rel hu 3).err hu0 hu
  have a1 := (h.errMul hu two (h.errSub hu h0 h1)).mono hu0 hu (show 1 + (k + 1) + 1 ≤ k + 3 by omega)
  have a2 := h.errAdd hu a1 (h2.mono hu0 hu (show k ≤ k + 3 by omega))
  have a3 := h.errAdd hu a2 (h3.mono hu0 hu (show k ≤ k + 4 by omega))
  have b1 := (h.errMul hu three (h.errSub hu h1 h0)).mono hu0 hu (show 1 + (k + 1) + 1 ≤ k + 3 by omega)
  have b2 := h.errSub hu b1 ((h.errMul hu two h2).mono hu0 hu (show 1 + k + 1 ≤ k + 3 by omega))
  have b3 := h.errSub hu b2 (h3.mono hu0 hu (show k ≤ k + 4 by omega))
  refine ⟨_, _, ?_, ?_, a3.larger hu0 hu (le_of_eq ?_), b3.larger hu0 hu (le_of_eq ?_)⟩
  · simp only [flt_two, Flt.sub_fin, Flt.mul_fin, Flt.add_fin]
  · simp only [flt_two, flt_three, Flt.sub_fin, Flt.mul_fin]
  · rw [abs_of_pos (by norm_num : (0:ℝ) < 2)]; ring
  · rw [abs_of_pos (by norm_num : (0:ℝ) < 2), abs_of_pos (by norm_num : (0:ℝ) < 3)]; ring

theorem spline_err (h : Rounds u rd) (hu : u < 1) (hx : |x| ≤ 11 / 10) (h0 : Err u k f0' f0 A) (h1 : Err u k f1' f1 A) (h2 : Err u k d0' d0 A)
    (h3 : Err u k d1' d1 A) :
    ∃ r, oneDSpline (Flt.fin rd x) (Flt.fin rd f0') (Flt.fin rd f1') (Flt.fin rd d0') (Flt.fin rd d1') = Flt.fin rd r ∧
      Err u (k + 11) r (herm x f0 f1 d0 d1) (21 * A) := by
  have hu0 := h.nonneg
  have A0 := h0.M0
  obtain ⟨a, b, ea, eb, ka, kb⟩ := coefs_err h hu h0 h1 h2 h3
  have X := Err.exact (u := u) x
  have s1 := h.errAdd hu (kb.mono hu0 hu (show k + 5 ≤ k + 6 by omega)) ((h.errMul hu X ka).mono hu0 hu (show 0 + (k + 5) + 1 ≤ k + 6 by omega))
  have s2 := h.errAdd hu (h2.mono hu0 hu (show k ≤ k + 8 by omega)) ((h.errMul hu X s1).mono hu0 hu (show 0 + (k + 6 + 1) + 1 ≤ k + 8 by omega))
  have s3 := h.errAdd hu (h0.mono hu0 hu (show k ≤ k + 10 by omega)) ((h.errMul hu X s2).mono hu0 hu (show 0 + (k + 8 + 1) + 1 ≤ k + 10 by omega))
  refine ⟨_, ?_, s3.larger hu0 hu ?_⟩
  · unfold oneDSpline
    simp only [ea, eb, Flt.mul_fin, Flt.add_fin]
  · have x0 := abs_nonneg x
    have m1 : |x| * (6 * A) ≤ 11 / 10 * (6 * A) := mul_le_mul_of_nonneg_right hx (by positivity)
    have m2 : |x| * (9 * A + |x| * (6 * A)) ≤ 11 / 10 * (15.6 * A) := mul_le_mul hx (by linarith) (by positivity) (by norm_num)
    have m3 : |x| * (A + |x| * (9 * A + |x| * (6 * A))) ≤ 11 / 10 * (18.16 * A) := mul_le_mul hx (by linarith) (by positivity) (by norm_num)
    linarith

theorem splineG_err (h : Rounds u rd) (hu : u < 1) (hx : |x| ≤ 11 / 10) (h0 : Err u k f0' f0 A) (h1 : Err u k f1' f1 A) (h2 : Err u k d0' d0 A)
    (h3 : Err u k d1' d1 A) :
    ∃ r, oneDGrad (Flt.fin rd x) (Flt.fin rd f0') (Flt.fin rd f1') (Flt.fin rd d0') (Flt.fin rd d1') = Flt.fin rd r ∧
      Err u (k + 11) r (hermG x f0 f1 d0 d1) (43 * A) := by
  have hu0 := h.nonneg
  have A0 := h0.M0
  obtain ⟨a, b, ea, eb, ka, kb⟩ := coefs_err h hu h0 h1 h2 h3
  have X := Err.exact (u := u) x
  have two := (h.rel hu 2).err hu0 hu
  have three := (h.rel hu 3).err hu0 hu
  have t1 := (h.errMul hu (h.errMul hu X three) ka).mono hu0 hu (show 0 + 1 + 1 + (k + 5) + 1 ≤ k + 8 by omega)
  have s1 := h.errAdd hu ((h.errMul hu two kb).mono hu0 hu (show 1 + (k + 5) + 1 ≤ k + 8 by omega)) t1
  have s2 := h.errAdd hu (h2.mono hu0 hu (show k ≤ k + 10 by omega)) ((h.errMul hu X s1).mono hu0 hu (show 0 + (k + 8 + 1) + 1 ≤ k + 10 by omega))
  refine ⟨_, ?_, s2.larger hu0 hu ?_⟩
  · unfold oneDGrad
    simp only [ea, eb]
    simp only [flt_two, flt_three, Flt.mul_fin, Flt.add_fin]
  · rw [abs_of_pos (by norm_num : (0:ℝ) < 2), abs_of_pos (by norm_num : (0:ℝ) < 3)]
    have m1 : |x| * 3 * (6 * A) ≤ 11 / 10 * 3 * (6 * A) := mul_le_mul_of_nonneg_right (by linarith) (by positivity)
    have m2 : |x| * (2 * (9 * A) + |x| * 3 * (6 * A)) ≤ 11 / 10 * (37.8 * A) := mul_le_mul hx (by linarith) (by positivity) (by norm_num)
    linarith

end computed

section patches
variable {φ : ℝ → ℝ → ℝ → ℝ → ℝ → ℝ} {B Λ Z dx dy : ℝ} {z zx zy zxy : ℕ → ℕ → ℝ} {nx ny : ℕ}

/-- A patch: `φ` along one direction, cubic pieces along the other. -/
def pat (φ : ℝ → ℝ → ℝ → ℝ → ℝ → ℝ) (dx dy : ℝ) (z zx zy zxy : ℕ → ℕ → ℝ) (i j : ℕ) (a b : ℝ) : ℝ :=
  herm b (φ a (z i j) (z (i+1) j) (zx i j * dx) (zx (i+1) j * dx))
    (φ a (z i (j+1)) (z (i+1) (j+1)) (zx i (j+1) * dx) (zx (i+1) (j+1) * dx))
    (φ a (zy i j) (zy (i+1) j) (zxy i j * dx) (zxy (i+1) j * dx) * dy)
    (φ a (zy i (j+1)) (zy (i+1) (j+1)) (zxy i (j+1) * dx) (zxy (i+1) (j+1) * dx) * dy)

theorem pat_value (i j : ℕ) (a b : ℝ) : patchV dx dy z zx zy zxy i j a b = pat herm dx dy z zx zy zxy i j a b := rfl
theorem pat_slopeX (i j : ℕ) (a b : ℝ) : patchX dx dy z zx zy zxy i j a b = pat hermG dx dy z zx zy zxy i j a b / dx := rfl
theorem pat_slopeY (i j : ℕ) (a b : ℝ) : patchY dx dy z zx zy zxy i j a b =
    pat hermG dy dx (fun j i => z i j) (fun j i => zy i j) (fun j i => zx i j) (fun j i => zxy i j) j i b a / dy := rfl

theorem pat_herm_matching : Matching (pat herm dx dy z zx zy zxy) := by
  constructor
  · intro i j v; simp only [pat, herm_one, herm_zero]
  · intro i j u; simp only [pat, herm_one, herm_zero]
theorem pat_hermG_matching : Matching (pat hermG dx dy z zx zy zxy) := by
  constructor
  · intro i j v; simp only [pat, hermG_one, hermG_zero]
  · intro i j u; simp only [pat, herm_one, herm_zero]

theorem Sizes.swap (h : Sizes nx ny dx dy z zx zy zxy Z) :
    Sizes ny nx dy dx (fun j i => z i j) (fun j i => zy i j) (fun j i => zx i j) (fun j i => zxy i j) Z :=
  ⟨fun i hi j hj => h.z j hj i hi, fun i hi j hj => h.zy j hj i hi, fun i hi j hj => h.zx j hj i hi, fun i hi j hj => by
    rw [mul_assoc, mul_comm dy dx, ← mul_assoc]; exact h.zxy j hj i hi⟩

/-- `φ` is bounded by `B` and steep by `Λ`, for entries bounded by one. -/
structure TamePiece (φ : ℝ → ℝ → ℝ → ℝ → ℝ → ℝ) (B Λ : ℝ) : Prop where
  le : ∀ {A x f0 f1 d0 d1 : ℝ}, |x| ≤ 11 / 10 → |f0| ≤ A → |f1| ≤ A → |d0| ≤ A → |d1| ≤ A → |φ x f0 f1 d0 d1| ≤ B * A
  lip : ∀ {A x w f0 f1 d0 d1 : ℝ}, |x| ≤ 11 / 10 → |w| ≤ 11 / 10 → |f0| ≤ A → |f1| ≤ A → |d0| ≤ A → |d1| ≤ A →
    |φ x f0 f1 d0 d1 - φ w f0 f1 d0 d1| ≤ Λ * A * |x - w|

theorem tame_herm : TamePiece herm 21 43 := ⟨herm_le, herm_lip⟩
theorem tame_hermG : TamePiece hermG 43 58 := ⟨hermG_le, hermG_lip⟩

theorem scaled {t d Z : ℝ} (hd : 0 < d) (h : |t| * d ≤ Z) : |t * d| ≤ Z := by rwa [abs_mul, abs_of_pos hd]
theorem unscaled {t d Z : ℝ} (hd : 0 < d) (h : |t| * d ≤ Z) : |t| ≤ Z / d := by rwa [le_div_iff₀ hd]

theorem pat_lip_x (hφ : TamePiece φ B Λ) (hx : 0 < dx) (hy : 0 < dy) (h : Sizes nx ny dx dy z zx zy zxy Z) {i j : ℕ} (hi : i + 1 < nx) (hj : j + 1 < ny)
    {a a' b : ℝ} (ha : |a| ≤ 11 / 10) (ha' : |a'| ≤ 11 / 10) (hb : |b| ≤ 11 / 10) :
    |pat φ dx dy z zx zy zxy i j a b - pat φ dx dy z zx zy zxy i j a' b| ≤ 21 * (Λ * Z) * |a - a'| := by
  have e : ∀ f0 f1 d0 d1 g0 g1 e0 e1 : ℝ, herm b f0 f1 (d0 * dy) (d1 * dy) - herm b g0 g1 (e0 * dy) (e1 * dy) =
      herm b (f0 - g0) (f1 - g1) ((d0 - e0) * dy) ((d1 - e1) * dy) := by intros; unfold herm; ring
  have row : ∀ j < ny, |φ a (z i j) (z (i+1) j) (zx i j * dx) (zx (i+1) j * dx) - φ a' (z i j) (z (i+1) j) (zx i j * dx) (zx (i+1) j * dx)| ≤
      Λ * Z * |a - a'| := fun j hj =>
    hφ.lip ha ha' (h.z _ (by omega) _ hj) (h.z _ hi _ hj) (scaled hx (h.zx _ (by omega) _ hj)) (scaled hx (h.zx _ hi _ hj))
  have der : ∀ j < ny, |(φ a (zy i j) (zy (i+1) j) (zxy i j * dx) (zxy (i+1) j * dx) - φ a' (zy i j) (zy (i+1) j) (zxy i j * dx) (zxy (i+1) j * dx)) * dy| ≤
      Λ * Z * |a - a'| := fun j hj => by
    have := hφ.lip ha ha' (unscaled hy (h.zy i (by omega) j hj)) (unscaled hy (h.zy (i+1) hi j hj))
      (unscaled (t := zxy i j * dx) hy (by rw [abs_mul, abs_of_pos hx]; exact h.zxy _ (by omega) _ hj))
      (unscaled (t := zxy (i+1) j * dx) hy (by rw [abs_mul, abs_of_pos hx]; exact h.zxy _ hi _ hj))
    rw [abs_mul, abs_of_pos hy]
    refine (mul_le_mul_of_nonneg_right this hy.le).trans (le_of_eq ?_)
    field_simp
  unfold pat
  rw [e]
  have := herm_le (x := b) hb (row j (by omega)) (row (j + 1) hj) (der j (by omega)) (der (j + 1) hj)
  linarith

theorem pat_lip_y (hφ : TamePiece φ B Λ) (hx : 0 < dx) (hy : 0 < dy) (h : Sizes nx ny dx dy z zx zy zxy Z) {i j : ℕ} (hi : i + 1 < nx) (hj : j + 1 < ny)
    {a b b' : ℝ} (ha : |a| ≤ 11 / 10) (hb : |b| ≤ 11 / 10) (hb' : |b'| ≤ 11 / 10) :
    |pat φ dx dy z zx zy zxy i j a b - pat φ dx dy z zx zy zxy i j a b'| ≤ 43 * (B * Z) * |b - b'| := by
  have row : ∀ j < ny, |φ a (z i j) (z (i+1) j) (zx i j * dx) (zx (i+1) j * dx)| ≤ B * Z := fun j hj =>
    hφ.le ha (h.z _ (by omega) _ hj) (h.z _ hi _ hj) (scaled hx (h.zx _ (by omega) _ hj)) (scaled hx (h.zx _ hi _ hj))
  have der : ∀ j < ny, |φ a (zy i j) (zy (i+1) j) (zxy i j * dx) (zxy (i+1) j * dx) * dy| ≤ B * Z := fun j hj => by
    have := hφ.le ha (unscaled hy (h.zy i (by omega) j hj)) (unscaled hy (h.zy (i+1) hi j hj))
      (unscaled (t := zxy i j * dx) hy (by rw [abs_mul, abs_of_pos hx]; exact h.zxy _ (by omega) _ hj))
      (unscaled (t := zxy (i+1) j * dx) hy (by rw [abs_mul, abs_of_pos hx]; exact h.zxy _ hi _ hj))
    rw [abs_mul, abs_of_pos hy]
    refine (mul_le_mul_of_nonneg_right this hy.le).trans (le_of_eq ?_)
    field_simp
  unfold pat
  exact herm_lip hb hb' (row j (by omega)) (row (j + 1) hj) (der j (by omega)) (der (j + 1) hj)

/-- Taking the neighbouring cell close to a grid line does little harm. -/
theorem cell_across {Q : ℕ → ℝ → ℝ} (hm : ∀ i, Q i 1 = Q (i + 1) 0) {Λ ρ q c : ℝ} {i i₀ : ℕ} (hρ : ρ ≤ 1 / 20) (hΛ : 0 ≤ Λ)
    (hl : ∀ k, k = i ∨ k = i₀ → ∀ a b, |a| ≤ 11 / 10 → |b| ≤ 11 / 10 → |Q k a - Q k b| ≤ Λ * |a - b|)
    (h0 : i₀ ≤ q) (h1 : q < i₀ + 1) (e0 : i - ρ ≤ q) (e1 : q ≤ i + 1 + ρ) (eu : |c - (q - i)| ≤ ρ) :
    |c| ≤ 11 / 10 ∧ |q - i₀| ≤ 11 / 10 ∧ |Q i c - Q i₀ (q - i₀)| ≤ 3 * Λ * ρ := by
  have ρ0 := (abs_nonneg _).trans eu
  have eu' := abs_le.1 eu
  have hc : |c| ≤ 11 / 10 := abs_le.2 ⟨by linarith, by linarith⟩
  have hq : |q - i₀| ≤ 11 / 10 := abs_le.2 ⟨by linarith, by linarith⟩
  refine ⟨hc, hq, ?_⟩
  have Λρ : 0 ≤ Λ * ρ := by positivity
  rcases lt_trichotomy i i₀ with hlt | rfl | hgt
  · have hle : i + 1 ≤ i₀ := hlt
    have : i₀ = i + 1 := by
      by_contra hne
      have : i + 2 ≤ i₀ := by omega
      have : ((i + 2 : ℕ) : ℝ) ≤ i₀ := by exact_mod_cast this
      push_cast at this
      linarith
    subst this
    push_cast at *
    have k1 := hl i (Or.inl rfl) c 1 hc (by norm_num)
    have k2 := hl (i + 1) (Or.inr rfl) 0 (q - (i + 1)) (by norm_num) hq
    rw [hm] at k1
    have m1 := mul_le_mul_of_nonneg_left (show |c - 1| ≤ 2 * ρ from abs_le.2 ⟨by linarith, by linarith⟩) hΛ
    have m2 := mul_le_mul_of_nonneg_left (show |0 - (q - (i + 1))| ≤ ρ from abs_le.2 ⟨by linarith, by linarith⟩) hΛ
    have := abs_sub_le (Q i c) (Q (i + 1) 0) (Q (i + 1) (q - (i + 1)))
    linarith
  · have k1 := hl i (Or.inl rfl) c (q - i) hc hq
    have m1 := mul_le_mul_of_nonneg_left eu hΛ
    linarith
  · have hle : i₀ + 1 ≤ i := hgt
    have : i = i₀ + 1 := by
      by_contra hne
      have : i₀ + 2 ≤ i := by omega
      have : ((i₀ + 2 : ℕ) : ℝ) ≤ i := by exact_mod_cast this
      push_cast at this
      linarith
    subst this
    push_cast at *
    have k1 := hl (i₀ + 1) (Or.inl rfl) c 0 hc (by norm_num)
    have k2 := hl i₀ (Or.inr rfl) 1 (q - i₀) (by norm_num) hq
    rw [hm] at k2
    have m1 := mul_le_mul_of_nonneg_left (show |c - 0| ≤ 2 * ρ from abs_le.2 ⟨by linarith, by linarith⟩) hΛ
    have m2 := mul_le_mul_of_nonneg_left (show |1 - (q - i₀)| ≤ ρ from abs_le.2 ⟨by linarith, by linarith⟩) hΛ
    have := abs_sub_le (Q (i₀ + 1) c) (Q (i₀ + 1) 0) (Q i₀ (q - i₀))
    linarith

/-- Where a coordinate is, as seen by the program: a cell `i` and a fraction `c`. -/
structure Placed (n : ℕ) (q ρ : ℝ) (i : ℕ) (c : ℝ) : Prop where
  inside : i + 1 < n
  above : i - ρ ≤ q
  below : q ≤ i + 1 + ρ
  frac : |c - (q - i)| ≤ ρ

theorem pat_across (hφ : TamePiece φ B Λ) (hB : 0 ≤ B) (hΛ : 0 ≤ Λ) (hm : Matching (pat φ dx dy z zx zy zxy)) (hx : 0 < dx) (hy : 0 < dy)
    (h : Sizes nx ny dx dy z zx zy zxy Z) {i j i₀ j₀ : ℕ} {p q ρ σ a b : ℝ} (hi₀ : i₀ + 1 < nx) (hj₀ : j₀ + 1 < ny)
    (hp : Placed nx p ρ i a) (hq : Placed ny q σ j b) (p0 : i₀ ≤ p) (p1 : p < i₀ + 1) (q0 : j₀ ≤ q) (q1 : q < j₀ + 1) (hρ : ρ ≤ 1 / 20) (hσ : σ ≤ 1 / 20) :
    |a| ≤ 11 / 10 ∧ |b| ≤ 11 / 10 ∧
    |pat φ dx dy z zx zy zxy i j a b - pat φ dx dy z zx zy zxy i₀ j₀ (p - i₀) (q - j₀)| ≤ Z * (63 * Λ * ρ + 129 * B * σ) := by
  have Z0 : 0 ≤ Z := (abs_nonneg _).trans (h.z i₀ (by omega) j₀ (by omega))
  have σ0 := (abs_nonneg _).trans hq.frac
  have bb : |b| ≤ 11 / 10 := by
    have := abs_le.1 hq.frac
    exact abs_le.2 ⟨by linarith [hq.above], by linarith [hq.below]⟩
  obtain ⟨ka, kp, k1⟩ := cell_across (Q := fun k t => pat φ dx dy z zx zy zxy k j t b) (fun k => hm.x k j b) hρ (Λ := 21 * (Λ * Z)) (by positivity)
    (by
      rintro k (rfl | rfl) s t hs ht
      · exact pat_lip_x hφ hx hy h hp.inside hq.inside hs ht bb
      · exact pat_lip_x hφ hx hy h hi₀ hq.inside hs ht bb) p0 p1 hp.above hp.below hp.frac
  obtain ⟨-, -, k2⟩ := cell_across (Q := fun k t => pat φ dx dy z zx zy zxy i₀ k (p - i₀) t) (fun k => hm.y i₀ k _) hσ (Λ := 43 * (B * Z)) (by positivity)
    (by
      rintro k (rfl | rfl) s t hs ht
      · exact pat_lip_y hφ hx hy h hi₀ hq.inside kp hs ht
      · exact pat_lip_y hφ hx hy h hi₀ hj₀ kp hs ht) q0 q1 hq.above hq.below hq.frac
  refine ⟨ka, bb, ?_⟩
  have := abs_sub_le (pat φ dx dy z zx zy zxy i j a b) (pat φ dx dy z zx zy zxy i₀ j (p - i₀) b) (pat φ dx dy z zx zy zxy i₀ j₀ (p - i₀) (q - j₀))
  linarith

end patches

section machine
variable {u : ℝ} {rd : ℝ → ℝ} {φ : ℝ → ℝ → ℝ → ℝ → ℝ → ℝ} {B Z dx dy : ℝ} {z zx zy zxy : ℕ → ℕ → ℝ} {nx ny : ℕ}

/-- A spline of four computed numbers. -/
theorem pat_err (h : Rounds u rd) (hu : u < 1) {ψ : Flt rd → Flt rd → Flt rd → Flt rd → Flt rd → Flt rd}
    (hψ : ∀ {k : ℕ} {A x f0 f1 d0 d1 f0' f1' d0' d1' : ℝ}, |x| ≤ 11 / 10 → Err u k f0' f0 A → Err u k f1' f1 A → Err u k d0' d0 A → Err u k d1' d1 A →
      ∃ r, ψ (Flt.fin rd x) (Flt.fin rd f0') (Flt.fin rd f1') (Flt.fin rd d0') (Flt.fin rd d1') = Flt.fin rd r ∧ Err u (k + 11) r (φ x f0 f1 d0 d1) (B * A))
    (hx : 0 < dx) (hy : 0 < dy) (hs : Sizes nx ny dx dy z zx zy zxy Z) {i j : ℕ} (hi : i + 1 < nx) (hj : j + 1 < ny) {a b : ℝ} (ha : |a| ≤ 11 / 10)
    (hb : |b| ≤ 11 / 10) :
    ∃ r, oneDSpline (Flt.fin rd b)
        (ψ (Flt.fin rd a) (Flt.fin rd (z i j)) (Flt.fin rd (z (i+1) j)) (Flt.fin rd (zx i j) * Flt.fin rd dx) (Flt.fin rd (zx (i+1) j) * Flt.fin rd dx))
        (ψ (Flt.fin rd a) (Flt.fin rd (z i (j+1))) (Flt.fin rd (z (i+1) (j+1))) (Flt.fin rd (zx i (j+1)) * Flt.fin rd dx)
          (Flt.fin rd (zx (i+1) (j+1)) * Flt.fin rd dx))
        (ψ (Flt.fin rd a) (Flt.fin rd (zy i j)) (Flt.fin rd (zy (i+1) j)) (Flt.fin rd (zxy i j) * Flt.fin rd dx) (Flt.fin rd (zxy (i+1) j) * Flt.fin rd dx) *
          Flt.fin rd dy)
        (ψ (Flt.fin rd a) (Flt.fin rd (zy i (j+1))) (Flt.fin rd (zy (i+1) (j+1))) (Flt.fin rd (zxy i (j+1)) * Flt.fin rd dx)
          (Flt.fin rd (zxy (i+1) (j+1)) * Flt.fin rd dx) * Flt.fin rd dy) = Flt.fin rd r ∧
      Err u 24 r (pat φ dx dy z zx zy zxy i j a b) (21 * (B * Z)) := by
  have hu0 := h.nonneg
  have ex : ∀ {t M : ℝ}, |t| ≤ M → Err u 1 t t M := fun ht => ((Err.exact _).mono hu0 hu (Nat.zero_le 1)).larger hu0 hu ht
  have pr : ∀ {t M : ℝ}, |t| * dx ≤ M → Err u 1 (rd (t * dx)) (t * dx) M := fun {t M} ht =>
    ((h.rel hu (t * dx)).err hu0 hu).larger hu0 hu (by rwa [abs_mul, abs_of_pos hx])
  have row : ∀ j < ny, ∃ r, ψ (Flt.fin rd a) (Flt.fin rd (z i j)) (Flt.fin rd (z (i+1) j)) (Flt.fin rd (zx i j) * Flt.fin rd dx)
      (Flt.fin rd (zx (i+1) j) * Flt.fin rd dx) = Flt.fin rd r ∧ Err u 13 r (φ a (z i j) (z (i+1) j) (zx i j * dx) (zx (i+1) j * dx)) (B * Z) := by
    intro j hj
    obtain ⟨r, e, k⟩ := hψ ha (ex (hs.z i (by omega) j hj)) (ex (hs.z (i+1) hi j hj)) (pr (hs.zx i (by omega) j hj)) (pr (hs.zx (i+1) hi j hj))
    exact ⟨r, by rw [Flt.mul_fin, Flt.mul_fin, e], k.mono hu0 hu (by norm_num)⟩
  have der : ∀ j < ny, ∃ r, ψ (Flt.fin rd a) (Flt.fin rd (zy i j)) (Flt.fin rd (zy (i+1) j)) (Flt.fin rd (zxy i j) * Flt.fin rd dx)
      (Flt.fin rd (zxy (i+1) j) * Flt.fin rd dx) * Flt.fin rd dy = Flt.fin rd r ∧
        Err u 13 r (φ a (zy i j) (zy (i+1) j) (zxy i j * dx) (zxy (i+1) j * dx) * dy) (B * Z) := by
    intro j hj
    obtain ⟨r, e, k⟩ := hψ ha (ex (unscaled hy (hs.zy i (by omega) j hj))) (ex (unscaled hy (hs.zy (i+1) hi j hj)))
      (pr ((le_div_iff₀ hy).2 (hs.zxy i (by omega) j hj))) (pr ((le_div_iff₀ hy).2 (hs.zxy (i+1) hi j hj)))
    refine ⟨_, by rw [Flt.mul_fin, Flt.mul_fin, e, Flt.mul_fin], (h.errMul hu k (Err.exact (u := u) dy)).larger hu0 hu (le_of_eq ?_)⟩
    rw [abs_of_pos hy]
    field_simp
  obtain ⟨r0, e0, k0⟩ := row j (by omega)
  obtain ⟨r1, e1, k1⟩ := row (j + 1) hj
  obtain ⟨r2, e2, k2⟩ := der j (by omega)
  obtain ⟨r3, e3, k3⟩ := der (j + 1) hj
  rw [e0, e1, e2, e3]
  exact spline_err h hu hb k0 k1 k2 k3

theorem val_fin {a : Flt rd} {r : ℝ} (h : a.val = .fin r) : a = Flt.fin rd r := by cases a; simp_all [Flt.fin]

/-- The cell and the fraction that the program computes. -/
theorem placed (h : Rounds u rd) (hu : u ≤ 1 / 1000) {n : ℕ} {x0 d x : ℝ} (hd : 0 < d) (hin : WellInside u n x0 d x) :
    ∃ i : ℕ, ∃ c, ⌊rd (rd (x - x0) / d)⌋ = (i : ℤ) ∧
      (Flt.fin rd x - (Flt.fin rd x0 + Arith.const (i : ℚ) * Flt.fin rd d)) / Flt.fin rd d = Flt.fin rd c ∧
      Placed n ((x - x0) / d) (25 * u * cellsAway x0 d x) i c := by
  have hu0 := h.nonneg
  have hl : u < 1 := by linarith
  obtain ⟨i1, i2⟩ := hin
  have R0 : 0 ≤ cellsAway x0 d x := by unfold cellsAway; positivity
  have qR : (x - x0) / d ≤ cellsAway x0 d x := by
    unfold cellsAway
    exact div_le_div_of_nonneg_right (by linarith [le_abs_self x, neg_abs_le x0]) hd.le
  have eR : cellsAway x0 d x * d = |x| + |x0| := by unfold cellsAway; field_simp
  have q0 : 0 ≤ (x - x0) / d := div_nonneg (by linarith) hd.le
  have qn : (x - x0) / d < (1 - 5 * u) * ((n : ℝ) - 1) := by rw [div_lt_iff₀ hd]; exact i2
  have r2 := h.after hl ((h.rel hl (x - x0)).div hl (Rel.refl d))
  have k := (r2.err hu0 hl).close hu0 hl 4 (by norm_num) (by linarith)
  have p0 := r2.nonneg hl q0
  rw [abs_of_nonneg q0] at k
  generalize eq : (x - x0) / d = q at *
  generalize rd (rd (x - x0) / d) = q' at *
  generalize cellsAway x0 d x = R at *
  have k' := abs_le.1 k
  have n0 : 0 < (n : ℝ) - 1 := by
    by_contra hn
    have : (1 - 5 * u) * ((n : ℝ) - 1) ≤ 0 := mul_nonpos_of_nonneg_of_nonpos (by linarith) (not_lt.1 hn)
    linarith
  have hq' : q' < (n : ℝ) - 1 := by
    have a1 : q' ≤ (1 + 4 * u) * q := by linarith
    have a2 : (1 + 4 * u) * q < (1 + 4 * u) * ((1 - 5 * u) * ((n : ℝ) - 1)) := mul_lt_mul_of_pos_left qn (by linarith)
    have a3 : (1 + 4 * u) * ((1 - 5 * u) * ((n : ℝ) - 1)) ≤ (n : ℝ) - 1 := by
      have : (1 + 4 * u) * (1 - 5 * u) ≤ 1 := by nlinarith
      have := mul_le_mul_of_nonneg_right this n0.le
      linarith
    linarith
  have f0 : 0 ≤ ⌊q'⌋ := Int.floor_nonneg.2 p0
  obtain ⟨i, hi⟩ := Int.eq_ofNat_of_zero_le f0
  have fl := Int.floor_le q'
  have fu := Int.lt_floor_add_one q'
  rw [hi] at fl fu
  push_cast at fl fu
  have uq := mul_le_mul_of_nonneg_left qR (show 0 ≤ 4 * u by positivity)
  have uR : 0 ≤ u * R := by positivity
  have id : (i : ℝ) * d ≤ 1.01 * (|x| + |x0|) := by
    rw [← eR, ← mul_assoc]
    refine mul_le_mul_of_nonneg_right ?_ hd.le
    have : u * R ≤ 1 / 1000 * R := mul_le_mul_of_nonneg_right hu R0
    norm_num
    linarith
  have s1 := h.errAdd hl ((Err.exact (u := u) x0).mono hu0 hl (Nat.zero_le 2))
    (h.errMul hl ((h.rel hl (((i : ℚ) : ℝ))).err hu0 hl) (Err.exact (u := u) d))
  have s2 := h.errDiv hl (h.errSub hl ((Err.exact (u := u) x).mono hu0 hl (Nat.zero_le 3)) s1) (Rel.refl d)
  have c := s2.close hu0 hl 10 (by norm_num) (by linarith)
  have ec : (x - (x0 + ((i : ℚ) : ℝ) * d)) / d = q - i := by
    rw [← eq]
    push_cast
    field_simp
    ring
  rw [ec] at c
  refine ⟨i, _, hi, ?_, ?_, ?_, ?_, c.trans ?_⟩
  · simp only [Flt.const_fin, Flt.mul_fin, Flt.add_fin, Flt.sub_fin, Flt.div_fin hd.ne']
  · have : (i : ℝ) < (n : ℝ) - 1 := by linarith
    have : ((i + 1 : ℕ) : ℝ) < n := by push_cast; linarith
    exact_mod_cast this
  · linarith
  · linarith
  · push_cast
    rw [abs_of_pos hd, abs_of_nonneg (Nat.cast_nonneg (α := ℝ) i)]
    have : (|x| + (|x0| + i * d)) / d ≤ 2.01 * R := by
      rw [div_le_iff₀ hd, mul_assoc, eR]
      norm_num at id ⊢
      linarith
    have := mul_le_mul_of_nonneg_left this (show 0 ≤ 10 * u by positivity)
    norm_num at this
    linarith

end machine

section results
variable {u : ℝ} {rd : ℝ → ℝ} {T : Table (Flt rd)} {x0 y0 dx dy Z x y : ℝ} {z zx zy zxy : ℕ → ℕ → ℝ}

theorem flt_notNaN (r : ℝ) : Arith.isNaN (Flt.fin rd r) = false := Dbl.isNaN_fin r

theorem inside_covered {n : ℕ} {d : ℝ} (hu : 0 ≤ u) (hu' : u ≤ 1 / 1000) (h : WellInside u n x0 d x) : Covered n x0 d x := by
  obtain ⟨h1, h2⟩ := h
  refine ⟨h1, ?_⟩
  have n0 : 0 < ((n : ℝ) - 1) * d := by
    by_contra hn
    have : (1 - 5 * u) * (((n : ℝ) - 1) * d) ≤ 0 := mul_nonpos_of_nonneg_of_nonpos (by linarith) (not_lt.1 hn)
    linarith
  have := mul_nonneg hu n0.le
  linarith

theorem cell_frac {d : ℝ} {i : ℕ} (hd : 0 < d) (h : InCell x0 d x i) :
    (i : ℝ) ≤ (x - x0) / d ∧ (x - x0) / d < i + 1 ∧ (x - (x0 + i * d)) / d = (x - x0) / d - i := by
  obtain ⟨h1, h2⟩ := h
  refine ⟨?_, ?_, ?_⟩
  · rw [le_div_iff₀ hd]; linarith
  · rw [div_lt_iff₀ hd]; linarith
  · field_simp; ring

/-- What the program looks up. -/
theorem looked_up (h : Rounds u rd) (hu : u ≤ 1 / 1000) (g : Grid (exactTable T) x0 y0 dx dy z zx zy zxy) (hx : WellInside u T.nx x0 dx x)
    (hy : WellInside u T.ny y0 dy y) : ∃ i j a b, T.cell (Flt.fin rd x) (Flt.fin rd y) = some (i, j) ∧ T.xfrac (Flt.fin rd x) i = Flt.fin rd a ∧
      T.yfrac (Flt.fin rd y) j = Flt.fin rd b ∧ Placed T.nx ((x - x0) / dx) (25 * u * cellsAway x0 dx x) i a ∧
      Placed T.ny ((y - y0) / dy) (25 * u * cellsAway y0 dy y) j b := by
  obtain ⟨i, a, fi, ea, pi⟩ := placed h hu g.dx_pos hx
  obtain ⟨j, b, fj, eb, pj⟩ := placed h hu g.dy_pos hy
  have e1 : T.x0 = Flt.fin rd x0 := val_fin g.hx0
  have e2 : T.y0 = Flt.fin rd y0 := val_fin g.hy0
  have e3 : T.dx = Flt.fin rd dx := val_fin g.hdx
  have e4 : T.dy = Flt.fin rd dy := val_fin g.hdy
  refine ⟨i, j, a, b, ?_, ?_, ?_, pi, pj⟩
  · unfold Table.cell
    rw [e1, e2, e3, e4, Flt.sub_fin, Flt.sub_fin, Flt.div_fin g.dx_pos.ne', Flt.div_fin g.dy_pos.ne']
    have f1 : Arith.floor (Flt.fin rd (rd (rd (x - x0) / dx))) = (i : ℤ) := fi
    have f2 : Arith.floor (Flt.fin rd (rd (rd (y - y0) / dy))) = (j : ℤ) := fj
    have := pi.inside
    have := pj.inside
    simp only [f1, f2]
    rw [if_neg (by omega)]
    simp
  · unfold Table.xfrac; rw [e1, e3, ea]
  · unfold Table.yfrac; rw [e2, e4, eb]

theorem sum_slack {K L S R R' : ℝ} (hu : 0 ≤ u) (hZ : 0 ≤ Z) (hR : 0 ≤ R) (hR' : 0 ≤ R') (hK : K ≤ 50000) (hL : L ≤ 5600) (hS : S ≤ 5600) :
    u * Z * K + Z * (L * (25 * u * R) + S * (25 * u * R')) ≤ tableSlack u Z (R + R') := by
  have uZ := mul_nonneg hu hZ
  have k1 := mul_le_mul_of_nonneg_left hK uZ
  have k2 := mul_le_mul_of_nonneg_right hL (mul_nonneg uZ hR)
  have k3 := mul_le_mul_of_nonneg_right hS (mul_nonneg uZ hR')
  unfold tableSlack
  linarith

/-- Heights. -/
theorem table_value (h : Rounds u rd) (hu : u ≤ 1 / 1000) (g : Grid (exactTable T) x0 y0 dx dy z zx zy zxy) (hs : Sizes T.nx T.ny dx dy z zx zy zxy Z)
    {i j : ℕ} {a b : ℝ} (hx : WellInside u T.nx x0 dx x) (hy : WellInside u T.ny y0 dy y) (hcx : 25 * u * cellsAway x0 dx x ≤ 1 / 20)
    (hcy : 25 * u * cellsAway y0 dy y ≤ 1 / 20) (pi : Placed T.nx ((x - x0) / dx) (25 * u * cellsAway x0 dx x) i a)
    (pj : Placed T.ny ((y - y0) / dy) (25 * u * cellsAway y0 dy y) j b) :
    (∃ r, T.patch i j (Flt.fin rd a) (Flt.fin rd b) = Flt.fin rd r ∧
      |r - sagR (exactTable T) x y| ≤ tableSlack u Z (cellsAway x0 dx x + cellsAway y0 dy y)) ∧
    (∃ r, T.patchGradX i j (Flt.fin rd a) (Flt.fin rd b) = Flt.fin rd r ∧
      |r - slopeX (exactTable T) x y| ≤ tableSlack u Z (cellsAway x0 dx x + cellsAway y0 dy y) / dx) ∧
    (∃ r, T.patchGradY i j (Flt.fin rd a) (Flt.fin rd b) = Flt.fin rd r ∧
      |r - slopeY (exactTable T) x y| ≤ tableSlack u Z (cellsAway x0 dx x + cellsAway y0 dy y) / dy) := by
  have hu0 := h.nonneg
  have hl : u < 1 := by linarith
  have dxp := g.dx_pos
  have dyp := g.dy_pos
  obtain ⟨i₀, hi₀, ci⟩ := covered_cell dxp (inside_covered hu0 hu hx)
  obtain ⟨j₀, hj₀, cj⟩ := covered_cell dyp (inside_covered hu0 hu hy)
  obtain ⟨p0, p1, ep⟩ := cell_frac dxp ci
  obtain ⟨q0, q1, eq⟩ := cell_frac dyp cj
  have Rx : 0 ≤ cellsAway x0 dx x := by unfold cellsAway; positivity
  have Ry : 0 ≤ cellsAway y0 dy y := by unfold cellsAway; positivity
  have Z0 : 0 ≤ Z := (abs_nonneg _).trans (hs.z i₀ (by omega) j₀ (by omega))
  obtain ⟨ka, kb, kV⟩ := pat_across tame_herm (by norm_num) (by norm_num) pat_herm_matching dxp dyp hs hi₀ hj₀ pi pj p0 p1 q0 q1 hcx hcy
  obtain ⟨-, -, kX⟩ := pat_across tame_hermG (by norm_num) (by norm_num) pat_hermG_matching dxp dyp hs hi₀ hj₀ pi pj p0 p1 q0 q1 hcx hcy
  obtain ⟨-, -, kY⟩ := pat_across tame_hermG (by norm_num) (by norm_num) pat_hermG_matching dyp dxp hs.swap hj₀ hi₀ pj pi q0 q1 p0 p1 hcy hcx
  obtain ⟨rV, eV, rV'⟩ := pat_err h hl (B := 21) (fun hx h0 h1 h2 h3 => spline_err h hl hx h0 h1 h2 h3) dxp dyp hs pi.inside pj.inside ka kb
  obtain ⟨rX, eX, rX'⟩ := pat_err h hl (B := 43) (fun hx h0 h1 h2 h3 => splineG_err h hl hx h0 h1 h2 h3) dxp dyp hs pi.inside pj.inside ka kb
  obtain ⟨rY, eY, rY'⟩ := pat_err h hl (B := 43) (fun hx h0 h1 h2 h3 => splineG_err h hl hx h0 h1 h2 h3) dyp dxp hs.swap pj.inside pi.inside kb ka
  have i1 := pi.inside
  have j1 := pj.inside
  have tz : ∀ j < T.ny, ∀ i < T.nx, T.z (T.nx * j + i) = Flt.fin rd (z i j) := fun j hj i hi => val_fin (g.hz j hj i hi)
  have tx : ∀ j < T.ny, ∀ i < T.nx, T.dzdx (T.nx * j + i) = Flt.fin rd (zx i j) := fun j hj i hi => val_fin (g.hzx j hj i hi)
  have ty : ∀ j < T.ny, ∀ i < T.nx, T.dzdy (T.nx * j + i) = Flt.fin rd (zy i j) := fun j hj i hi => val_fin (g.hzy j hj i hi)
  have txy : ∀ j < T.ny, ∀ i < T.nx, T.d2zdxdy (T.nx * j + i) = Flt.fin rd (zxy i j) := fun j hj i hi => val_fin (g.hzxy j hj i hi)
  have e3 : T.dx = Flt.fin rd dx := val_fin g.hdx
  have e4 : T.dy = Flt.fin rd dy := val_fin g.hdy
  refine ⟨⟨rV, ?_, ?_⟩, ⟨rd (rX / dx), ?_, ?_⟩, rd (rY / dy), ?_, ?_⟩
  · unfold Table.patch
    simp only [Nat.add_assoc, tz j (by omega) i (by omega), tz j (by omega) (i+1) i1, tz (j+1) j1 i (by omega), tz (j+1) j1 (i+1) i1,
      tx j (by omega) i (by omega), tx j (by omega) (i+1) i1, tx (j+1) j1 i (by omega), tx (j+1) j1 (i+1) i1,
      ty j (by omega) i (by omega), ty j (by omega) (i+1) i1, ty (j+1) j1 i (by omega), ty (j+1) j1 (i+1) i1,
      txy j (by omega) i (by omega), txy j (by omega) (i+1) i1, txy (j+1) j1 i (by omega), txy (j+1) j1 (i+1) i1, e3, e4]
    exact eV
  · rw [g.sagR_cell i₀ j₀ hi₀ hj₀ x y ci cj, ep, eq, pat_value]
    have k := rV'.close hu0 hl 48 (by norm_num) (by linarith)
    refine (abs_sub_le _ (pat herm dx dy z zx zy zxy i j a b) _).trans (le_trans (add_le_add k kV)
      (le_trans (le_of_eq ?_) (sum_slack (K := 21168) (L := 63 * 43) (S := 129 * 21) hu0 Z0 Rx Ry (by norm_num) (by norm_num) (by norm_num))))
    ring
  · unfold Table.patchGradX
    simp only [Nat.add_assoc, tz j (by omega) i (by omega), tz j (by omega) (i+1) i1, tz (j+1) j1 i (by omega), tz (j+1) j1 (i+1) i1,
      tx j (by omega) i (by omega), tx j (by omega) (i+1) i1, tx (j+1) j1 i (by omega), tx (j+1) j1 (i+1) i1,
      ty j (by omega) i (by omega), ty j (by omega) (i+1) i1, ty (j+1) j1 i (by omega), ty (j+1) j1 (i+1) i1,
      txy j (by omega) i (by omega), txy j (by omega) (i+1) i1, txy (j+1) j1 i (by omega), txy (j+1) j1 (i+1) i1, e3, e4]
    rw [eX, Flt.div_fin dxp.ne']
  · rw [g.slopeX_cell i₀ j₀ hi₀ hj₀ x y ci cj, ep, eq, pat_slopeX]
    have k := (h.errDiv hl rX' (Rel.refl dx)).close hu0 hl 50 (by norm_num) (by linarith)
    rw [abs_of_pos dxp] at k
    have k2 := div_le_div_of_nonneg_right kX dxp.le
    rw [← abs_of_pos dxp, ← abs_div, sub_div, abs_of_pos dxp] at k2
    refine (abs_sub_le _ (pat hermG dx dy z zx zy zxy i j a b / dx) _).trans (le_trans (add_le_add k k2)
      (le_trans (le_of_eq ?_) (div_le_div_of_nonneg_right
        (sum_slack (K := 45150) (L := 63 * 58) (S := 129 * 43) hu0 Z0 Rx Ry (by norm_num) (by norm_num) (by norm_num)) dxp.le)))
    ring
  · unfold Table.patchGradY
    simp only [Nat.add_assoc, tz j (by omega) i (by omega), tz j (by omega) (i+1) i1, tz (j+1) j1 i (by omega), tz (j+1) j1 (i+1) i1,
      tx j (by omega) i (by omega), tx j (by omega) (i+1) i1, tx (j+1) j1 i (by omega), tx (j+1) j1 (i+1) i1,
      ty j (by omega) i (by omega), ty j (by omega) (i+1) i1, ty (j+1) j1 i (by omega), ty (j+1) j1 (i+1) i1,
      txy j (by omega) i (by omega), txy j (by omega) (i+1) i1, txy (j+1) j1 i (by omega), txy (j+1) j1 (i+1) i1, e3, e4]
    rw [eY, Flt.div_fin dyp.ne']
  · rw [g.slopeY_cell i₀ j₀ hi₀ hj₀ x y ci cj, ep, eq, pat_slopeY]
    have k := (h.errDiv hl rY' (Rel.refl dy)).close hu0 hl 50 (by norm_num) (by linarith)
    rw [abs_of_pos dyp] at k
    have k2 := div_le_div_of_nonneg_right kY dyp.le
    rw [← abs_of_pos dyp, ← abs_div, sub_div, abs_of_pos dyp] at k2
    refine (abs_sub_le _ (pat hermG dy dx (fun j i => z i j) (fun j i => zy i j) (fun j i => zx i j) (fun j i => zxy i j) j i b a / dy) _).trans
      (le_trans (add_le_add k k2) (le_trans (le_of_eq ?_) (div_le_div_of_nonneg_right
        (sum_slack (K := 45150) (L := 129 * 43) (S := 63 * 58) hu0 Z0 Rx Ry (by norm_num) (by norm_num) (by norm_num)) dyp.le)))
    ring

/-- **C135, heights.** -/
theorem C135_sag (h : Rounds u rd) (hu : u ≤ 1 / 1000) (g : Grid (exactTable T) x0 y0 dx dy z zx zy zxy) (hs : Sizes T.nx T.ny dx dy z zx zy zxy Z)
    (hx : WellInside u T.nx x0 dx x) (hy : WellInside u T.ny y0 dy y) (hcx : 25 * u * cellsAway x0 dx x ≤ 1 / 20)
    (hcy : 25 * u * cellsAway y0 dy y ≤ 1 / 20) :
    SagWithin rd (bicubic T) x y (sagR (exactTable T) x y) (tableSlack u Z (cellsAway x0 dx x + cellsAway y0 dy y)) := by
  obtain ⟨i, j, a, b, ec, ea, eb, pi, pj⟩ := looked_up h hu g hx hy
  obtain ⟨⟨r, er, kr⟩, -, -⟩ := table_value h hu g hs hx hy hcx hcy pi pj
  refine ⟨r, ?_, kr⟩
  show T.eval _ _ = _
  unfold Table.eval
  rw [ec]
  simp only [ea, eb, er]

/-- The normal of computed slopes `P`, `Q`. -/
theorem table_upward (h : Rounds u rd) (h1 : rd 1 = 1) (hu : 12 * u ≤ 1) (a b : ℝ) :
    ∃ n' : V3 ℝ, (⟨-Flt.fin rd a * (1 / Arith.sqrt (1 + Flt.fin rd a * Flt.fin rd a + Flt.fin rd b * Flt.fin rd b)),
      -Flt.fin rd b * (1 / Arith.sqrt (1 + Flt.fin rd a * Flt.fin rd a + Flt.fin rd b * Flt.fin rd b)),
      1 / Arith.sqrt (1 + Flt.fin rd a * Flt.fin rd a + Flt.fin rd b * Flt.fin rd b)⟩ : V3 (Flt rd)) = n'.flt rd ∧
      nrm (n' - upward a b) ≤ 12 * u := by
  have hu0 := h.nonneg
  have hu1 : u < 1 := by linarith
  have one : (1 : Flt rd) = Flt.fin rd 1 := by rw [flt_one, h1]
  have rp := h.after hu1 (((Rel.refl 1).mono hu0 hu1 (Nat.zero_le _)).add hu1 (h.rel hu1 (a * a)) zero_le_one (mul_self_nonneg a))
  have rq := h.after hu1 (rp.add hu1 ((h.rel hu1 (b * b)).mono hu0 hu1 (by norm_num : 1 ≤ 1 + 1))
    (add_nonneg zero_le_one (mul_self_nonneg a)) (mul_self_nonneg b))
  have qp : 0 < 1 + a * a + b * b := by nlinarith [mul_self_nonneg a, mul_self_nonneg b]
  have rs := h.after hu1 (rq.sqrt hu0 hu1 qp.le)
  have rz := h.after hu1 ((Rel.refl 1).div hu1 rs)
  have rx := fun t : ℝ => h.after hu1 ((Rel.refl t).mul hu1 rz)
  have ea : 1 + (a * a + b * b) = 1 + a * a + b * b := by ring
  have k := near_of_rel hu0 hu1 (k := 6) (n := upward a b) (n' := ⟨_, _, _⟩) (by rw [upward, ea]; exact (rx (-a)).mono hu0 hu1 (by norm_num))
    (by rw [upward, ea]; exact (rx (-b)).mono hu0 hu1 (by norm_num)) (by rw [upward, ea]; exact rz.mono hu0 hu1 (by norm_num)) (by push_cast; linarith)
  rw [nrm_upward, mul_one] at k
  push_cast at k
  refine ⟨_, ?_, k.trans (by linarith)⟩
  rw [one, Flt.mul_fin, Flt.mul_fin, Flt.add_fin, Flt.add_fin, Flt.sqrt_fin (rq.nonneg hu1 qp.le), Flt.div_fin (rs.ne hu1 (Real.sqrt_pos.2 qp).ne'),
      Flt.neg_fin, Flt.neg_fin, Flt.mul_fin, Flt.mul_fin]
  rfl

theorem slope_normal_unique {P Q : ℝ} {n : V3 ℝ} (h : SlopeNormal P Q n) : n = upward P Q := by
  obtain ⟨h1, h2, h3, h4⟩ := h
  obtain ⟨g1, g2, g3, g4⟩ := upward_slope P Q
  have e : n.z = (upward P Q).z := by
    unfold nrm V3.normSq V3.dot at h1 g1
    rw [Real.sqrt_eq_one] at h1 g1
    rw [h3, h4] at h1
    rw [g3, g4] at g1
    have hp : 0 < P * P + Q * Q + 1 := by nlinarith [mul_self_nonneg P, mul_self_nonneg Q]
    have : (P * P + Q * Q + 1) * (n.z * n.z - (upward P Q).z * (upward P Q).z) = 0 := by nlinarith
    have := (mul_eq_zero.1 this).resolve_left hp.ne'
    nlinarith
  cases n
  simp_all [upward]

/-- **C135, normals.** -/
theorem C135_normal (h : Rounds u rd) (h1 : rd 1 = 1) (hu : u ≤ 1 / 1000) (g : Grid (exactTable T) x0 y0 dx dy z zx zy zxy)
    (hs : Sizes T.nx T.ny dx dy z zx zy zxy Z) (hx : WellInside u T.nx x0 dx x) (hy : WellInside u T.ny y0 dy y)
    (hcx : 25 * u * cellsAway x0 dx x ≤ 1 / 20) (hcy : 25 * u * cellsAway y0 dy y ≤ 1 / 20) {n : V3 ℝ}
    (hn : SlopeNormal (slopeX (exactTable T) x y) (slopeY (exactTable T) x y) n) :
    NormalWithin rd (bicubic T) x y n (12 * u + tableSlack u Z (cellsAway x0 dx x + cellsAway y0 dy y) / dx +
      tableSlack u Z (cellsAway x0 dx x + cellsAway y0 dy y) / dy) := by
  rw [slope_normal_unique hn]
  obtain ⟨i, j, a, b, ec, ea, eb, pi, pj⟩ := looked_up h hu g hx hy
  obtain ⟨-, ⟨P, eP, kP⟩, Q, eQ, kQ⟩ := table_value h hu g hs hx hy hcx hcy pi pj
  obtain ⟨n', en, kn⟩ := table_upward h h1 (by linarith) P Q
  refine ⟨n', ?_, ?_⟩
  · show bicubicNormal T _ _ = _
    unfold bicubicNormal Table.grad
    rw [ec]
    simp only [ea, eb, eP, eQ]
    rw [if_neg (by rw [flt_notNaN]; simp)]
    exact en
  · refine (nrm_via n' (upward P Q) _).trans ?_
    have := upward_close (slopeX (exactTable T) x y) (slopeY (exactTable T) x y) P Q
    linarith

/-- **C135, outside.** -/
theorem C135_outside (h : Rounds u rd) (h1 : rd 1 = 1) (hu : u ≤ 1 / 1000) (g : Grid (exactTable T) x0 y0 dx dy z zx zy zxy)
    (ho : WellOutside u T.nx x0 dx x ∨ WellOutside u T.ny y0 dy y) :
    (T.useNan = true → ((bicubic T).sag (Flt.fin rd x) (Flt.fin rd y)).val = .nan ∧
      ((bicubic T).normal (Flt.fin rd x) (Flt.fin rd y)).z.val = .nan) ∧
    (T.useNan = false → (bicubic T).sag (Flt.fin rd x) (Flt.fin rd y) = Flt.fin rd 0 ∧
      (bicubic T).normal (Flt.fin rd x) (Flt.fin rd y) = (⟨0, 0, 1⟩ : V3 ℝ).flt rd) := by
  have hu0 := h.nonneg
  have hl : u < 1 := by linarith
  have key : ∀ {n : ℕ} {a d w : ℝ}, 0 < d → WellOutside u n a d w → ⌊rd (rd (w - a) / d)⌋ ≥ (n : ℤ) - 1 ∨ ⌊rd (rd (w - a) / d)⌋ < 0 := by
    intro n a d w hd hw
    have r2 := h.after hl ((h.rel hl (w - a)).div hl (Rel.refl d))
    have k := abs_le.1 ((r2.err hu0 hl).close hu0 hl 4 (by norm_num) (by linarith))
    have ew : w - a = (w - a) / d * d := by field_simp
    generalize rd (rd (w - a) / d) = q' at *
    rcases lt_or_ge w a with hlt | hge
    · right
      have qn : (w - a) / d < 0 := div_neg_of_neg_of_pos (by linarith) hd
      rw [abs_of_neg qn] at k
      rw [Int.floor_lt]
      push_cast
      nlinarith [k.2]
    · left
      have q0 : 0 ≤ (w - a) / d := div_nonneg (by linarith) hd.le
      rw [abs_of_nonneg q0] at k
      have hw := hw.resolve_left (not_lt.2 hge)
      have hq : (1 + 5 * u) * ((n : ℝ) - 1) ≤ (w - a) / d := by rw [le_div_iff₀ hd]; exact hw
      show (n : ℤ) - 1 ≤ ⌊q'⌋
      rw [Int.le_floor]
      push_cast
      rcases le_or_gt ((n : ℝ) - 1) 0 with hn | hn
      · nlinarith [k.1]
      · have a1 : (1 - 4 * u) * ((1 + 5 * u) * ((n : ℝ) - 1)) ≤ (1 - 4 * u) * ((w - a) / d) := mul_le_mul_of_nonneg_left hq (by linarith)
        have a2 : 1 ≤ (1 - 4 * u) * (1 + 5 * u) := by nlinarith
        have a3 := mul_le_mul_of_nonneg_right a2 hn.le
        linarith [k.1]
  have e1 : T.x0 = Flt.fin rd x0 := val_fin g.hx0
  have e2 : T.y0 = Flt.fin rd y0 := val_fin g.hy0
  have e3 : T.dx = Flt.fin rd dx := val_fin g.hdx
  have e4 : T.dy = Flt.fin rd dy := val_fin g.hdy
  have hc : T.cell (Flt.fin rd x) (Flt.fin rd y) = none := by
    unfold Table.cell
    rw [e1, e2, e3, e4, Flt.sub_fin, Flt.sub_fin, Flt.div_fin g.dx_pos.ne', Flt.div_fin g.dy_pos.ne']
    have ex : ∀ r : ℝ, Arith.floor (Flt.fin rd r) = ⌊r⌋ := fun r => rfl
    simp only [ex]
    rw [if_pos]
    rcases ho with ho | ho
    · rcases key g.dx_pos ho with k | k
      · exact Or.inl k
      · exact Or.inr (Or.inl k)
    · rcases key g.dy_pos ho with k | k
      · exact Or.inr (Or.inr (Or.inl k))
      · exact Or.inr (Or.inr (Or.inr k))
  constructor
  · intro hn
    constructor
    · show (T.eval _ _).val = _
      unfold Table.eval
      rw [hc]
      simp only [hn, if_true]
      rfl
    · show (bicubicNormal T _ _).z.val = _
      unfold bicubicNormal Table.grad
      rw [hc]
      simp only [hn, if_true]
      rfl
  · intro hn
    constructor
    · show T.eval _ _ = _
      unfold Table.eval
      rw [hc]
      simp only [hn]
      exact flt_zero h
    · show bicubicNormal T _ _ = _
      unfold bicubicNormal Table.grad
      rw [hc]
      have one : (1 : Flt rd) = Flt.fin rd 1 := by rw [flt_one, h1]
      simp only [hn, flt_zero h, one, Bool.false_eq_true, if_false]
      rw [if_neg (by rw [flt_notNaN]; simp)]
      simp only [Flt.mul_fin, Flt.add_fin, Flt.neg_fin, mul_zero, h.zero, add_zero, h1]
      rw [Flt.sqrt_fin zero_le_one, Real.sqrt_one, h1, Flt.div_fin one_ne_zero, div_one, h1, Flt.mul_fin]
      simp [V3.flt, V3.map, h.zero]

end results

/-! ## A concrete table: nine nodes of the plane `z = x + y` -/

noncomputable def nineNodes (b : Bool) : Table (Flt rd53) where
  x0 := Flt.fin rd53 (-1)
  y0 := Flt.fin rd53 (-1)
  dx := Flt.fin rd53 1
  dy := Flt.fin rd53 1
  z := fun k => Flt.fin rd53 (((k % 3 : ℕ) : ℝ) + ((k / 3 : ℕ) : ℝ) - 2)
  dzdx := fun _ => Flt.fin rd53 1
  dzdy := fun _ => Flt.fin rd53 1
  d2zdxdy := fun _ => Flt.fin rd53 0
  nx := 3
  ny := 3
  useNan := b

theorem nineNodes_grid (b : Bool) : Grid (exactTable (nineNodes b)) (-1) (-1) 1 1 (fun i j => (i : ℝ) + j - 2) (fun _ _ => 1) (fun _ _ => 1)
    (fun _ _ => 0) where
  hx0 := rfl
  hy0 := rfl
  hdx := rfl
  hdy := rfl
  dx_pos := one_pos
  dy_pos := one_pos
  hz := by
    intro j hj i hi
    have hi' : i < 3 := hi
    show Dbl.fin ((((3 * j + i) % 3 : ℕ) : ℝ) + (((3 * j + i) / 3 : ℕ) : ℝ) - 2) = _
    rw [show (3 * j + i) % 3 = i by omega, show (3 * j + i) / 3 = j by omega]
  hzx := fun _ _ _ _ => rfl
  hzy := fun _ _ _ _ => rfl
  hzxy := fun _ _ _ _ => rfl

theorem nineNodes_sizes : Sizes 3 3 1 1 (fun i j => (i : ℝ) + j - 2) (fun _ _ => 1) (fun _ _ => 1) (fun _ _ => 0) 2 where
  z := by
    intro i hi j hj
    have h1 : (i : ℝ) ≤ 2 := by exact_mod_cast Nat.lt_succ_iff.1 hi
    have h2 : (j : ℝ) ≤ 2 := by exact_mod_cast Nat.lt_succ_iff.1 hj
    exact abs_le.2 ⟨by linarith [Nat.cast_nonneg (α := ℝ) i, Nat.cast_nonneg (α := ℝ) j], by linarith⟩
  zx := fun _ _ _ _ => by norm_num
  zy := fun _ _ _ _ => by norm_num
  zxy := fun _ _ _ _ => by norm_num

/-- At `(1/2, 1/4)` the height is `3/4`; double precision comes close. -/
example (b : Bool) : SagWithin rd53 (bicubic (nineNodes b)) (1 / 2) (1 / 4) (3 / 4) (1 / 10 ^ 9) := by
  obtain ⟨r, er, kr⟩ := C135_sag (x := 1 / 2) (y := 1 / 4) rd53_rounds (by norm_num) (nineNodes_grid b) nineNodes_sizes
    ⟨by norm_num, by show _ < (1 - 5 * _) * (((3 : ℕ) : ℝ) - 1) * 1; norm_num⟩
    ⟨by norm_num, by show _ < (1 - 5 * _) * (((3 : ℕ) : ℝ) - 1) * 1; norm_num⟩
    (by norm_num [cellsAway]) (by norm_num [cellsAway])
  refine ⟨r, er, ?_⟩
  rw [(nineNodes_grid b).sagR_cell 1 1 (by show 1 + 1 < 3; norm_num) (by show 1 + 1 < 3; norm_num) _ _ ⟨by norm_num, by norm_num⟩
    ⟨by norm_num, by norm_num⟩] at kr
  norm_num [patchV, herm, cellsAway, tableSlack, abs_of_pos] at kr ⊢
  refine kr.trans ?_
  norm_num

example (b : Bool) : NormalWithin rd53 (bicubic (nineNodes b)) (1 / 2) (1 / 4) (upward 1 1) (1 / 10 ^ 8) := by
  have e : SlopeNormal (slopeX (exactTable (nineNodes b)) (1 / 2) (1 / 4)) (slopeY (exactTable (nineNodes b)) (1 / 2) (1 / 4)) (upward 1 1) := by
    rw [(nineNodes_grid b).slopeX_cell 1 1 (by show 1 + 1 < 3; norm_num) (by show 1 + 1 < 3; norm_num) _ _ ⟨by norm_num, by norm_num⟩
      ⟨by norm_num, by norm_num⟩, (nineNodes_grid b).slopeY_cell 1 1 (by show 1 + 1 < 3; norm_num) (by show 1 + 1 < 3; norm_num) _ _
      ⟨by norm_num, by norm_num⟩ ⟨by norm_num, by norm_num⟩]
    norm_num [patchX, patchY, herm, hermG]
    exact upward_slope 1 1
  obtain ⟨n', en, kn⟩ := C135_normal (x := 1 / 2) (y := 1 / 4) rd53_rounds rd53_one (by norm_num) (nineNodes_grid b) nineNodes_sizes
    ⟨by norm_num, by show _ < (1 - 5 * _) * (((3 : ℕ) : ℝ) - 1) * 1; norm_num⟩
    ⟨by norm_num, by show _ < (1 - 5 * _) * (((3 : ℕ) : ℝ) - 1) * 1; norm_num⟩
    (by norm_num [cellsAway]) (by norm_num [cellsAway]) e
  refine ⟨n', en, kn.trans ?_⟩
  norm_num [cellsAway, tableSlack]

example : ((bicubic (nineNodes true)).sag (Flt.fin rd53 2) (Flt.fin rd53 0)).val = .nan :=
  ((C135_outside (x := 2) (y := 0) rd53_rounds rd53_one (by norm_num) (nineNodes_grid true)
    (Or.inl (Or.inr (by show (1 + 5 * _) * (((3 : ℕ) : ℝ) - 1) * 1 ≤ _; norm_num)))).1 rfl).1

end Batoid.Props
