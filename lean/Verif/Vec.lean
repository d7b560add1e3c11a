import Verif.Arith
import Mathlib.Tactic.Ring
import Mathlib.Tactic.LinearCombination
import Mathlib.Tactic.Linarith

/-!
# 3-vectors and 3x3 matrices

`V3`/`M3` stand for numpy arrays of shape `(3,)` and `(3,3)` and for the
component triples used in `src/*.cpp`.  They are generic in the scalar so that
the same definitions serve the code-mirroring model (`Arith F`) and the real
specification (`ℝ`).
-/

namespace Batoid

/-- A 3-vector. -/
@[ext] structure V3 (α : Type) where
  x : α
  y : α
  z : α

namespace V3
variable {α β : Type}

def map (f : α → β) (v : V3 α) : V3 β := ⟨f v.x, f v.y, f v.z⟩

instance [Add α] : Add (V3 α) := ⟨fun a b => ⟨a.x + b.x, a.y + b.y, a.z + b.z⟩⟩
instance [Sub α] : Sub (V3 α) := ⟨fun a b => ⟨a.x - b.x, a.y - b.y, a.z - b.z⟩⟩
instance [Neg α] : Neg (V3 α) := ⟨fun a => ⟨-a.x, -a.y, -a.z⟩⟩

/-- `v * s` (componentwise, as in `vx*dt`). -/
def smulR [Mul α] (v : V3 α) (s : α) : V3 α := ⟨v.x * s, v.y * s, v.z * s⟩
/-- `s * v`. -/
def smul [Mul α] (s : α) (v : V3 α) : V3 α := ⟨s * v.x, s * v.y, s * v.z⟩
/-- Dot product `vx*nx + vy*ny + vz*nz`. -/
def dot [Add α] [Mul α] (a b : V3 α) : α := a.x * b.x + a.y * b.y + a.z * b.z
/-- Cross product. -/
def cross [Sub α] [Mul α] (a b : V3 α) : V3 α :=
  ⟨a.y * b.z - a.z * b.y, a.z * b.x - a.x * b.z, a.x * b.y - a.y * b.x⟩

@[simp] theorem map_x (f : α → β) (v : V3 α) : (v.map f).x = f v.x := rfl
@[simp] theorem map_y (f : α → β) (v : V3 α) : (v.map f).y = f v.y := rfl
@[simp] theorem map_z (f : α → β) (v : V3 α) : (v.map f).z = f v.z := rfl
@[simp] theorem add_x [Add α] (a b : V3 α) : (a + b).x = a.x + b.x := rfl
@[simp] theorem add_y [Add α] (a b : V3 α) : (a + b).y = a.y + b.y := rfl
@[simp] theorem add_z [Add α] (a b : V3 α) : (a + b).z = a.z + b.z := rfl
@[simp] theorem sub_x [Sub α] (a b : V3 α) : (a - b).x = a.x - b.x := rfl
@[simp] theorem sub_y [Sub α] (a b : V3 α) : (a - b).y = a.y - b.y := rfl
@[simp] theorem sub_z [Sub α] (a b : V3 α) : (a - b).z = a.z - b.z := rfl
@[simp] theorem neg_x [Neg α] (a : V3 α) : (-a).x = -a.x := rfl
@[simp] theorem neg_y [Neg α] (a : V3 α) : (-a).y = -a.y := rfl
@[simp] theorem neg_z [Neg α] (a : V3 α) : (-a).z = -a.z := rfl
@[simp] theorem smulR_x [Mul α] (a : V3 α) (s : α) : (a.smulR s).x = a.x * s := rfl
@[simp] theorem smulR_y [Mul α] (a : V3 α) (s : α) : (a.smulR s).y = a.y * s := rfl
@[simp] theorem smulR_z [Mul α] (a : V3 α) (s : α) : (a.smulR s).z = a.z * s := rfl
@[simp] theorem smul_x [Mul α] (a : V3 α) (s : α) : (smul s a).x = s * a.x := rfl
@[simp] theorem smul_y [Mul α] (a : V3 α) (s : α) : (smul s a).y = s * a.y := rfl
@[simp] theorem smul_z [Mul α] (a : V3 α) (s : α) : (smul s a).z = s * a.z := rfl
@[simp] theorem cross_x [Sub α] [Mul α] (a b : V3 α) : (cross a b).x = a.y * b.z - a.z * b.y := rfl
@[simp] theorem cross_y [Sub α] [Mul α] (a b : V3 α) : (cross a b).y = a.z * b.x - a.x * b.z := rfl
@[simp] theorem cross_z [Sub α] [Mul α] (a b : V3 α) : (cross a b).z = a.x * b.y - a.y * b.x := rfl

/-- Squared Euclidean length of a real vector. -/
def normSq (a : V3 ℝ) : ℝ := dot a a

theorem normSq_nonneg (a : V3 ℝ) : 0 ≤ normSq a := by
  unfold normSq dot; nlinarith [sq_nonneg a.x, sq_nonneg a.y, sq_nonneg a.z]

theorem normSq_pos {a : V3 ℝ} (h : a ≠ ⟨0, 0, 0⟩) : 0 < normSq a := by
  rcases lt_or_eq_of_le (normSq_nonneg a) with h1 | h1
  · exact h1
  · exfalso; apply h
    unfold normSq dot at h1
    have hx : a.x = 0 := by nlinarith [sq_nonneg a.x, sq_nonneg a.y, sq_nonneg a.z]
    have hy : a.y = 0 := by nlinarith [sq_nonneg a.x, sq_nonneg a.y, sq_nonneg a.z]
    have hz : a.z = 0 := by nlinarith [sq_nonneg a.x, sq_nonneg a.y, sq_nonneg a.z]
    ext <;> simp [hx, hy, hz]

end V3

/-- A 3x3 matrix, row major: `m11 m12 m13 / m21 ...`.
numpy `rot[i,j]` / C++ `drot[3*i+j]` is `m(i+1)(j+1)`. -/
@[ext] structure M3 (α : Type) where
  m11 : α
  m12 : α
  m13 : α
  m21 : α
  m22 : α
  m23 : α
  m31 : α
  m32 : α
  m33 : α

namespace M3
variable {α β : Type}

def map (f : α → β) (m : M3 α) : M3 β :=
  ⟨f m.m11, f m.m12, f m.m13, f m.m21, f m.m22, f m.m23, f m.m31, f m.m32, f m.m33⟩

/-- numpy `A @ B`. -/
def mul [Add α] [Mul α] (a b : M3 α) : M3 α :=
  ⟨a.m11*b.m11 + a.m12*b.m21 + a.m13*b.m31, a.m11*b.m12 + a.m12*b.m22 + a.m13*b.m32,
   a.m11*b.m13 + a.m12*b.m23 + a.m13*b.m33,
   a.m21*b.m11 + a.m22*b.m21 + a.m23*b.m31, a.m21*b.m12 + a.m22*b.m22 + a.m23*b.m32,
   a.m21*b.m13 + a.m22*b.m23 + a.m23*b.m33,
   a.m31*b.m11 + a.m32*b.m21 + a.m33*b.m31, a.m31*b.m12 + a.m32*b.m22 + a.m33*b.m32,
   a.m31*b.m13 + a.m32*b.m23 + a.m33*b.m33⟩

/-- numpy `A @ v`. -/
def mulVec [Add α] [Mul α] (a : M3 α) (v : V3 α) : V3 α :=
  ⟨a.m11*v.x + a.m12*v.y + a.m13*v.z,
   a.m21*v.x + a.m22*v.y + a.m23*v.z,
   a.m31*v.x + a.m32*v.y + a.m33*v.z⟩

/-- numpy `A.T`. -/
def tr (a : M3 α) : M3 α :=
  ⟨a.m11, a.m21, a.m31, a.m12, a.m22, a.m32, a.m13, a.m23, a.m33⟩

/-- `np.eye(3)` over ℝ. -/
def one : M3 ℝ := ⟨1, 0, 0, 0, 1, 0, 0, 0, 1⟩

/-- Determinant over ℝ. -/
def det (a : M3 ℝ) : ℝ :=
  a.m11 * (a.m22 * a.m33 - a.m23 * a.m32) - a.m12 * (a.m21 * a.m33 - a.m23 * a.m31)
    + a.m13 * (a.m21 * a.m32 - a.m22 * a.m31)

/-- Orthogonality, `A^T A = 1`, spelled out entrywise. -/
structure Orth (a : M3 ℝ) : Prop where
  c11 : a.m11*a.m11 + a.m21*a.m21 + a.m31*a.m31 = 1
  c22 : a.m12*a.m12 + a.m22*a.m22 + a.m32*a.m32 = 1
  c33 : a.m13*a.m13 + a.m23*a.m23 + a.m33*a.m33 = 1
  c12 : a.m11*a.m12 + a.m21*a.m22 + a.m31*a.m32 = 0
  c13 : a.m11*a.m13 + a.m21*a.m23 + a.m31*a.m33 = 0
  c23 : a.m12*a.m13 + a.m22*a.m23 + a.m32*a.m33 = 0

theorem orth_iff (a : M3 ℝ) : Orth a ↔ mul (tr a) a = one := by
  constructor
  · rintro ⟨h1, h2, h3, h4, h5, h6⟩
    ext <;> simp only [mul, tr, one] <;> linarith
  · intro h
    simp only [mul, tr, one, M3.mk.injEq] at h
    obtain ⟨h1, h2, h3, h4, h5, h6, h7, h8, h9⟩ := h
    exact ⟨by linarith, by linarith, by linarith, by linarith, by linarith, by linarith⟩

theorem mul_assoc' (a b c : M3 ℝ) : mul (mul a b) c = mul a (mul b c) := by
  ext <;> simp only [mul] <;> ring
theorem mul_mulVec (a b : M3 ℝ) (v : V3 ℝ) : mulVec (mul a b) v = mulVec a (mulVec b v) := by
  ext <;> simp only [mul, mulVec] <;> ring
theorem one_mul' (a : M3 ℝ) : mul one a = a := by ext <;> simp [mul, one]
theorem mul_one' (a : M3 ℝ) : mul a one = a := by ext <;> simp [mul, one]
theorem one_mulVec (v : V3 ℝ) : mulVec one v = v := by ext <;> simp [mulVec, one]
theorem tr_mul (a b : M3 ℝ) : tr (mul a b) = mul (tr b) (tr a) := by
  ext <;> simp only [mul, tr] <;> ring
@[simp] theorem tr_tr (a : M3 α) : tr (tr a) = a := rfl
theorem mulVec_add (a : M3 ℝ) (u v : V3 ℝ) : mulVec a (u + v) = mulVec a u + mulVec a v := by
  ext <;> simp [mulVec] <;> ring
theorem mulVec_sub (a : M3 ℝ) (u v : V3 ℝ) : mulVec a (u - v) = mulVec a u - mulVec a v := by
  ext <;> simp [mulVec] <;> ring
theorem mulVec_smulR (a : M3 ℝ) (v : V3 ℝ) (s : ℝ) :
    mulVec a (v.smulR s) = (mulVec a v).smulR s := by
  ext <;> simp [mulVec] <;> ring
theorem tr_one : tr one = one := rfl

/-- `det (A B) = det A det B`. -/
theorem det_mul (a b : M3 ℝ) : det (mul a b) = det a * det b := by
  simp only [det, mul]; ring
theorem det_tr (a : M3 ℝ) : det (tr a) = det a := by
  simp only [det, tr]; ring
theorem det_one : det one = 1 := by simp [det, one]

/-- A left inverse is a right inverse: `A A^T = 1` as well. -/
theorem Orth.mul_tr {a : M3 ℝ} (h : Orth a) : mul a (tr a) = one := by
  have hd : det a * det a = 1 := by
    have := congrArg det ((orth_iff a).1 h)
    rw [det_mul, det_tr, det_one] at this; exact this
  -- adjugate: A^T = A^{-1} = adj A / det A
  have key : ∀ (b : M3 ℝ), mul (tr a) b = mul (tr a) one → b = one := by
    intro b hb
    -- multiply by the adjugate of (tr a)
    let adj : M3 ℝ := ⟨a.m22*a.m33 - a.m32*a.m23, a.m31*a.m23 - a.m21*a.m33, a.m21*a.m32 - a.m31*a.m22,
      a.m32*a.m13 - a.m12*a.m33, a.m11*a.m33 - a.m31*a.m13, a.m31*a.m12 - a.m11*a.m32,
      a.m12*a.m23 - a.m22*a.m13, a.m21*a.m13 - a.m11*a.m23, a.m11*a.m22 - a.m21*a.m12⟩
    have hadj : ∀ m : M3 ℝ, mul (tr adj) (mul a m) =
        ⟨det a * m.m11, det a * m.m12, det a * m.m13, det a * m.m21, det a * m.m22, det a * m.m23,
          det a * m.m31, det a * m.m32, det a * m.m33⟩ := by
      intro m; ext <;> simp only [mul, tr, adj, det] <;> ring
    have hadj' : ∀ m : M3 ℝ, mul adj (mul (tr a) m) =
        ⟨det a * m.m11, det a * m.m12, det a * m.m13, det a * m.m21, det a * m.m22, det a * m.m23,
          det a * m.m31, det a * m.m32, det a * m.m33⟩ := by
      intro m; ext <;> simp only [mul, tr, adj, det] <;> ring
    have h1 := congrArg (mul adj) hb
    rw [hadj', hadj'] at h1
    have hne : det a ≠ 0 := by rintro h0; rw [h0] at hd; norm_num at hd
    simp only [M3.mk.injEq, one] at h1
    obtain ⟨e1, e2, e3, e4, e5, e6, e7, e8, e9⟩ := h1
    ext <;> apply mul_left_cancel₀ hne <;> assumption
  apply key
  rw [← mul_assoc', (orth_iff a).1 h, one_mul', mul_one']

theorem Orth.tr {a : M3 ℝ} (h : Orth a) : Orth (tr a) := by
  rw [orth_iff]; exact h.mul_tr
theorem Orth.mul {a b : M3 ℝ} (ha : Orth a) (hb : Orth b) : Orth (mul a b) := by
  rw [orth_iff, tr_mul, mul_assoc', ← mul_assoc' (M3.tr a), (orth_iff a).1 ha, one_mul']
  exact (orth_iff b).1 hb
theorem orth_one : Orth one := by constructor <;> simp [one]

theorem Orth.tr_mulVec {a : M3 ℝ} (h : Orth a) (v : V3 ℝ) :
    mulVec (M3.tr a) (mulVec a v) = v := by
  rw [← mul_mulVec, (orth_iff a).1 h, one_mulVec]
theorem Orth.mulVec_tr {a : M3 ℝ} (h : Orth a) (v : V3 ℝ) :
    mulVec a (mulVec (M3.tr a) v) = v := by
  rw [← mul_mulVec, h.mul_tr, one_mulVec]

/-- Orthogonal matrices preserve dot products. -/
theorem Orth.dot_mulVec {a : M3 ℝ} (h : Orth a) (u v : V3 ℝ) :
    V3.dot (mulVec a u) (mulVec a v) = V3.dot u v := by
  obtain ⟨h1, h2, h3, h4, h5, h6⟩ := h
  simp only [V3.dot, mulVec]
  linear_combination (u.x*v.x)*h1 + (u.y*v.y)*h2 + (u.z*v.z)*h3 + (u.x*v.y+u.y*v.x)*h4
    + (u.x*v.z+u.z*v.x)*h5 + (u.y*v.z+u.z*v.y)*h6

theorem Orth.normSq_mulVec {a : M3 ℝ} (h : Orth a) (u : V3 ℝ) :
    V3.normSq (mulVec a u) = V3.normSq u := h.dot_mulVec u u

end M3

/-- Embedding of real vectors/matrices into the ideal doubles. -/
def V3.fin (v : V3 ℝ) : V3 Dbl := v.map Dbl.fin
def M3.fin (m : M3 ℝ) : M3 Dbl := m.map Dbl.fin

namespace V3
@[simp] theorem fin_x (v : V3 ℝ) : v.fin.x = Dbl.fin v.x := rfl
@[simp] theorem fin_y (v : V3 ℝ) : v.fin.y = Dbl.fin v.y := rfl
@[simp] theorem fin_z (v : V3 ℝ) : v.fin.z = Dbl.fin v.z := rfl
@[simp] theorem fin_mk (x y z : ℝ) : V3.mk (Dbl.fin x) (Dbl.fin y) (Dbl.fin z) = (V3.mk x y z).fin := rfl
@[simp] theorem fin_add (a b : V3 ℝ) : a.fin + b.fin = (a + b).fin := by ext <;> simp
@[simp] theorem fin_sub (a b : V3 ℝ) : a.fin - b.fin = (a - b).fin := by ext <;> simp
@[simp] theorem fin_neg (a : V3 ℝ) : -a.fin = (-a).fin := by ext <;> simp
@[simp] theorem fin_smulR (a : V3 ℝ) (s : ℝ) : a.fin.smulR (Dbl.fin s) = (a.smulR s).fin := by
  ext <;> simp
@[simp] theorem fin_smul (a : V3 ℝ) (s : ℝ) : smul (Dbl.fin s) a.fin = (smul s a).fin := by
  ext <;> simp
@[simp] theorem fin_dot (a b : V3 ℝ) : dot a.fin b.fin = Dbl.fin (dot a b) := by simp [dot]
@[simp] theorem fin_cross (a b : V3 ℝ) : cross a.fin b.fin = (cross a b).fin := by
  ext <;> simp
theorem fin_injective {a b : V3 ℝ} (h : a.fin = b.fin) : a = b := by
  have hx := congrArg V3.x h; have hy := congrArg V3.y h; have hz := congrArg V3.z h
  simp at hx hy hz
  ext <;> assumption
@[simp] theorem fin_inj {a b : V3 ℝ} : a.fin = b.fin ↔ a = b :=
  ⟨fin_injective, fun h => by rw [h]⟩
end V3

namespace M3
@[simp] theorem fin_tr (a : M3 ℝ) : tr a.fin = (tr a).fin := rfl
@[simp] theorem fin_mul (a b : M3 ℝ) : mul a.fin b.fin = (mul a b).fin := by
  ext <;> simp [mul, M3.fin, M3.map]
@[simp] theorem fin_mulVec (a : M3 ℝ) (v : V3 ℝ) : mulVec a.fin v.fin = (mulVec a v).fin := by
  ext <;> simp [mulVec, M3.fin, M3.map]
end M3

end Batoid
