import Verif.Ray

/-!
# Properties C01-C07: coordinate systems, transforms, rays in frames
-/

namespace Batoid.Props
open Batoid

/-! ## Specification vocabulary -/

/-- A proper rotation: orthonormal columns, determinant one. -/
def IsRotation (m : M3 ℝ) : Prop := M3.mul (M3.tr m) m = M3.one ∧ M3.det m = 1

/-- Public operations that derive a frame from a frame. -/
inductive FrameOp where
  | shiftGlobal (dr : V3 ℝ)
  | shiftLocal (dr : V3 ℝ)
  | rotateGlobal (rot : M3 ℝ) (center : V3 ℝ) (cs : Option (CoordSys ℝ))
  | rotateLocal (rot : M3 ℝ) (center : V3 ℝ) (cs : Option (CoordSys ℝ))

/-- The rotation matrices handed to the operation are rotations. -/
def FrameOp.Ok : FrameOp → Prop
  | .rotateGlobal r _ _ => IsRotation r
  | .rotateLocal r _ _ => IsRotation r
  | _ => True

/-- Run one operation. -/
def FrameOp.run (c : CoordSys ℝ) : FrameOp → CoordSys ℝ
  | .shiftGlobal d => c.shiftGlobal d
  | .shiftLocal d => c.shiftLocal d
  | .rotateGlobal r ce cs => c.rotateGlobal r ce cs
  | .rotateLocal r ce cs => c.rotateLocal r ce cs

/-- Run a history. -/
def runHistory (c : CoordSys ℝ) (ops : List FrameOp) : CoordSys ℝ := ops.foldl FrameOp.run c

theorem IsRotation.orth {m : M3 ℝ} (h : IsRotation m) : m.Orth := (M3.orth_iff m).2 h.1

theorem isRotation_mul {a b : M3 ℝ} (ha : IsRotation a) (hb : IsRotation b) : IsRotation (a.mul b) :=
  ⟨(M3.orth_iff _).1 (ha.orth.mul hb.orth), by rw [M3.det_mul, ha.2, hb.2]; norm_num⟩

theorem isRotation_one : IsRotation M3.one := ⟨(M3.orth_iff _).1 M3.orth_one, M3.det_one⟩

theorem isRotation_tr {a : M3 ℝ} (ha : IsRotation a) : IsRotation a.tr :=
  ⟨(M3.orth_iff _).1 ha.orth.tr, by rw [M3.det_tr, ha.2]⟩

theorem run_isRotation {c : CoordSys ℝ} (hc : IsRotation c.rot) {op : FrameOp} (h : op.Ok) :
    IsRotation (op.run c).rot := by
  cases op with
  | shiftGlobal d => exact hc
  | shiftLocal d => exact hc
  | rotateGlobal r ce cs => exact isRotation_mul h hc
  | rotateLocal r ce cs => exact isRotation_mul hc h

theorem runHistory_isRotation {c : CoordSys ℝ} (hc : IsRotation c.rot) {ops : List FrameOp}
    (h : ∀ op ∈ ops, op.Ok) : IsRotation (runHistory c ops).rot := by
  induction ops generalizing c with
  | nil => exact hc
  | cons op ops ih =>
    exact ih (run_isRotation hc (h op (by simp))) (fun o ho => h o (by simp [ho]))

/-! ## C01 -/

/-- C01: after any history of shifts and rotations from the default frame, local and global
coordinates convert back and forth without loss. -/
theorem C01_local_global_roundtrip (ops : List FrameOp) (h : ∀ op ∈ ops, op.Ok) (v : V3 ℝ) :
    let c := runHistory (CoordSys.std ℝ) ops
    c.toLocal (c.toGlobal v) = v ∧ c.toGlobal (c.toLocal v) = v := by
  have hc : IsRotation (CoordSys.std ℝ).rot := isRotation_one
  have := (runHistory_isRotation hc h).orth
  exact ⟨CoordSys.toLocal_toGlobal this v, CoordSys.toGlobal_toLocal this v⟩

/-! ## C02 -/

theorem rotX_isRotation (t : ℝ) : IsRotation (RotX t) := by
  have := Real.sin_sq_add_cos_sq t
  constructor
  · rw [← M3.orth_iff]; constructor <;> simp [RotX] <;> nlinarith
  · simp [RotX, M3.det]; nlinarith
theorem rotY_isRotation (t : ℝ) : IsRotation (RotY t) := by
  have := Real.sin_sq_add_cos_sq t
  constructor
  · rw [← M3.orth_iff]; constructor <;> simp [RotY] <;> nlinarith
  · simp [RotY, M3.det]; nlinarith
theorem rotZ_isRotation (t : ℝ) : IsRotation (RotZ t) := by
  have := Real.sin_sq_add_cos_sq t
  constructor
  · rw [← M3.orth_iff]; constructor <;> simp [RotZ] <;> nlinarith
  · simp [RotZ, M3.det]; nlinarith

/-- Columns of a rotation are a right-handed orthonormal basis. -/
theorem columns_right_handed {m : M3 ℝ} (h : IsRotation m) (o : V3 ℝ) :
    let c : CoordSys ℝ := ⟨o, m⟩
    V3.dot c.xhat c.xhat = 1 ∧ V3.dot c.yhat c.yhat = 1 ∧ V3.dot c.zhat c.zhat = 1 ∧
    V3.dot c.xhat c.yhat = 0 ∧ V3.dot c.xhat c.zhat = 0 ∧ V3.dot c.yhat c.zhat = 0 ∧
    V3.cross c.xhat c.yhat = c.zhat ∧ V3.cross c.yhat c.zhat = c.xhat ∧
    V3.cross c.zhat c.xhat = c.yhat := by
  obtain ⟨h11, h22, h33, h12, h13, h23⟩ := h.orth
  obtain ⟨r11, r22, r33, r12, r13, r23⟩ := h.orth.tr
  have hd := h.2
  simp only [M3.det, M3.tr] at *
  refine ⟨h11, h22, h33, h12, h13, h23, ?_, ?_, ?_⟩
  · ext <;> simp only [V3.cross, CoordSys.xhat, CoordSys.yhat, CoordSys.zhat]
    · linear_combination (m.m13) * hd - (m.m21*m.m32 - m.m31*m.m22) * r11
        - (m.m12*m.m31 - m.m11*m.m32) * r12 - (m.m11*m.m22 - m.m12*m.m21) * r13
    · linear_combination (m.m23) * hd - (m.m12*m.m31 - m.m11*m.m32) * r22
        - (m.m21*m.m32 - m.m31*m.m22) * r12 - (m.m11*m.m22 - m.m12*m.m21) * r23
    · linear_combination (m.m33) * hd - (m.m11*m.m22 - m.m12*m.m21) * r33
        - (m.m21*m.m32 - m.m31*m.m22) * r13 - (m.m12*m.m31 - m.m11*m.m32) * r23
  · ext <;> simp only [V3.cross, CoordSys.xhat, CoordSys.yhat, CoordSys.zhat]
    · linear_combination (m.m11) * hd - (m.m22*m.m33 - m.m32*m.m23) * r11
        - (m.m32*m.m13 - m.m12*m.m33) * r12 - (m.m12*m.m23 - m.m22*m.m13) * r13
    · linear_combination (m.m21) * hd - (m.m32*m.m13 - m.m12*m.m33) * r22
        - (m.m22*m.m33 - m.m32*m.m23) * r12 - (m.m12*m.m23 - m.m22*m.m13) * r23
    · linear_combination (m.m31) * hd - (m.m12*m.m23 - m.m22*m.m13) * r33
        - (m.m22*m.m33 - m.m32*m.m23) * r13 - (m.m32*m.m13 - m.m12*m.m33) * r23
  · ext <;> simp only [V3.cross, CoordSys.xhat, CoordSys.yhat, CoordSys.zhat]
    · linear_combination (m.m12) * hd - (m.m23*m.m31 - m.m33*m.m21) * r11
        - (m.m33*m.m11 - m.m13*m.m31) * r12 - (m.m13*m.m21 - m.m23*m.m11) * r13
    · linear_combination (m.m22) * hd - (m.m33*m.m11 - m.m13*m.m31) * r22
        - (m.m23*m.m31 - m.m33*m.m21) * r12 - (m.m13*m.m21 - m.m23*m.m11) * r23
    · linear_combination (m.m32) * hd - (m.m13*m.m21 - m.m23*m.m11) * r33
        - (m.m23*m.m31 - m.m33*m.m21) * r13 - (m.m33*m.m11 - m.m13*m.m31) * r23

/-- C02: every frame reachable from the default frame has an orthonormal rotation matrix of
determinant one, and its `xhat, yhat, zhat` are a right-handed orthonormal basis. -/
theorem C02_frames_stay_rotations (ops : List FrameOp) (h : ∀ op ∈ ops, op.Ok) :
    let c := runHistory (CoordSys.std ℝ) ops
    M3.mul c.rot.tr c.rot = M3.one ∧ M3.mul c.rot c.rot.tr = M3.one ∧ M3.det c.rot = 1 ∧
    V3.dot c.xhat c.xhat = 1 ∧ V3.dot c.yhat c.yhat = 1 ∧ V3.dot c.zhat c.zhat = 1 ∧
    V3.dot c.xhat c.yhat = 0 ∧ V3.dot c.xhat c.zhat = 0 ∧ V3.dot c.yhat c.zhat = 0 ∧
    V3.cross c.xhat c.yhat = c.zhat ∧ V3.cross c.yhat c.zhat = c.xhat ∧
    V3.cross c.zhat c.xhat = c.yhat := by
  intro c
  have hc : IsRotation c.rot := runHistory_isRotation (c := CoordSys.std ℝ) isRotation_one h
  exact ⟨hc.1, hc.orth.mul_tr, hc.2, columns_right_handed hc c.origin⟩

/-- C02: the angle constructors give rotations, about the named axis, right-handed, and angles add. -/
theorem C02_angle_constructors (s t : ℝ) :
    (IsRotation (RotX t) ∧ IsRotation (RotY t) ∧ IsRotation (RotZ t)) ∧
    ((RotX s).mul (RotX t) = RotX (s + t) ∧ (RotY s).mul (RotY t) = RotY (s + t) ∧
      (RotZ s).mul (RotZ t) = RotZ (s + t)) ∧
    ((RotX t).mulVec ⟨1, 0, 0⟩ = ⟨1, 0, 0⟩ ∧ (RotX t).mulVec ⟨0, 1, 0⟩ = ⟨0, Real.cos t, Real.sin t⟩) ∧
    ((RotY t).mulVec ⟨0, 1, 0⟩ = ⟨0, 1, 0⟩ ∧ (RotY t).mulVec ⟨0, 0, 1⟩ = ⟨Real.sin t, 0, Real.cos t⟩) ∧
    ((RotZ t).mulVec ⟨0, 0, 1⟩ = ⟨0, 0, 1⟩ ∧ (RotZ t).mulVec ⟨1, 0, 0⟩ = ⟨Real.cos t, Real.sin t, 0⟩) := by
  refine ⟨⟨rotX_isRotation t, rotY_isRotation t, rotZ_isRotation t⟩, ⟨?_, ?_, ?_⟩, ⟨?_, ?_⟩, ⟨?_, ?_⟩, ?_, ?_⟩
  all_goals (ext <;> simp [RotX, RotY, RotZ, M3.mul, M3.mulVec, Real.cos_add, Real.sin_add] <;> try ring)

/-- Histories satisfying the hypotheses exist and do something. -/
example : ∃ ops : List FrameOp, (∀ op ∈ ops, op.Ok) ∧
    (runHistory (CoordSys.std ℝ) ops).rot ≠ M3.one ∧
    (runHistory (CoordSys.std ℝ) ops).origin ≠ ⟨0, 0, 0⟩ := by
  refine ⟨[.shiftGlobal ⟨1, 2, 3⟩, .rotateLocal (RotX Real.pi) ⟨0, 0, 1⟩ none, .shiftLocal ⟨0, 0, 1⟩], ?_, ?_, ?_⟩
  · intro op hop
    simp only [List.mem_cons, List.not_mem_nil, or_false] at hop
    rcases hop with rfl | rfl | rfl <;> simp [FrameOp.Ok, rotX_isRotation]
  · intro h
    have := congrArg M3.m22 h
    simp [runHistory, FrameOp.run, CoordSys.shiftGlobal, CoordSys.shiftLocal, CoordSys.rotateLocal,
      CoordSys.std, RotX, M3.mul, M3.one] at this
    norm_num at this
  · intro h
    have := congrArg V3.x h
    simp [runHistory, FrameOp.run, CoordSys.shiftGlobal, CoordSys.shiftLocal, CoordSys.rotateLocal,
      CoordSys.toGlobal, CoordSys.std, RotX, M3.mul, M3.mulVec, M3.tr] at this

/-! ## C03 -/

/-- C03: global shifts add up, carry every attached point by the shift, and cancel. -/
theorem C03_shiftGlobal (c : CoordSys ℝ) (a b p : V3 ℝ) :
    (c.shiftGlobal a).shiftGlobal b = c.shiftGlobal (a + b) ∧
    (c.shiftGlobal a).toGlobal p = c.toGlobal p + a ∧
    (c.shiftGlobal a).rot = c.rot ∧
    (c.shiftGlobal a).shiftGlobal (-a) = c := by
  refine ⟨?_, ?_, rfl, ?_⟩ <;> ext <;> simp [CoordSys.shiftGlobal, CoordSys.toGlobal] <;> ring

/-- C03: a local shift moves the origin to the point with the given local coordinates, keeps the
axes, carries attached points along the local axes, composes additively and cancels. -/
theorem C03_shiftLocal (c : CoordSys ℝ) (a b p : V3 ℝ) :
    (c.shiftLocal a).origin = c.toGlobal a ∧
    (c.shiftLocal a).rot = c.rot ∧
    (c.shiftLocal a).toGlobal p = c.toGlobal (p + a) ∧
    (c.shiftLocal a).shiftLocal b = c.shiftLocal (a + b) ∧
    (c.shiftLocal a).shiftLocal (-a) = c := by
  refine ⟨?_, rfl, ?_, ?_, ?_⟩ <;> ext <;>
    simp [CoordSys.shiftGlobal, CoordSys.shiftLocal, CoordSys.toGlobal, M3.mulVec] <;> ring

/-- C03: for an orthonormal frame the new origin is the point whose old local coordinates are the
shift. -/
theorem C03_shiftLocal_origin {c : CoordSys ℝ} (h : IsRotation c.rot) (a : V3 ℝ) :
    c.toLocal (c.shiftLocal a).origin = a := by
  rw [(C03_shiftLocal c a a a).1, CoordSys.toLocal_toGlobal h.orth]

example : ∃ (c : CoordSys ℝ) (a : V3 ℝ), IsRotation c.rot ∧ c.shiftLocal a ≠ c.shiftGlobal a :=
  ⟨⟨⟨0, 0, 0⟩, RotX Real.pi⟩, ⟨0, 0, 1⟩, rotX_isRotation _, by
    intro h
    have := congrArg (fun c => c.origin.z) h
    simp [CoordSys.shiftLocal, CoordSys.shiftGlobal, M3.mulVec, RotX] at this
    norm_num at this⟩

/-! ## C04 -/

/-- The rigid motion `p ↦ R (p - g) + g`: rotation by `R` about the fixed point `g`. -/
def rotateAbout (R : M3 ℝ) (g p : V3 ℝ) : V3 ℝ := R.mulVec (p - g) + g

/-- Global position of a rotation centre given as coordinates in `cs`, or by `dflt` without `cs`. -/
def centreAt (cs : Option (CoordSys ℝ)) (ctr dflt : V3 ℝ) : V3 ℝ :=
  match cs with
  | some s => s.toGlobal ctr
  | none => dflt

/-- Squared distance. -/
def dist2 (p q : V3 ℝ) : ℝ := V3.normSq (p - q)

theorem rotateAbout_isometry {R : M3 ℝ} (h : IsRotation R) (g p q : V3 ℝ) :
    dist2 (rotateAbout R g p) (rotateAbout R g q) = dist2 p q := by
  have : rotateAbout R g p - rotateAbout R g q = R.mulVec (p - q) := by
    ext <;> simp [rotateAbout, M3.mulVec] <;> ring
  rw [dist2, this, h.orth.normSq_mulVec, dist2]

theorem rotateAbout_fixed (R : M3 ℝ) (g : V3 ℝ) : rotateAbout R g g = g := by
  ext <;> simp [rotateAbout, M3.mulVec]

/-- C04: `rotateGlobal` moves every attached point by the rotation about the global position of the
centre, given in `cs` (default: global coordinates). -/
theorem C04_rotateGlobal_moves (c : CoordSys ℝ) (R : M3 ℝ) (ctr p : V3 ℝ) (cs : Option (CoordSys ℝ)) :
    let g := centreAt cs ctr ctr
    (c.rotateGlobal R ctr cs).toGlobal p = rotateAbout R g (c.toGlobal p) := by
  have key : ∀ g : V3 ℝ, (⟨R.mulVec (c.origin - g) + g, R.mul c.rot⟩ : CoordSys ℝ).toGlobal p
      = rotateAbout R g (c.toGlobal p) := by
    intro g
    simp only [CoordSys.toGlobal, rotateAbout, M3.mul_mulVec]
    ext <;> simp [M3.mulVec] <;> ring
  cases cs with
  | none =>
    have : (CoordSys.std ℝ).toGlobal ctr = ctr := by
      ext <;> simp [CoordSys.std, CoordSys.toGlobal, M3.mulVec]
    simpa [CoordSys.rotateGlobal, CoordSys.rotateGlobalIn, this, centreAt] using key ctr
  | some s => simpa [CoordSys.rotateGlobal, CoordSys.rotateGlobalIn, centreAt] using key (s.toGlobal ctr)

/-- C04: `rotateLocal` does the same with the rotation expressed in the frame's own axes. -/
theorem C04_rotateLocal_moves {c : CoordSys ℝ} (hc : IsRotation c.rot) (R : M3 ℝ) (ctr p : V3 ℝ)
    (cs : Option (CoordSys ℝ)) :
    let g := centreAt cs ctr (c.toGlobal ctr)
    (c.rotateLocal R ctr cs).toGlobal p
      = rotateAbout ((c.rot.mul R).mul c.rot.tr) g (c.toGlobal p) := by
  have key : ∀ g : V3 ℝ,
      (⟨((c.rot.mul R).mul c.rot.tr).mulVec (c.origin - g) + g, c.rot.mul R⟩ : CoordSys ℝ).toGlobal p
      = rotateAbout ((c.rot.mul R).mul c.rot.tr) g (c.toGlobal p) := by
    intro g
    have h1 : (c.rot.mul R).mulVec p = ((c.rot.mul R).mul c.rot.tr).mulVec (c.rot.mulVec p) := by
      rw [M3.mul_mulVec _ c.rot.tr, hc.orth.tr_mulVec]
    simp only [CoordSys.toGlobal, rotateAbout, h1]
    ext <;> simp [M3.mulVec] <;> ring
  cases cs with
  | none => simpa [CoordSys.rotateLocal, centreAt] using key (c.toGlobal ctr)
  | some s => simpa [CoordSys.rotateLocal, centreAt] using key (s.toGlobal ctr)

theorem rotateGlobal_isRotation {c : CoordSys ℝ} (hc : IsRotation c.rot) {R : M3 ℝ} (hR : IsRotation R)
    (ctr : V3 ℝ) (cs : Option (CoordSys ℝ)) : IsRotation (c.rotateGlobal R ctr cs).rot :=
  isRotation_mul hR hc
theorem rotateLocal_isRotation {c : CoordSys ℝ} (hc : IsRotation c.rot) {R : M3 ℝ} (hR : IsRotation R)
    (ctr : V3 ℝ) (cs : Option (CoordSys ℝ)) : IsRotation (c.rotateLocal R ctr cs).rot :=
  isRotation_mul hc hR

/-- C04: distances between attached points are preserved by either rotation. -/
theorem C04_rotations_rigid {c : CoordSys ℝ} (hc : IsRotation c.rot) {R : M3 ℝ} (hR : IsRotation R)
    (ctr p q : V3 ℝ) (cs : Option (CoordSys ℝ)) :
    dist2 ((c.rotateGlobal R ctr cs).toGlobal p) ((c.rotateGlobal R ctr cs).toGlobal q)
      = dist2 (c.toGlobal p) (c.toGlobal q) ∧
    dist2 ((c.rotateLocal R ctr cs).toGlobal p) ((c.rotateLocal R ctr cs).toGlobal q)
      = dist2 (c.toGlobal p) (c.toGlobal q) := by
  have hl : IsRotation ((c.rot.mul R).mul c.rot.tr) := isRotation_mul (isRotation_mul hc hR) (isRotation_tr hc)
  constructor
  · have h1 := C04_rotateGlobal_moves c R ctr p cs
    have h2 := C04_rotateGlobal_moves c R ctr q cs
    simp only at h1 h2
    rw [h1, h2, rotateAbout_isometry hR]
  · have h1 := C04_rotateLocal_moves hc R ctr p cs
    have h2 := C04_rotateLocal_moves hc R ctr q cs
    simp only at h1 h2
    rw [h1, h2, rotateAbout_isometry hl]

/-- C04: the centre keeps its place and its coordinates in the rotated frame. -/
theorem C04_centre_fixed {c : CoordSys ℝ} (hc : IsRotation c.rot) {R : M3 ℝ} (hR : IsRotation R)
    (ctr : V3 ℝ) (cs : Option (CoordSys ℝ)) :
    let g := centreAt cs ctr ctr
    let gl := centreAt cs ctr (c.toGlobal ctr)
    (c.rotateGlobal R ctr cs).toLocal g = c.toLocal g ∧
    (c.rotateLocal R ctr cs).toLocal gl = c.toLocal gl := by
  intro g gl
  constructor
  · have h := C04_rotateGlobal_moves c R ctr (c.toLocal g) cs
    have hg : (centreAt cs ctr ctr) = g := rfl
    simp only [hg] at h
    rw [CoordSys.toGlobal_toLocal hc.orth, rotateAbout_fixed] at h
    have := congrArg (c.rotateGlobal R ctr cs).toLocal h
    rw [CoordSys.toLocal_toGlobal (rotateGlobal_isRotation hc hR ctr cs).orth] at this
    exact this.symm
  · have h := C04_rotateLocal_moves hc R ctr (c.toLocal gl) cs
    have hg : (centreAt cs ctr (c.toGlobal ctr)) = gl := rfl
    simp only [hg] at h
    rw [CoordSys.toGlobal_toLocal hc.orth, rotateAbout_fixed] at h
    have := congrArg (c.rotateLocal R ctr cs).toLocal h
    rw [CoordSys.toLocal_toGlobal (rotateLocal_isRotation hc hR ctr cs).orth] at this
    exact this.symm

/-- Two frames with the same attached points are the same frame. -/
theorem frame_ext_of_toGlobal {a b : CoordSys ℝ} (h : ∀ p, a.toGlobal p = b.toGlobal p) : a = b := by
  have h0 := h ⟨0, 0, 0⟩
  have hx := h ⟨1, 0, 0⟩
  have hy := h ⟨0, 1, 0⟩
  have hz := h ⟨0, 0, 1⟩
  simp only [CoordSys.toGlobal, V3.ext_iff, V3.add_x, V3.add_y, V3.add_z, M3.mulVec, mul_one, mul_zero,
    add_zero, zero_add] at h0 hx hy hz
  obtain ⟨a1, a2, a3⟩ := h0
  obtain ⟨b1, b2, b3⟩ := hx
  obtain ⟨c1, c2, c3⟩ := hy
  obtain ⟨d1, d2, d3⟩ := hz
  ext <;> linarith

theorem rotateAbout_tr {R : M3 ℝ} (h : IsRotation R) (g p : V3 ℝ) :
    rotateAbout R.tr g (rotateAbout R g p) = p := by
  have : rotateAbout R g p - g = R.mulVec (p - g) := by ext <;> simp [rotateAbout]
  rw [rotateAbout, this, h.orth.tr_mulVec]; ext <;> simp

/-- C04: rotating by `R` and then by its transpose about the same centre restores the frame. -/
theorem C04_rotate_back {c : CoordSys ℝ} (hc : IsRotation c.rot) {R : M3 ℝ} (hR : IsRotation R)
    (ctr : V3 ℝ) (cs : Option (CoordSys ℝ)) :
    (c.rotateGlobal R ctr cs).rotateGlobal R.tr ctr cs = c ∧
    (c.rotateLocal R ctr cs).rotateLocal R.tr ctr cs = c := by
  constructor
  · apply frame_ext_of_toGlobal
    intro p
    have h1 := C04_rotateGlobal_moves (c.rotateGlobal R ctr cs) R.tr ctr p cs
    have h2 := C04_rotateGlobal_moves c R ctr p cs
    simp only at h1 h2
    rw [h1, h2, rotateAbout_tr hR]
  · apply frame_ext_of_toGlobal
    intro p
    have hn := rotateLocal_isRotation hc hR ctr cs
    have h1 := C04_rotateLocal_moves hn R.tr ctr p cs
    have h2 := C04_rotateLocal_moves hc R ctr p cs
    have hrot : (((c.rotateLocal R ctr cs).rot.mul R.tr).mul (c.rotateLocal R ctr cs).rot.tr)
        = ((c.rot.mul R).mul c.rot.tr).tr := by
      show (((c.rot.mul R).mul R.tr).mul (c.rot.mul R).tr) = _
      rw [M3.mul_assoc' c.rot R R.tr, hR.orth.mul_tr, M3.mul_one', M3.tr_mul _ c.rot.tr, M3.tr_tr]
    have hgg : (centreAt cs ctr ((c.rotateLocal R ctr cs).toGlobal ctr))
        = (centreAt cs ctr (c.toGlobal ctr)) := by
      cases cs with
      | some s => rfl
      | none =>
        have := C04_rotateLocal_moves hc R ctr ctr none
        simp only [centreAt] at this ⊢
        rw [this, rotateAbout_fixed]
    have hl : IsRotation ((c.rot.mul R).mul c.rot.tr) :=
      isRotation_mul (isRotation_mul hc hR) (isRotation_tr hc)
    simp only at h1 h2
    rw [h1, hrot, hgg, h2, rotateAbout_tr hl]

/-- C04: with the default centre `rotateLocal` leaves the origin in place. -/
theorem C04_rotateLocal_default_origin (c : CoordSys ℝ) (R : M3 ℝ) :
    (c.rotateLocal R ⟨0, 0, 0⟩ none).origin = c.origin := by
  ext <;> simp [CoordSys.rotateLocal, CoordSys.toGlobal, M3.mulVec]

/-- The rotations of C04 are not trivial: a quarter turn about x moves the point attached at y. -/
example : IsRotation (RotX (Real.pi / 2)) ∧
    ((CoordSys.std ℝ).rotateGlobal (RotX (Real.pi / 2)) ⟨0, 0, 1⟩ none).toGlobal ⟨0, 1, 1⟩ = ⟨0, 0, 2⟩ := by
  refine ⟨rotX_isRotation _, ?_⟩
  rw [C04_rotateGlobal_moves]
  ext <;> simp [rotateAbout, centreAt, CoordSys.std, CoordSys.toGlobal, M3.mulVec, RotX]
  norm_num

/-! ## C05 -/

/-- C05: forward is "to global, then to local of the target"; reverse is its two-sided inverse. -/
theorem C05_forward_reverse {a b : CoordSys ℝ} (ha : IsRotation a.rot) (hb : IsRotation b.rot) (r : V3 ℝ) :
    (CoordTransform.make a b).forward r = b.toLocal (a.toGlobal r) ∧
    (CoordTransform.make a b).reverse ((CoordTransform.make a b).forward r) = r ∧
    (CoordTransform.make a b).forward ((CoordTransform.make a b).reverse r) = r ∧
    (CoordTransform.make a b).reverse r = (CoordTransform.make b a).forward r := by
  refine ⟨CoordSys.forward_eq ha.orth r, ?_, ?_, ?_⟩
  · rw [CoordSys.reverse_eq, CoordSys.forward_eq ha.orth, CoordSys.toGlobal_toLocal hb.orth,
      CoordSys.toLocal_toGlobal ha.orth]
  · rw [CoordSys.reverse_eq, CoordSys.forward_eq ha.orth, CoordSys.toGlobal_toLocal ha.orth,
      CoordSys.toLocal_toGlobal hb.orth]
  · rw [CoordSys.reverse_eq, CoordSys.forward_eq hb.orth]

/-- C05: going through an intermediate frame changes nothing, for positions and velocities. -/
theorem C05_path_independent {a b c : CoordSys ℝ} (ha : IsRotation a.rot) (hb : IsRotation b.rot)
    (r v : V3 ℝ) :
    (CoordTransform.make b c).forward ((CoordTransform.make a b).forward r)
      = (CoordTransform.make a c).forward r ∧
    (CoordTransform.make b c).forwardVel ((CoordTransform.make a b).forwardVel v)
      = (CoordTransform.make a c).forwardVel v := by
  constructor
  · rw [CoordSys.forward_eq hb.orth, CoordSys.forward_eq ha.orth, CoordSys.forward_eq ha.orth,
      CoordSys.toGlobal_toLocal hb.orth]
  · rw [CoordSys.forwardVel_eq, CoordSys.forwardVel_eq, CoordSys.forwardVel_eq, hb.orth.mulVec_tr]

/-- C05: velocities too.  Forward is "to global axes, then to the axes of the target", and the way back undoes it. -/
theorem C05_velocity {a b : CoordSys ℝ} (ha : IsRotation a.rot) (hb : IsRotation b.rot) (v : V3 ℝ) :
    (CoordTransform.make a b).forwardVel v = b.rot.tr.mulVec (a.rot.mulVec v) ∧
    (CoordTransform.make a b).reverseVel v = a.rot.tr.mulVec (b.rot.mulVec v) ∧
    (CoordTransform.make a b).reverseVel ((CoordTransform.make a b).forwardVel v) = v ∧
    (CoordTransform.make a b).forwardVel ((CoordTransform.make a b).reverseVel v) = v ∧
    (CoordTransform.make a b).reverseVel v = (CoordTransform.make b a).forwardVel v := by
  have e : ∀ v, (CoordTransform.make a b).reverseVel v = a.rot.tr.mulVec (b.rot.mulVec v) := by
    intro v
    ext <;> simp [CoordTransform.reverseVel, CoordTransform.make, M3.mulVec, M3.mul, M3.tr] <;> ring
  refine ⟨CoordSys.forwardVel_eq .., e v, ?_, ?_, ?_⟩
  · rw [e, CoordSys.forwardVel_eq, hb.orth.mulVec_tr, ha.orth.tr_mulVec]
  · rw [CoordSys.forwardVel_eq, e, ha.orth.mulVec_tr, hb.orth.tr_mulVec]
  · rw [e, CoordSys.forwardVel_eq]

/-- C05: any chain of frames gives the direct transform. -/
theorem C05_chain (cs : List (CoordSys ℝ)) :
    ∀ (a b : CoordSys ℝ), IsRotation a.rot → (∀ c ∈ cs, IsRotation c.rot) → ∀ r : V3 ℝ,
    (CoordTransform.make ((cs.getLast?).getD a) b).forward
      ((cs.foldl (fun (p : CoordSys ℝ × V3 ℝ) c => (c, (CoordTransform.make p.1 c).forward p.2)) (a, r)).2)
      = (CoordTransform.make a b).forward r := by
  induction cs with
  | nil => intro a b _ _ r; simp
  | cons c cs ih =>
    intro a b ha hcs r
    have hc := hcs c (by simp)
    have h := ih c b hc (fun d hd => hcs d (by simp [hd])) ((CoordTransform.make a c).forward r)
    have hl : ((c :: cs).getLast?).getD a = (cs.getLast?).getD c := by
      cases cs with
      | nil => simp
      | cons d ds => simp [List.getLast?_cons]
    rw [hl, List.foldl_cons, h, (C05_path_independent ha hc r r).1]

example : ∃ a b : CoordSys ℝ, IsRotation a.rot ∧ IsRotation b.rot ∧
    (CoordTransform.make a b).forward ⟨0, 1, 0⟩ ≠ ⟨0, 1, 0⟩ :=
  ⟨CoordSys.std ℝ, ⟨⟨0, 0, 1⟩, RotX Real.pi⟩, isRotation_one, rotX_isRotation _, by
    intro h
    have := congrArg V3.y h
    simp [CoordTransform.forward, CoordTransform.make, CoordSys.std, RotX, M3.mulVec, M3.mul, M3.tr] at this
    norm_num at this⟩

/-! ## C06 -/

/-- C06: transforms are isometries on positions and velocities, in both directions. -/
theorem C06_isometry {a b : CoordSys ℝ} (ha : IsRotation a.rot) (hb : IsRotation b.rot) (p q u v : V3 ℝ) :
    let ct := CoordTransform.make a b
    dist2 (ct.forward p) (ct.forward q) = dist2 p q ∧
    V3.dot (ct.forwardVel u) (ct.forwardVel v) = V3.dot u v ∧
    dist2 (ct.reverse p) (ct.reverse q) = dist2 p q ∧
    V3.dot (ct.reverseVel u) (ct.reverseVel v) = V3.dot u v ∧
    ct.forward (p + u) - ct.forward p = ct.forwardVel u ∧
    ct.reverse (p + u) - ct.reverse p = ct.reverseVel u := by
  have hd : (CoordTransform.make a b).drot.Orth := (ha.orth.tr).mul hb.orth
  refine ⟨?_, hd.tr.dot_mulVec u v, ?_, hd.dot_mulVec u v, ?_, ?_⟩
  · have : (CoordTransform.make a b).forward p - (CoordTransform.make a b).forward q
        = (CoordTransform.make a b).drot.tr.mulVec (p - q) := by
      ext <;> simp [CoordTransform.forward, M3.mulVec] <;> ring
    rw [dist2, this, hd.tr.normSq_mulVec, dist2]
  · have : (CoordTransform.make a b).reverse p - (CoordTransform.make a b).reverse q
        = (CoordTransform.make a b).drot.mulVec (p - q) := by
      ext <;> simp [CoordTransform.reverse, M3.mulVec] <;> ring
    rw [dist2, this, hd.normSq_mulVec, dist2]
  · ext <;> simp [CoordTransform.forward, CoordTransform.forwardVel, M3.mulVec] <;> ring
  · ext <;> simp [CoordTransform.reverse, CoordTransform.reverseVel, M3.mulVec] <;> ring

/-- C06: in any arithmetic, the ray transforms change only position and velocity, and the position is
what the array transform gives; velocities are turned without being shifted. -/
theorem C06_only_position_velocity {F : Type} [Arith F] (ct : CoordTransform F) (ray : Ray F) :
    let f := ray.forward ct
    let b := ray.reverse ct
    f.r = ct.forward ray.r ∧ b.r = ct.reverse ray.r ∧
    f.v = ct.drot.tr.mulVec ray.v ∧ b.v = ct.drot.mulVec ray.v ∧
    (f.t, f.wavelength, f.flux, f.vignetted, f.failed)
      = (ray.t, ray.wavelength, ray.flux, ray.vignetted, ray.failed) ∧
    (b.t, b.wavelength, b.flux, b.vignetted, b.failed)
      = (ray.t, ray.wavelength, ray.flux, ray.vignetted, ray.failed) := by
  simp [Ray.forward, Ray.reverse, CoordTransform.forwardVel, CoordTransform.reverseVel]

/-! ## C07 -/

/-- The physical content of a stored ray: global position, global velocity, and the scalar data. -/
noncomputable def physical (cs : CoordSys Dbl) (ray : Ray Dbl) :
    V3 Dbl × V3 Dbl × Dbl × Dbl × Dbl × Bool × Bool :=
  (cs.toGlobal ray.r, cs.rot.mulVec ray.v, ray.t, ray.wavelength, ray.flux, ray.vignetted, ray.failed)

/-- Position and velocity are finite. -/
def FinitePV (ray : Ray Dbl) : Prop := ∃ r v : V3 ℝ, ray.r = r.fin ∧ ray.v = v.fin

theorem toCoordSys_step {a b : CoordSys ℝ} (ha : IsRotation a.rot) (hb : IsRotation b.rot) {ray : Ray Dbl}
    (h : FinitePV ray) :
    FinitePV (ray.forward (CoordTransform.make a.fin b.fin)) ∧
    physical b.fin (ray.forward (CoordTransform.make a.fin b.fin)) = physical a.fin ray := by
  obtain ⟨r, v, hr, hv⟩ := h
  have h1 : (ray.forward (CoordTransform.make a.fin b.fin)).r = ((CoordTransform.make a b).forward r).fin := by
    simp only [Ray.forward, hr, CoordTransform.forward_fin]
  have h2 : (ray.forward (CoordTransform.make a.fin b.fin)).v = ((CoordTransform.make a b).forwardVel v).fin := by
    simp only [Ray.forward, hv, CoordTransform.forwardVel_fin]
  refine ⟨⟨_, _, h1, h2⟩, ?_⟩
  have e1 : b.fin.toGlobal ((CoordTransform.make a b).forward r).fin = a.fin.toGlobal r.fin := by
    have := congrArg V3.fin (CoordSys.toGlobal_toLocal hb.orth (a.toGlobal r))
    rw [← CoordSys.forward_eq ha.orth] at this
    simpa [CoordSys.toGlobal, CoordSys.fin] using this
  have e2 : b.fin.rot.mulVec ((CoordTransform.make a b).forwardVel v).fin = a.fin.rot.mulVec v.fin := by
    have : b.rot.mulVec ((CoordTransform.make a b).forwardVel v) = a.rot.mulVec v := by
      rw [CoordSys.forwardVel_eq, hb.orth.mulVec_tr]
    simp [CoordSys.fin, this]
  simp only [physical, h1, h2, e1, e2, hr, hv]
  rfl

theorem applyReverse_step {a b : CoordSys ℝ} (ha : IsRotation a.rot) (hb : IsRotation b.rot) {ray : Ray Dbl}
    (h : FinitePV ray) :
    FinitePV (ray.reverse (CoordTransform.make a.fin b.fin)) ∧
    physical a.fin (ray.reverse (CoordTransform.make a.fin b.fin)) = physical b.fin ray ∧
    ray.reverse (CoordTransform.make a.fin b.fin) = ray.forward (CoordTransform.make b.fin a.fin) := by
  have e : ray.reverse (CoordTransform.make a.fin b.fin) = ray.forward (CoordTransform.make b.fin a.fin) := by
    obtain ⟨r, v, hr, hv⟩ := h
    simp only [Ray.reverse, Ray.forward, hr, hv, CoordTransform.reverse_fin, CoordTransform.reverseVel_fin,
      CoordTransform.forward_fin, CoordTransform.forwardVel_fin, (C05_forward_reverse ha hb r).2.2.2,
      (C05_velocity ha hb v).2.2.2.2]
  rw [e]
  exact ⟨(toCoordSys_step hb ha h).1, (toCoordSys_step hb ha h).2, rfl⟩

theorem Ray.reverse_forward {a b : CoordSys ℝ} (ha : IsRotation a.rot) (hb : IsRotation b.rot) {ray : Ray Dbl}
    (h : FinitePV ray) :
    (ray.forward (CoordTransform.make a.fin b.fin)).reverse (CoordTransform.make a.fin b.fin) = ray ∧
    (ray.reverse (CoordTransform.make a.fin b.fin)).forward (CoordTransform.make a.fin b.fin) = ray := by
  obtain ⟨r, v, hr, hv⟩ := h
  constructor
  · simp only [Ray.reverse, Ray.forward, hr, hv, CoordTransform.reverse_fin, CoordTransform.reverseVel_fin,
      CoordTransform.forward_fin, CoordTransform.forwardVel_fin, (C05_forward_reverse ha hb r).2.1,
      (C05_velocity ha hb v).2.2.1]
    rw [← hr, ← hv]
  · simp only [Ray.reverse, Ray.forward, hr, hv, CoordTransform.reverse_fin, CoordTransform.reverseVel_fin,
      CoordTransform.forward_fin, CoordTransform.forwardVel_fin, (C05_forward_reverse ha hb r).2.2.1,
      (C05_velocity ha hb v).2.2.2.1]
    rw [← hr, ← hv]

/-- C07: `applyForwardTransform` and `applyReverseTransform` leave every ray physically where it was and record the
frame they lead to; each restores exactly what the other was given. -/
theorem C07_apply {a b : CoordSys ℝ} (ha : IsRotation a.rot) (hb : IsRotation b.rot) (rays : List (Ray Dbl))
    (h : ∀ ray ∈ rays, FinitePV ray) :
    let ct := CoordTransform.make a.fin b.fin
    (RayVec.applyForward ct ⟨rays, a.fin⟩).coordSys = b.fin ∧
    (RayVec.applyForward ct ⟨rays, a.fin⟩).rays.map (physical b.fin) = rays.map (physical a.fin) ∧
    (RayVec.applyReverse ct ⟨rays, b.fin⟩).coordSys = a.fin ∧
    (RayVec.applyReverse ct ⟨rays, b.fin⟩).rays.map (physical a.fin) = rays.map (physical b.fin) ∧
    RayVec.applyReverse ct (RayVec.applyForward ct ⟨rays, a.fin⟩) = ⟨rays, a.fin⟩ ∧
    RayVec.applyForward ct (RayVec.applyReverse ct ⟨rays, b.fin⟩) = ⟨rays, b.fin⟩ := by
  refine ⟨rfl, ?_, rfl, ?_, ?_, ?_⟩
  · simp only [RayVec.applyForward, List.map_map]
    exact List.map_congr_left fun ray m => (toCoordSys_step ha hb (h ray m)).2
  · simp only [RayVec.applyReverse, List.map_map]
    exact List.map_congr_left fun ray m => (applyReverse_step ha hb (h ray m)).2.1
  · simp only [RayVec.applyReverse, RayVec.applyForward, List.map_map, CoordTransform.make]
    congr 1
    exact (List.map_congr_left fun ray m => (Ray.reverse_forward ha hb (h ray m)).1).trans (List.map_id _)
  · simp only [RayVec.applyReverse, RayVec.applyForward, List.map_map, CoordTransform.make]
    congr 1
    exact (List.map_congr_left fun ray m => (Ray.reverse_forward ha hb (h ray m)).2).trans (List.map_id _)

/-- C07: after any sequence of `toCoordSys` calls every ray is physically where it was, with the same
scalar data, and the recorded frame is the last one requested. -/
theorem C07_toCoordSys_physical (frames : List (CoordSys ℝ)) :
    ∀ (a : CoordSys ℝ) (rv : RayVec Dbl), rv.coordSys = a.fin → IsRotation a.rot →
    (∀ c ∈ frames, IsRotation c.rot) → (∀ ray ∈ rv.rays, FinitePV ray) →
    let rv' := frames.foldl (fun rv c => rv.toCoordSys c.fin) rv
    rv'.coordSys = ((frames.getLast?).getD a).fin ∧
    rv'.rays.map (physical rv'.coordSys) = rv.rays.map (physical rv.coordSys) := by
  induction frames with
  | nil => intro a rv h _ _ _; simp [h]
  | cons c cs ih =>
    intro a rv hrv ha hcs hfin
    have hc := hcs c (by simp)
    have hstep : ∀ ray ∈ (rv.toCoordSys c.fin).rays, FinitePV ray := by
      intro ray hray
      simp only [RayVec.toCoordSys, RayVec.applyForward, List.mem_map, hrv] at hray
      obtain ⟨ray0, h0, rfl⟩ := hray
      exact (toCoordSys_step ha hc (hfin ray0 h0)).1
    have h := ih c (rv.toCoordSys c.fin) rfl hc (fun d hd => hcs d (by simp [hd])) hstep
    have hl : ((c :: cs).getLast?).getD a = (cs.getLast?).getD c := by
      cases cs with
      | nil => simp
      | cons d ds => simp [List.getLast?_cons]
    simp only [List.foldl_cons] at h ⊢
    rw [hl]
    refine ⟨h.1, h.2.trans ?_⟩
    show List.map (physical c.fin) (rv.rays.map (Ray.forward (CoordTransform.make rv.coordSys c.fin))) = _
    rw [List.map_map, hrv]
    apply List.map_congr_left
    intro ray hray
    exact (toCoordSys_step ha hc (hfin ray hray)).2

example : ∃ (a c : CoordSys ℝ) (rv : RayVec Dbl), rv.coordSys = a.fin ∧ IsRotation a.rot ∧
    IsRotation c.rot ∧ (∀ ray ∈ rv.rays, FinitePV ray) ∧ (rv.toCoordSys c.fin).rays ≠ rv.rays := by
  refine ⟨CoordSys.std ℝ, ⟨⟨0, 0, 1⟩, RotX Real.pi⟩,
    ⟨[⟨V3.fin ⟨0, 0, 0⟩, V3.fin ⟨0, 0, 1⟩, .nan, .fin 1, .fin 1, false, true⟩], (CoordSys.std ℝ).fin⟩,
    rfl, isRotation_one, rotX_isRotation _, ?_, ?_⟩
  · intro ray hray
    simp only [List.mem_singleton] at hray
    subst hray
    exact ⟨_, _, rfl, rfl⟩
  · intro h
    simp only [RayVec.toCoordSys, RayVec.applyForward, List.map_cons, List.map_nil, Ray.forward,
      List.cons.injEq, and_true, Ray.mk.injEq] at h
    have h1 := h.1
    rw [CoordTransform.forward_fin, V3.fin_inj] at h1
    have := congrArg V3.z h1
    simp [CoordTransform.forward, CoordTransform.make, CoordSys.std, RotX, M3.mulVec, M3.mul, M3.tr] at this

end Batoid.Props
