import Verif.Vec

/-!
# Coordinate systems and transforms

Model of `batoid/coordSys.py` and `batoid/coordTransform.py`.
-/

namespace Batoid

/-- `RotX(th)`: coordSys.py L4-6. -/
noncomputable def RotX (th : ℝ) : M3 ℝ :=
  ⟨1, 0, 0, 0, Real.cos th, -Real.sin th, 0, Real.sin th, Real.cos th⟩
/-- `RotY(th)`: coordSys.py L9-11. -/
noncomputable def RotY (th : ℝ) : M3 ℝ :=
  ⟨Real.cos th, 0, Real.sin th, 0, 1, 0, -Real.sin th, 0, Real.cos th⟩
/-- `RotZ(th)`: coordSys.py L14-16. -/
noncomputable def RotZ (th : ℝ) : M3 ℝ :=
  ⟨Real.cos th, -Real.sin th, 0, Real.sin th, Real.cos th, 0, 0, 0, 1⟩

/-- `CoordSys`: coordSys.py L19-41. -/
@[ext] structure CoordSys (F : Type) where
  origin : V3 F
  rot : M3 F

namespace CoordSys

section generic
variable {F : Type} [Add F] [Sub F] [Mul F]

/-- `xhat`: coordSys.py L43-48 (first column). -/
def xhat (c : CoordSys F) : V3 F := ⟨c.rot.m11, c.rot.m21, c.rot.m31⟩
/-- `yhat`: coordSys.py L50-55. -/
def yhat (c : CoordSys F) : V3 F := ⟨c.rot.m12, c.rot.m22, c.rot.m32⟩
/-- `zhat`: coordSys.py L57-62. -/
def zhat (c : CoordSys F) : V3 F := ⟨c.rot.m13, c.rot.m23, c.rot.m33⟩

/-- `shiftGlobal`: coordSys.py L64-76. -/
def shiftGlobal (c : CoordSys F) (dr : V3 F) : CoordSys F := ⟨c.origin + dr, c.rot⟩

/-- `shiftLocal`: coordSys.py L78-91. -/
def shiftLocal (c : CoordSys F) (dr : V3 F) : CoordSys F := c.shiftGlobal (c.rot.mulVec dr)

/-- `toGlobal`: coordSys.py L93-107 (one vector). -/
def toGlobal (c : CoordSys F) (v : V3 F) : V3 F := c.rot.mulVec v + c.origin

/-- `toLocal`: coordSys.py L109-124 (one vector). -/
def toLocal (c : CoordSys F) (v : V3 F) : V3 F := c.rot.tr.mulVec (v - c.origin)

/-- `rotateGlobal` with an explicit reference system: coordSys.py L126-150. -/
def rotateGlobalIn (c : CoordSys F) (rot : M3 F) (rotCenter : V3 F) (cs : CoordSys F) : CoordSys F :=
  let g := cs.toGlobal rotCenter
  ⟨rot.mulVec (c.origin - g) + g, rot.mul c.rot⟩

/-- `rotateLocal`: coordSys.py L152-178; `coordSys=None` means the frame itself. -/
def rotateLocal (c : CoordSys F) (rot : M3 F) (rotCenter : V3 F) (cs : Option (CoordSys F)) :
    CoordSys F :=
  let g := (cs.getD c).toGlobal rotCenter
  let rTmp := c.rot.mul rot
  ⟨(rTmp.mul c.rot.tr).mulVec (c.origin - g) + g, rTmp⟩
end generic

/-- The default `CoordSys()`: coordSys.py L35-41 with both arguments `None`, in any arithmetic. -/
def std (F : Type) [OfNat F 0] [OfNat F 1] : CoordSys F :=
  ⟨⟨0, 0, 0⟩, ⟨1, 0, 0, 0, 1, 0, 0, 0, 1⟩⟩

/-- `rotateGlobal`: coordSys.py L126-150; `coordSys=None` means the global frame. -/
def rotateGlobal {F : Type} [Add F] [Sub F] [Mul F] [OfNat F 0] [OfNat F 1]
    (c : CoordSys F) (rot : M3 F) (rotCenter : V3 F) (cs : Option (CoordSys F)) : CoordSys F :=
  c.rotateGlobalIn rot rotCenter (cs.getD (std F))

/-- Real frames seen as frames of ideal doubles. -/
def fin (c : CoordSys ℝ) : CoordSys Dbl := ⟨c.origin.fin, c.rot.fin⟩

end CoordSys

/-- `CoordTransform`: coordTransform.py L6-20 (`dr`, `drot` computed in `__init__`). -/
structure CoordTransform (F : Type) where
  fromSys : CoordSys F
  toSys : CoordSys F
  dr : V3 F
  drot : M3 F

namespace CoordTransform
section generic
variable {F : Type} [Add F] [Sub F] [Mul F]

/-- `CoordTransform.__init__`: coordTransform.py L16-20. -/
def make (a b : CoordSys F) : CoordTransform F :=
  ⟨a, b, a.rot.tr.mulVec (b.origin - a.origin), a.rot.tr.mul b.rot⟩

/-- `applyForwardArray`: coordTransform.py L70-90 (one point).  The C++ loops
(`src/batoid.cpp` L14-21, L94-106) compute the same expression `(r-dr)·drot` column by column. -/
def forward (ct : CoordTransform F) (r : V3 F) : V3 F := ct.drot.tr.mulVec (r - ct.dr)

/-- `applyReverseArray`: coordTransform.py L92-113 (one point); C++ `src/batoid.cpp` L30-37. -/
def reverse (ct : CoordTransform F) (r : V3 F) : V3 F := ct.drot.mulVec r + ct.dr

/-- Velocities are only rotated: `src/batoid.cpp` L101-106. -/
def forwardVel (ct : CoordTransform F) (v : V3 F) : V3 F := ct.drot.tr.mulVec v

/-- `src/batoid.cpp` L141-146. -/
def reverseVel (ct : CoordTransform F) (v : V3 F) : V3 F := ct.drot.mulVec v
end generic

theorem make_fin (a b : CoordSys ℝ) :
    make a.fin b.fin = ⟨a.fin, b.fin, (make a b).dr.fin, (make a b).drot.fin⟩ := by
  simp [make, CoordSys.fin]

theorem forward_fin (a b : CoordSys ℝ) (r : V3 ℝ) :
    (make a.fin b.fin).forward r.fin = ((make a b).forward r).fin := by
  simp [make_fin, forward]
theorem reverse_fin (a b : CoordSys ℝ) (r : V3 ℝ) :
    (make a.fin b.fin).reverse r.fin = ((make a b).reverse r).fin := by
  simp [make_fin, reverse]
theorem forwardVel_fin (a b : CoordSys ℝ) (r : V3 ℝ) :
    (make a.fin b.fin).forwardVel r.fin = ((make a b).forwardVel r).fin := by
  simp [make_fin, forwardVel]
theorem reverseVel_fin (a b : CoordSys ℝ) (r : V3 ℝ) :
    (make a.fin b.fin).reverseVel r.fin = ((make a b).reverseVel r).fin := by
  simp [make_fin, reverseVel]

end CoordTransform

namespace CoordSys

theorem std_eq : std ℝ = ⟨⟨0, 0, 0⟩, M3.one⟩ := rfl

theorem toLocal_toGlobal {c : CoordSys ℝ} (h : c.rot.Orth) (v : V3 ℝ) :
    c.toLocal (c.toGlobal v) = v := by
  have : c.toGlobal v - c.origin = c.rot.mulVec v := by ext <;> simp [toGlobal]
  rw [toLocal, this, h.tr_mulVec]

theorem toGlobal_toLocal {c : CoordSys ℝ} (h : c.rot.Orth) (v : V3 ℝ) :
    c.toGlobal (c.toLocal v) = v := by
  rw [toGlobal, toLocal, h.mulVec_tr]; ext <;> simp

theorem forward_eq {a b : CoordSys ℝ} (ha : a.rot.Orth) (r : V3 ℝ) :
    (CoordTransform.make a b).forward r = b.toLocal (a.toGlobal r) := by
  unfold CoordTransform.forward CoordTransform.make toLocal toGlobal
  simp only
  rw [M3.tr_mul, M3.tr_tr, M3.mul_mulVec]
  congr 1
  rw [M3.mulVec_sub, ha.mulVec_tr]
  ext <;> simp <;> ring

theorem reverse_eq {a b : CoordSys ℝ} (r : V3 ℝ) :
    (CoordTransform.make a b).reverse r = a.toLocal (b.toGlobal r) := by
  unfold CoordTransform.reverse CoordTransform.make toLocal toGlobal
  simp only
  rw [M3.mul_mulVec, ← M3.mulVec_add]
  congr 1
  ext <;> simp <;> ring

theorem forwardVel_eq {a b : CoordSys ℝ} (v : V3 ℝ) :
    (CoordTransform.make a b).forwardVel v = b.rot.tr.mulVec (a.rot.mulVec v) := by
  simp [CoordTransform.forwardVel, CoordTransform.make, M3.tr_mul, M3.mul_mulVec]

end CoordSys
end Batoid
