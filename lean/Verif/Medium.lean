import Verif.Vec

/-!
# Media and coatings

Model of `src/medium.cpp` and `src/coating.cpp`.
-/

namespace Batoid
open Arith

/-- Virtual method of `Medium`. -/
structure Medium (F : Type) where
  /-- `getN(wavelength)` -/
  getN : F → F

namespace Medium
variable {F : Type} [Arith F]

/-- `ConstMedium`: src/medium.cpp L24-32. -/
def const (n : F) : Medium F := ⟨fun _ => n⟩

/-- The linear search of `TableMedium::getN`: src/medium.cpp L96-99: the first index `>= i`
with `wavelength < args[index]`, or the size if there is none. -/
def upperIdx (w : F) : ℕ → List F → ℕ
  | i, [] => i
  | i, a :: as => if lt w a then i else upperIdx w (i + 1) as

/-- `TableMedium::getN`: src/medium.cpp L89-105.  A read outside the arrays (undefined behaviour
in C++) is `none`. -/
def tableGetN (args vals : List F) (w : F) : Option F := do
  let a0 ← args[0]?
  if lt w a0 then return nan
  let al ← args[args.length - 1]?
  if gt w al then return nan
  let u := upperIdx w 1 args.tail
  let alo ← args[u - 1]?
  let vhi ← vals[u]?
  let vlo ← vals[u - 1]?
  let ahi ← args[u]?
  return (w - alo) * (vhi - vlo) / (ahi - alo) + vlo

/-- A table medium as seen by the kernels; `junk` stands for whatever an out of range read gives. -/
def table (args vals : List F) (junk : F) : Medium F := ⟨fun w => (tableGetN args vals w).getD junk⟩

/-- `SellmeierMedium::getN`: src/medium.cpp L145-149. -/
def sellmeierN (B1 B2 B3 C1 C2 C3 : F) (w : F) : F :=
  let x := w * w * Arith.const (10^12)
  Arith.sqrt (1 + B1 * x / (x - C1) + B2 * x / (x - C2) + B3 * x / (x - C3))

/-- `SumitaMedium::getN`: src/medium.cpp L186-191. -/
def sumitaN (A0 A1 A2 A3 A4 A5 : F) (w : F) : F :=
  let x := w * w * Arith.const (10^12)
  let y := 1 / x
  Arith.sqrt (A0 + A1 * x + y * (A2 + y * (A3 + y * (A4 + y * A5))))

/-- `Air`: src/medium.cpp L230-245. -/
def airN (pressure temperature h2o : F) (w : F) : F :=
  let P := pressure * Arith.const (750061683/100000000)
  let T := temperature - Arith.const (27315/100)
  let W := h2o * Arith.const (750061683/100000000)
  let sigma2 := Arith.const (1/10^12) / (w * w)
  let m0 := (Arith.const (64328/1000) + Arith.const (294981/10) / (Arith.const 146 - sigma2)
      + Arith.const (2554/10) / (Arith.const 41 - sigma2)) * Arith.const (1/10^6)
  let m1 := m0 * (P * (1 + (Arith.const (1049/1000) - Arith.const (157/10000) * T) * Arith.const (1/10^6) * P)
      / (Arith.const (720883/1000) * (1 + Arith.const (3661/1000000) * T)))
  let m2 := m1 - (Arith.const (624/10000) - Arith.const (680/1000000) * sigma2)
      / (1 + Arith.const (3661/1000000) * T) * W * Arith.const (1/10^6)
  1 + m2

end Medium

/-- Virtual methods of `Coating`: include/coating.h. -/
structure Coating (F : Type) where
  getReflect : F → F → F
  getTransmit : F → F → F

namespace Coating
/-- `SimpleCoating` (the only subclass): src/coating.cpp L22-39. -/
def simple {F : Type} (reflectivity transmissivity : F) : Coating F :=
  ⟨fun _ _ => reflectivity, fun _ _ => transmissivity⟩
/-- `getCoefs`: src/coating.cpp L28-31. -/
def getCoefs {F : Type} (c : Coating F) (w cosI : F) : F × F := (c.getReflect w cosI, c.getTransmit w cosI)
end Coating

end Batoid
