import Mathlib.Logic.Function.Basic
import Mathlib.Data.List.Basic

/-!
# Who keeps memory alive

The python classes hold their C++ objects by shared pointers, but the C++ objects hold each other, and the numbers in numpy arrays, by raw pointers
(`pysrc/*.cpp`, no `keep_alive`).  What a raw pointer leads to stays there only as long as some python object that the program can reach keeps it.

Memory is a set of cells.  A cell that no variable of the program leads to through references of python (attributes, elements, shared pointers) may be
released at any time, in any order.  Addresses are not used again, so that a pointer into released memory can be told.  Numbers, and objects made of numbers only
(frames, names), are left out: nothing points to them.  The device copies of the GPU build are left out.
-/

namespace Batoid.Lifetime

/-- What a cell is. -/
inductive Kind
  /-- no C++ object depends on what it refers to: lists, dictionaries and objects of the program, optics -/
  | program
  /-- an object of batoid with C++ objects, or a list in one; python lets the program assign its attributes or elements -/
  | library
  /-- cannot be changed: tuples, arrays (their numbers can), and `RayVector`, whose arrays are private -/
  | frozen
  /-- a C++ object, held by its python object only -/
  | cpp
  /-- memory that C++ took with `new[]` -/
  | block
deriving DecidableEq

structure Cell where
  kind : Kind := .frozen
  /-- python objects that this one refers to -/
  refs : List ℕ := []
  /-- its C++ objects (`_surface`, `_obsc`, `_medium`, `_coating`, `_rv`, `_table`), the one others point to first -/
  cpp : List ℕ := []
  /-- raw pointers of a C++ object to C++ objects and to arrays -/
  points : List ℕ := []
  /-- raw pointers of a C++ object to memory from `new[]` -/
  blocks : List ℕ := []
  /-- the destructor releases the `blocks` -/
  deletes : Bool := false
  /-- the C++ object is made when first used: `RayVector._rv` -/
  lazy : Bool := false

structure State where
  heap : ℕ → Option Cell
  next : ℕ
  /-- the variables of the program -/
  roots : List ℕ

def State.empty : State := ⟨fun _ => none, 0, []⟩

/-- A new cell. -/
def State.alloc (s : State) (c : Cell) : State := ⟨Function.update s.heap s.next (some c), s.next + 1, s.roots⟩

/-- A new cell that a variable refers to. -/
def State.make (s : State) (c : Cell) : State := ⟨Function.update s.heap s.next (some c), s.next + 1, s.next :: s.roots⟩

/-- The end of a constructor: its local variables go, the new object is given to the caller. -/
def State.result (s : State) (old : List ℕ) : State := { s with roots := (s.next - 1) :: old }

/-- `x._surface`, `x._obsc`. -/
def State.cppOf (s : State) (x : ℕ) : Option ℕ := (s.heap x).bind fun c => c.cpp.head?

/-- Arrays made by a constructor: `np.array`, `np.copy`, `np.concatenate`, `np.empty`; or, for `np.ascontiguousarray` and `_reshape_arrays`, the arrays of the
caller. -/
def State.arrays (s : State) : List (Option ℕ) → State × List ℕ
  | [] => (s, [])
  | none :: l => let (s', r) := (s.make {}).arrays l; (s', s.next :: r)
  | some a :: l => let (s', r) := s.arrays l; (s', a :: r)

/-- The objects without pointers: `Plane`, `Tilted`, `Paraboloid`, `Sphere`, `Quadric` (batoid/surface.py L171-172, L197-200, L237-239, L273-275, L319-322), `ConstMedium`,
`SellmeierMedium`, `SumitaMedium`, `Air` (batoid/medium.py L38-40, L140-152, L190-202, L243-247), `SimpleCoating` (batoid/coating.py L81-86), `ObscCircle`, `ObscAnnulus`,
`ObscRectangle`, `ObscRay` (batoid/obscuration.py L58-62, L103-108, L154-160, L210-215). -/
def State.simple (s : State) : State :=
  ((s.alloc { kind := .cpp }).make { kind := .library, cpp := [s.next] }).result s.roots

/-- `Asphere`: batoid/surface.py L378-399; src/asphere.cpp L10-37 (`_dzdrcoefs` is taken by the constructor and released by the destructor).  `padded` is the array of the caller when `imin = 1`
and it is a contiguous array already. -/
def State.asphere (s : State) (coefs : ℕ) (padded : Option ℕ) : State :=
  let (s1, p) := s.arrays [padded]
  let s2 := s1.alloc { kind := .block }
  let s3 := s2.alloc { kind := .cpp, points := p, blocks := [s1.next], deletes := true }
  (s3.make { kind := .library, refs := coefs :: p, cpp := [s2.next] }).result s.roots

/-- `Zernike`: batoid/surface.py L463-483; src/polynomialSurface.cpp L9-33.  The first array is `coef`, the others are those of galsim's polynomials, which `Z` keeps too. -/
def State.zernike (s : State) : State :=
  let (s1, a) := s.arrays [none, none, none, none]
  let s2 := s1.make { kind := .program, refs := a }
  let s3 := s2.alloc { kind := .cpp, points := a.tail }
  (s3.make { kind := .library, refs := s1.next :: a, cpp := [s2.next] }).result s.roots

/-- `Bicubic`: batoid/surface.py L539-584, and `__setstate__`, L617-636, with the arrays of the caller; src/table.cpp L12-26, src/bicubic.cpp L11-17. -/
def State.bicubic (s : State) (given : List (Option ℕ)) : State :=
  let (s1, a) := s.arrays given
  let s2 := s1.alloc { kind := .cpp, points := a.drop 2 }
  let s3 := s2.alloc { kind := .cpp, points := [s1.next] }
  (s3.make { kind := .library, refs := a, cpp := [s2.next, s1.next] }).result s.roots

/-- `TableMedium`: batoid/medium.py L71-78, src/medium.cpp L72-76; `ObscPolygon`: batoid/obscuration.py L259-266, src/obscuration.cpp L186-188. -/
def State.pair (s : State) (x y : Option ℕ) : State :=
  let (s1, a) := s.arrays [x, y]
  let s2 := s1.alloc { kind := .cpp, points := a }
  (s2.make { kind := .library, refs := a, cpp := [s1.next] }).result s.roots

/-- The arrays of pointers of `Sum`, `ObscUnion`, `ObscIntersection` are taken by the binding (pysrc/sum.cpp L13-17, pysrc/obscuration.cpp L66-70, L77-81) and never
released (src/sum.cpp L14-21, src/obscuration.cpp L355-362, L406-413). -/
def State.several (s : State) (container : Kind) (parts : List ℕ) : State :=
  match parts.mapM s.cppOf with
  | none => s
  | some cs =>
    let s1 := s.make { kind := container, refs := parts }
    let s2 := s1.alloc { kind := .block }
    let s3 := s2.alloc { kind := .cpp, points := cs, blocks := [s1.next] }
    (s3.make { kind := .library, refs := [s.next], cpp := [s2.next] }).result s.roots

/-- `Sum`: batoid/surface.py L687-694.  `surfaces` is a tuple. -/
def State.sum (s : State) (parts : List ℕ) : State := s.several .frozen parts

/-- `ObscUnion`, `ObscIntersection`: batoid/obscuration.py L371-387, L453-469.  `items` is a new list (the order does not matter here). -/
def State.union (s : State) (parts : List ℕ) : State := s.several .library parts

/-- `ObscNegation`: batoid/obscuration.py L313-315, src/obscuration.cpp L314-317. -/
def State.negation (s : State) (x : ℕ) : State :=
  match s.cppOf x with
  | none => s
  | some c => ((s.alloc { kind := .cpp, points := [c] }).make { kind := .library, refs := [x], cpp := [s.next] }).result s.roots

/-- `RayVector`: batoid/rayVector.py L46-78, L80-96, L1254-1270, L1305-1318. -/
def State.rays (s : State) (given : List (Option ℕ)) : State :=
  let (s1, a) := s.arrays given
  (s1.make { refs := a, lazy := true }).result s.roots

/-- The first use of a `RayVector` by a kernel: batoid/rayVector.py L1214-1223, src/rayVector.cpp L10-30. -/
def State.useRays (s : State) (x : ℕ) : State :=
  match s.heap x with
  | none => s
  | some c =>
    if c.lazy ∧ c.cpp = [] then
      ⟨Function.update (Function.update s.heap s.next (some { kind := .cpp, points := c.refs })) x (some { c with cpp := [s.next] }), s.next + 1, s.roots⟩
    else s

/-- Objects without C++ objects of their own: lists, dictionaries and objects of the program; optics (batoid/optic.py L37-46, L115-140, L941-945), lattices, dictionaries of results. -/
def State.holder (s : State) (parts : List ℕ) : State := s.make { kind := .program, refs := parts }

/-- What python keeps: what variables lead to through references. -/
inductive Held (s : State) : ℕ → Prop
  | root {x} (h : x ∈ s.roots) : Held s x
  | ref {x c y} (hx : Held s x) (hc : s.heap x = some c) (h : y ∈ c.refs ∨ y ∈ c.cpp) : Held s y

/-- What a program can do. -/
inductive Op
  | array
  | simple
  | asphere (coefs : ℕ) (padded : Option ℕ)
  | zernike
  | bicubic (given : List (Option ℕ))
  | pair (x y : Option ℕ)
  | sum (parts : List ℕ)
  | union (parts : List ℕ)
  | negation (x : ℕ)
  | rays (given : List (Option ℕ))
  | useRays (x : ℕ)
  | holder (parts : List ℕ)
  /-- read an attribute or element -/
  | get (x y : ℕ)
  /-- forget a variable -/
  | drop (x : ℕ)
  /-- assign attributes or elements of an object -/
  | assign (x : ℕ) (refs : List ℕ)
  /-- python releases an object -/
  | collect (x : ℕ)

/-- The arguments of a call are values of variables. -/
def Op.args : Op → List ℕ
  | .array | .simple | .zernike | .drop _ | .collect _ => []
  | .asphere c p => c :: p.toList
  | .bicubic g | .rays g => g.filterMap id
  | .pair x y => x.toList ++ y.toList
  | .sum l | .union l | .holder l => l
  | .negation x | .useRays x => [x]
  | .get x _ => [x]
  | .assign x l => x :: l

/-- The release of an object: C++ objects run their destructor. -/
def State.release (s : State) (x : ℕ) : State :=
  match s.heap x with
  | none => s
  | some c => { s with heap := fun y => if y = x ∨ (c.deletes = true ∧ y ∈ c.blocks) then none else s.heap y }

open Classical in
noncomputable def State.step (s : State) (op : Op) : State :=
  if op.args ⊆ s.roots then
    match op with
    | .array => s.make {}
    | .simple => s.simple
    | .asphere c p => s.asphere c p
    | .zernike => s.zernike
    | .bicubic g => s.bicubic g
    | .pair x y => s.pair x y
    | .sum l => s.sum l
    | .union l => s.union l
    | .negation x => s.negation x
    | .rays g => s.rays g
    | .useRays x => s.useRays x
    | .holder l => s.holder l
    | .get x y => match s.heap x with
      | some c => if y ∈ c.refs then { s with roots := y :: s.roots } else s
      | none => s
    | .drop x => { s with roots := s.roots.erase x }
    | .assign x l => match s.heap x with
      | some c => if c.kind = .program ∨ c.kind = .library then { s with heap := Function.update s.heap x (some { c with refs := l }) } else s
      | none => s
    | .collect x => match s.heap x with
      | some c => if ¬ Held s x ∧ c.kind ≠ .block then s.release x else s
      | none => s
  else s

end Batoid.Lifetime
