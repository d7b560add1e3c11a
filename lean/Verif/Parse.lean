import Verif.Objects

/-!
# Building optics from configuration dictionaries

Model of `batoid/parse.py`.

Simplifications:
* A dictionary has one field per key the parser looks at; a missing key is `none`.  Values of the wrong Python type are not
  modelled, nor is `inMedium: null`.
* `eval("batoid.X(**config)")` is a parameter of the model (`Builders`): any function from the class name and the remaining
  keys to an object or an exception.
* `backDist`, `sphereRadius`, `pupilSize`, `pupilObscuration`, `R_outer`, `R_inner` and `stopSurface`, which become attributes
  of the optic, are not modelled.
* `pop` removes keys from the caller's dictionaries; every dictionary is taken to be parsed once, so that YAML aliases are not
  modelled.
-/

namespace Batoid.Parse
open Arith Objects

variable {F : Type}

/-- A value of a keyword argument. -/
inductive Param (F : Type) where
  | num (x : F)
  | nums (xs : List F)
  | rows (xs : List (List F))
  | int (i : ℤ)
  | str (s : List Char)

/-- The constructors called through `eval`. -/
structure Builders (F : Type) where
  surface : Name → List (Name × Param F) → Except PyErr (SurfaceObj F)
  medium : Name → List (Name × Param F) → Except PyErr (MediumObj F)
  obsc : Name → List (Name × Param F) → Except PyErr (Obsc F)
  repr : Obsc F → List Char

/-- `config.pop(k)` of a key that may be missing. -/
def popKey {α : Type} : Option α → Except PyErr α
  | none => .error .keyError
  | some a => .ok a

/-! ## Obscurations -/

/-- The dictionary of an obscuration. -/
inductive ObscCfg (F : Type) where
  | mk (type : Option Name) (params : List (Name × Param F)) (original : Option (ObscCfg F)) (items : Option (List (ObscCfg F)))

/-- The classes built from keyword arguments: batoid/parse.py L8-10. -/
def basicObsc : List Name :=
  ["ObscCircle".toList, "ObscAnnulus".toList, "ObscRay".toList, "ObscRectangle".toList, "ObscPolygon".toList]

/-- `typ.replace(old, new)`, for a nonempty `old`. -/
def replaceAll (old new : List Char) : ℕ → List Char → List Char
  | 0, s => s
  | _ + 1, [] => []
  | n + 1, c :: s =>
    if old.isPrefixOf (c :: s) then new ++ replaceAll old new n ((c :: s).drop old.length)
    else c :: replaceAll old new n s

/-- `typ.replace("Clear", "Obsc")`. -/
def clearToObsc (typ : Name) : Name := replaceAll "Clear".toList "Obsc".toList typ.length typ

/-- The branches for types that do not start with `Clear`: batoid/parse.py L8-18, L24-25.  `original` and `items` are what
parsing the entries of these names gives. -/
def typedObsc (b : Builders F) (typ : Name) (params : List (Name × Param F)) (extra : Bool)
    (original : Except PyErr (Obsc F)) (items : Except PyErr (List (Obsc F))) : Except PyErr (Obsc F) :=
  if typ ∈ basicObsc then
    if extra then .error .typeError  -- unexpected keyword argument
    else b.obsc typ params
  else if typ = "ObscNegation".toList then do return .negation (← original)
  else if typ = "ObscUnion".toList then do return ObscObj.mkUnion b.repr (← items)
  else if typ = "ObscIntersection".toList then do return ObscObj.mkIntersection b.repr (← items)
  else .error .valueError

mutual
/-- `parse_obscuration`: batoid/parse.py L6-25.  A type that starts with `Clear` is renamed and parsed again; the new name
starts with `Obsc`, so this happens at most once. -/
def parseObsc (b : Builders F) : ObscCfg F → Except PyErr (Obsc F)
  | .mk type params original items => do
    let typ ← popKey type
    if "Clear".toList.isPrefixOf typ then
      return .negation (← typedObsc b (clearToObsc typ) params (original.isSome || items.isSome) (parseOriginal b original)
        (parseItems b items))
    else typedObsc b typ params (original.isSome || items.isSome) (parseOriginal b original) (parseItems b items)
/-- `parse_obscuration(config['original'])`. -/
def parseOriginal (b : Builders F) : Option (ObscCfg F) → Except PyErr (Obsc F)
  | none => .error .keyError
  | some c => parseObsc b c
/-- `[parse_obscuration(c) for c in config['items']]`. -/
def parseItems (b : Builders F) : Option (List (ObscCfg F)) → Except PyErr (List (Obsc F))
  | none => .error .keyError
  | some cs => parseList b cs
/-- The list comprehension. -/
def parseList (b : Builders F) : List (ObscCfg F) → Except PyErr (List (Obsc F))
  | [] => .ok []
  | c :: cs => do return (← parseObsc b c) :: (← parseList b cs)
end

/-! ## Surfaces and media -/

/-- The dictionary of a surface. -/
inductive SurfCfg (F : Type) where
  | mk (type : Option Name) (params : List (Name × Param F)) (items : Option (List (SurfCfg F)))

mutual
/-- `parse_surface`: batoid/parse.py L28-34. -/
def parseSurface (b : Builders F) : SurfCfg F → Except PyErr (SurfaceObj F)
  | .mk type params items => do
    let typ ← popKey type
    if typ = "Sum".toList then return .sum (← parseSurfItems b items)
    else match items with
      | none => b.surface typ params
      | some _ => .error .typeError
/-- `[parse_surface(c) for c in config['items']]`. -/
def parseSurfItems (b : Builders F) : Option (List (SurfCfg F)) → Except PyErr (List (SurfaceObj F))
  | none => .error .keyError
  | some cs => parseSurfList b cs
/-- The list comprehension. -/
def parseSurfList (b : Builders F) : List (SurfCfg F) → Except PyErr (List (SurfaceObj F))
  | [] => .ok []
  | c :: cs => do return (← parseSurface b c) :: (← parseSurfList b cs)
end

/-- A medium in a configuration: a number or a dictionary. -/
inductive MediumCfg (F : Type) where
  | num (n : F)
  | dict (type : Option Name) (params : List (Name × Param F))

/-- `parse_medium`: batoid/parse.py L218-231. -/
def parseMedium (b : Builders F) : MediumCfg F → Except PyErr (MediumObj F)
  | .num n => .ok (.const n)
  | .dict type params => do b.medium (← popKey type) params

/-! ## Frames -/

/-- A value in the dictionary of a frame. -/
inductive CsVal (F : Type) where
  | num (v : F)
  | vec (v : V3 F)

section arith
variable [Arith F]

/-- `RotX`, `RotY`, `RotZ`: batoid/coordSys.py L4-16. -/
def rotX (th : F) : M3 F := ⟨1, 0, 0, 0, Arith.cos th, -Arith.sin th, 0, Arith.sin th, Arith.cos th⟩
def rotY (th : F) : M3 F := ⟨Arith.cos th, 0, Arith.sin th, 0, 1, 0, -Arith.sin th, 0, Arith.cos th⟩
def rotZ (th : F) : M3 F := ⟨Arith.cos th, -Arith.sin th, 0, Arith.sin th, Arith.cos th, 0, 0, 0, 1⟩

/-- One entry of `parse_coordSys`: batoid/parse.py L42-56.  A vector where a number is expected, or the reverse, raises. -/
def csStep (c : CoordSys F) (kv : Name × CsVal F) : Except PyErr (CoordSys F) :=
  if kv.1 = "x".toList then
    match kv.2 with | .num v => .ok (c.shiftLocal ⟨v, 0, 0⟩) | .vec _ => .error .valueError
  else if kv.1 = "y".toList then
    match kv.2 with | .num v => .ok (c.shiftLocal ⟨0, v, 0⟩) | .vec _ => .error .valueError
  else if kv.1 = "z".toList then
    match kv.2 with | .num v => .ok (c.shiftLocal ⟨0, 0, v⟩) | .vec _ => .error .valueError
  else if kv.1 = "shift".toList then
    match kv.2 with | .vec v => .ok (c.shiftLocal v) | .num _ => .error .valueError
  else if kv.1 = "rotX".toList then
    match kv.2 with | .num v => .ok (c.rotateLocal (rotX v) ⟨0, 0, 0⟩ none) | .vec _ => .error .valueError
  else if kv.1 = "rotY".toList then
    match kv.2 with | .num v => .ok (c.rotateLocal (rotY v) ⟨0, 0, 0⟩ none) | .vec _ => .error .valueError
  else if kv.1 = "rotZ".toList then
    match kv.2 with | .num v => .ok (c.rotateLocal (rotZ v) ⟨0, 0, 0⟩ none) | .vec _ => .error .valueError
  else .ok c

/-- `parse_coordSys`: batoid/parse.py L37-57; the entries in the order of the dictionary. -/
def parseCoordSys : List (Name × CsVal F) → CoordSys F → Except PyErr (CoordSys F)
  | [], c => .ok c
  | kv :: cfg, c => do parseCoordSys cfg (← csStep c kv)

/-! ## Optics -/

/-- The dictionary of an optic without its items.  `outMedium` may be given as `null`. -/
structure OpticData (F : Type) where
  type : Option Name
  name : Option Name
  obscuration : Option (ObscCfg F)
  coordSys : Option (List (Name × CsVal F))
  inMedium : Option (MediumCfg F)
  outMedium : Option (Option (MediumCfg F))
  medium : Option (MediumCfg F)
  surface : Option (SurfCfg F)
  screen : Option (SurfCfg F)

/-- The dictionary of an optic. -/
inductive OpticCfg (F : Type) where
  | mk (d : OpticData F) (items : Option (List (OpticCfg F)))

/-- The coatings assigned by the constructors: batoid/optic.py L762-770, L800-808, L828-833, L850-857. -/
def forwardOf : KindObj F → Option (CoatingObj F)
  | .refractive => some ⟨0, 1⟩
  | .mirror => some ⟨1, 0⟩
  | .detector => some ⟨0, 1⟩
  | .baffle => some ⟨0, 1⟩
  | _ => none
def reverseOf : KindObj F → Option (CoatingObj F)
  | .refractive => some ⟨0, 1⟩
  | .mirror => some ⟨1, 0⟩
  | .baffle => some ⟨0, 1⟩
  | _ => none

/-- An assertion `a == b`. -/
def assertEq (r : Except PyErr Bool) : Except PyErr Unit := do
  if ← r then return () else throw .assertionError

/-- `Class(surface, name=..., coordSys=..., obscuration=..., inMedium=..., outMedium=...)`: batoid/optic.py L37-46, L115-140. -/
def newIface (kind : KindObj F) (name : Name) (surface : SurfaceObj F) (obscuration : Option (Obsc F)) (c : CoordSys F)
    (mIn mOut : MediumObj F) : OpticObj F :=
  .iface ⟨kind, name, surface, obscuration, c, mIn, mOut, false, forwardOf kind, reverseOf kind, none⟩

/-- `obscuration` of the dictionary: batoid/parse.py L99-102. -/
def parseObscKey (b : Builders F) : Option (ObscCfg F) → Except PyErr (Option (Obsc F))
  | none => .ok none
  | some c => do return some (← parseObsc b c)

/-- `coordSys` of the dictionary: batoid/parse.py L104-105. -/
def parseFrame (cfg : Option (List (Name × CsVal F))) (c : CoordSys F) : Except PyErr (CoordSys F) :=
  match cfg with
  | none => .ok c
  | some kvs => parseCoordSys kvs c

/-- `inMedium = parse_medium(config.pop('inMedium', inMedium))`: batoid/parse.py L106. -/
def parseIn (b : Builders F) (cfg : Option (MediumCfg F)) (parent : MediumObj F) : Except PyErr (MediumObj F) :=
  match cfg with
  | none => .ok parent
  | some m => parseMedium b m

/-- `outMedium = parse_medium(config.pop('outMedium', outMedium))` and the default: batoid/parse.py L107-109. -/
def parseOut (b : Builders F) (cfg : Option (Option (MediumCfg F))) (parent : Option (MediumObj F)) (mIn : MediumObj F) :
    Except PyErr (MediumObj F) :=
  match cfg with
  | none => .ok (parent.getD mIn)
  | some none => .ok mIn
  | some (some m) => parseMedium b m

/-- What every branch of `parse_optic` works with. -/
structure Common (F : Type) where
  obscuration : Option (Obsc F)
  name : Name
  coordSys : CoordSys F
  inMedium : MediumObj F
  outMedium : MediumObj F
  type : Name

/-- The first part of `parse_optic`: batoid/parse.py L99-126. -/
def parseCommon (b : Builders F) (d : OpticData F) (c : CoordSys F) (mIn : MediumObj F) (mOut : Option (MediumObj F)) :
    Except PyErr (Common F) := do
  let obscuration ← parseObscKey b d.obscuration
  let c' ← parseFrame d.coordSys c
  let mIn' ← parseIn b d.inMedium mIn
  let mOut' ← parseOut b d.outMedium mOut mIn'
  let typ ← popKey d.type
  return ⟨obscuration, d.name.getD [], c', mIn', mOut', typ⟩

/-- `parse_surface(config.pop(key))`. -/
def parseSurfKey (b : Builders F) (cfg : Option (SurfCfg F)) : Except PyErr (SurfaceObj F) := do
  parseSurface b (← popKey cfg)

/-- The interface classes built with all arguments: batoid/parse.py L127-168. -/
def simpleKind (typ : Name) : Option (KindObj F) :=
  if typ = "Mirror".toList then some .mirror
  else if typ = "RefractiveInterface".toList then some .refractive
  else if typ = "Baffle".toList then some .baffle
  else if typ = "Detector".toList then some .detector
  else none

/-- Attributes every optic has. -/
def inMedium : OpticObj F → MediumObj F
  | .iface d => d.inMedium
  | .compound d _ => d.inMedium
def outMedium : OpticObj F → MediumObj F
  | .iface d => d.outMedium
  | .compound d _ => d.outMedium
def frame : OpticObj F → CoordSys F
  | .iface d => d.coordSys
  | .compound d _ => d.coordSys
def nameOf : OpticObj F → Name
  | .iface d => d.name
  | .compound d _ => d.name
def itemsOf : OpticObj F → List (OpticObj F)
  | .iface _ => []
  | .compound _ l => l

/-- `Lens(items, ...)`: batoid/optic.py L1758-1761. -/
def newLens (k : Common F) (items : List (OpticObj F)) : Except PyErr (OpticObj F) :=
  match items with
  | [a, a'] => do
    assertEq (MediumObj.eq (outMedium a) (inMedium a'))
    return .compound ⟨true, k.name, k.coordSys, k.inMedium, k.outMedium, false, none⟩ items
  | _ => .error .assertionError

mutual
/-- `parse_optic`: batoid/parse.py L89-215. -/
def parseOptic (b : Builders F) : OpticCfg F → CoordSys F → MediumObj F → Option (MediumObj F) → Except PyErr (OpticObj F)
  | .mk d items, c, mIn, mOut => do
    let k ← parseCommon b d c mIn mOut
    match simpleKind (F := F) k.type with
    | some kind =>
      let s ← parseSurfKey b d.surface
      return newIface kind k.name s k.obscuration k.coordSys k.inMedium k.outMedium
    | none =>
      if k.type = "OPDScreen".toList then
        let s ← parseSurfKey b d.surface
        let scr ← parseSurfKey b d.screen
        assertEq (k.inMedium.eq k.outMedium)
        return newIface (.screen scr) k.name s k.obscuration k.coordSys k.inMedium k.outMedium
      else if k.type = "Lens".toList then
        let medium ← parseMedium b (← popKey d.medium)
        newLens k (← parseTwo b items k.coordSys k.inMedium medium k.outMedium)
      else if k.type = "CompoundOptic".toList then
        let l ← parseOptics b items k.coordSys k.inMedium k.outMedium
        return .compound ⟨false, k.name, k.coordSys, k.inMedium, k.outMedium, false, none⟩ l
      else if k.type = "Interface".toList then
        let s ← parseSurfKey b d.surface
        return newIface .plain k.name s none k.coordSys (.const 1) (.const 1)
      else .error .valueError
/-- The two items of a lens: batoid/parse.py L171-185. -/
def parseTwo (b : Builders F) (items : Option (List (OpticCfg F))) (c : CoordSys F) (mIn medium mOut : MediumObj F) :
    Except PyErr (List (OpticObj F)) :=
  match items with
  | none => .error .keyError
  | some [] => .error .indexError
  | some [a] => do
    let _ ← parseOptic b a c mIn (some medium)
    .error .indexError
  | some (a :: a' :: _) => do
    let o ← parseOptic b a c mIn (some medium)
    let o' ← parseOptic b a' c medium (some mOut)
    return [o, o']
/-- The items of a compound: batoid/parse.py L193-202. -/
def parseOptics (b : Builders F) (items : Option (List (OpticCfg F))) (c : CoordSys F) (mIn mOut : MediumObj F) :
    Except PyErr (List (OpticObj F)) :=
  match items with
  | none => .error .keyError
  | some l => parseOpticList b l c mIn mOut
/-- The list comprehension. -/
def parseOpticList (b : Builders F) : List (OpticCfg F) → CoordSys F → MediumObj F → MediumObj F →
    Except PyErr (List (OpticObj F))
  | [], _, _, _ => .ok []
  | a :: l, c, mIn, mOut => do return (← parseOptic b a c mIn (some mOut)) :: (← parseOpticList b l c mIn mOut)
end

/-- `parse_optic(config)` with the default arguments, as called by `Optic.fromYaml`. -/
def parseTop (b : Builders F) (cfg : OpticCfg F) : Except PyErr (OpticObj F) :=
  parseOptic b cfg (CoordSys.std F) (.const 1) none

end arith
end Batoid.Parse
