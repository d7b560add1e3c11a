import Verif.Printed
import Verif.Props.Objects

/-!
# Property C124: what an object prints makes the object again

`eval(repr(x))`.
-/

namespace Batoid.Props
open Batoid.Objects Batoid.Printed Dbl

variable {T : Type}

/-! ## Specification -/

/-- Two arrays of one shape; numbers that are numbers stay so. -/
def LikeArr : NdArr Dbl → NdArr Dbl → Prop
  | .vec a, .vec b => a.length = b.length ∧ (allEq a a = true → allEq b b = true)
  | .mat a, .mat b => a.map List.length = b.map List.length
  | .nd s _, .nd s' _ => s = s'
  | .bools a, .bools b => a = b
  | _, _ => False

/-- The text of an array can be read, and what is read prints the same text. -/
structure Reads (p : Printer Dbl T) (a b : NdArr Dbl) : Prop where
  read : p.read (p.text a) = .ok b
  text : p.text b = p.text a
  shape : LikeArr a b

def Readable (p : Printer Dbl T) (a : NdArr Dbl) : Prop := ∃ b, Reads p a b

/-- The text of an array has all its digits. -/
def ExactText (p : Printer Dbl T) (a : NdArr Dbl) : Prop := p.read (p.text a) = .ok a

/-- The arrays in objects. -/
def mediumArrays : MediumObj Dbl → List (NdArr Dbl)
  | .table w n => [.vec w, .vec n]
  | _ => []

mutual
def surfaceArrays : SurfaceObj Dbl → List (NdArr Dbl)
  | .asphere _ _ cs _ => [.vec cs]
  | .zernike cs _ _ _ _ => [.vec cs]
  | .bicubic xs ys zs zx zy zxy _ => [.vec xs, .vec ys, .mat zs, .mat zx, .mat zy, .mat zxy]
  | .sum ss => surfacesArrays ss
  | _ => []
def surfacesArrays : List (SurfaceObj Dbl) → List (NdArr Dbl)
  | [] => []
  | s :: ss => surfaceArrays s ++ surfacesArrays ss
end

mutual
def obscArrays : Obsc Dbl → List (NdArr Dbl)
  | .polygon ps => [.vec (ps.map Prod.fst), .vec (ps.map Prod.snd)]
  | .negation o => obscArrays o
  | .union os => obscsArrays os
  | .intersection os => obscsArrays os
  | _ => []
def obscsArrays : List (Obsc Dbl) → List (NdArr Dbl)
  | [] => []
  | o :: os => obscArrays o ++ obscsArrays os
end

def coordSysArrays (c : CoordSys Dbl) : List (NdArr Dbl) := [.vec (originList c), .mat (rotRows c)]

mutual
/-- What the constructors demand: batoid/surface.py L384-387, L542. -/
def LegalSurface : SurfaceObj Dbl → Prop
  | .asphere _ _ _ imin => 0 < imin
  | .bicubic _ _ _ _ _ _ np => upper np = "NAN".toList ∨ upper np = "ZERO".toList
  | .sum ss => LegalSurfaces ss
  | _ => True
def LegalSurfaces : List (SurfaceObj Dbl) → Prop
  | [] => True
  | s :: ss => LegalSurface s ∧ LegalSurfaces ss
end

mutual
/-- The policies are spelled as documented. -/
def Spelled : SurfaceObj Dbl → Prop
  | .bicubic _ _ _ _ _ _ np => np = "nan".toList ∨ np = "zero".toList
  | .sum ss => Spelleds ss
  | _ => True
def Spelleds : List (SurfaceObj Dbl) → Prop
  | [] => True
  | s :: ss => Spelled s ∧ Spelleds ss
end

mutual
/-- What the constructors make: unions and intersections have items, in the order of their texts (batoid/obscuration.py L385, L467). -/
def LegalObsc (key : Obsc Dbl → List Char) : Obsc Dbl → Prop
  | .negation o => LegalObsc key o
  | .union os => os ≠ [] ∧ os.Pairwise (fun a b => key a ≤ key b) ∧ LegalObscs key os
  | .intersection os => os ≠ [] ∧ os.Pairwise (fun a b => key a ≤ key b) ∧ LegalObscs key os
  | _ => True
def LegalObscs (key : Obsc Dbl → List Char) : List (Obsc Dbl) → Prop
  | [] => True
  | o :: os => LegalObsc key o ∧ LegalObscs key os
end

/-- The sorting key is computed from what is printed. -/
def TextKey (p : Printer Dbl T) (key : Obsc Dbl → List Char) : Prop := ∀ o o', obscRepr p o = obscRepr p o' → key o = key o'

/-- The parts of an interface. -/
def screenOf (k : KindObj Dbl) : List (SurfaceObj Dbl) := match k with
  | .screen s => [s]
  | _ => []

mutual
def opticArrays : OpticObj Dbl → List (NdArr Dbl)
  | .iface d => surfacesArrays (d.surface :: screenOf d.kind) ++ obscsArrays d.obscuration.toList ++ coordSysArrays d.coordSys ++ mediumArrays d.inMedium ++ mediumArrays d.outMedium
  | .compound d items => opticsArrays items ++ coordSysArrays d.coordSys ++ mediumArrays d.inMedium ++ mediumArrays d.outMedium
def opticsArrays : List (OpticObj Dbl) → List (NdArr Dbl)
  | [] => []
  | o :: os => opticArrays o ++ opticsArrays os
end

/-- The medium behind the first of two items is that before the second: batoid/optic.py L1758-1761. -/
def Joined : List (OpticObj Dbl) → Prop
  | [a, b] => (opticOut a).eq (opticIn b) = .ok true
  | _ => False

mutual
/-- What the constructors demand: batoid/optic.py L886-890, L1758-1761; and there are items. -/
def LegalOptic (key : Obsc Dbl → List Char) : OpticObj Dbl → Prop
  | .iface d => LegalSurfaces (d.surface :: screenOf d.kind) ∧ LegalObscs key d.obscuration.toList ∧ (screenOf d.kind ≠ [] → d.inMedium.eq d.outMedium = .ok true)
  | .compound d items => items ≠ [] ∧ (d.isLens = true → Joined items) ∧ LegalOptics key items
def LegalOptics (key : Obsc Dbl → List Char) : List (OpticObj Dbl) → Prop
  | [] => True
  | o :: os => LegalOptic key o ∧ LegalOptics key os
end

mutual
def SpelledOptic : OpticObj Dbl → Prop
  | .iface d => Spelleds (d.surface :: screenOf d.kind)
  | .compound _ items => SpelledOptics items
def SpelledOptics : List (OpticObj Dbl) → Prop
  | [] => True
  | o :: os => SpelledOptic o ∧ SpelledOptics os
end

/-- The coatings of a new interface: those of clear glass, a mirror, or none. -/
noncomputable def newCoatings (k : KindObj Dbl) : Option (CoatingObj Dbl) × Option (CoatingObj Dbl) :=
  match k with
  | .refractive => (some ⟨0, 1⟩, some ⟨0, 1⟩)
  | .baffle => (some ⟨0, 1⟩, some ⟨0, 1⟩)
  | .mirror => (some ⟨1, 0⟩, some ⟨1, 0⟩)
  | .detector => (some ⟨0, 1⟩, none)
  | .plain => (none, none)
  | .screen _ => (none, none)

mutual
/-- The optic with new coatings, without `skip` and `stopSurface`. -/
noncomputable def forget : OpticObj Dbl → OpticObj Dbl
  | .iface d => .iface { d with skip := false, forwardCoating := (newCoatings d.kind).1, reverseCoating := (newCoatings d.kind).2, stop := none }
  | .compound d items => .compound { d with skip := false, stop := none } (forgets items)
noncomputable def forgets : List (OpticObj Dbl) → List (OpticObj Dbl)
  | [] => []
  | o :: os => forget o :: forgets os
end

/-! ## Evaluation of calls -/

variable {p : Printer Dbl T} {key : Obsc Dbl → List Char}

theorem evals_cons {e : Expr Dbl T} {es : List (Expr Dbl T)} {v : Val Dbl} {vs : List (Val Dbl)} (h : eval p key e = .ok v) (hs : evals p key es = .ok vs) :
    evals p key (e :: es) = .ok (v :: vs) := by
  simp [evals, h, hs]

theorem evals_append {es es' : List (Expr Dbl T)} {vs vs' : List (Val Dbl)} (h : evals p key es = .ok vs) (h' : evals p key es' = .ok vs') :
    evals p key (es ++ es') = .ok (vs ++ vs') := by
  induction es generalizing vs with
  | nil => simp [evals] at h; subst h; simpa using h'
  | cons e es ih =>
    simp only [evals, List.cons_append] at h ⊢
    cases he : eval p key e with
    | error => simp [he] at h
    | ok v =>
      cases hes : evals p key es with
      | error => simp [he, hes] at h
      | ok ws =>
        simp [he, hes] at h
        subst h
        simp [ih hes]

theorem evals_length {es : List (Expr Dbl T)} {vs : List (Val Dbl)} (h : evals p key es = .ok vs) : vs.length = es.length := by
  induction es generalizing vs with
  | nil => simp [evals] at h; subst h; rfl
  | cons e es ih =>
    simp only [evals] at h
    cases he : eval p key e with
    | error => simp [he] at h
    | ok v =>
      cases hes : evals p key es with
      | error => simp [he, hes] at h
      | ok ws =>
        simp [he, hes] at h
        subst h
        simp [ih hes]

theorem eval_callKw {c : Cls} {es : List (Expr Dbl T)} {kws : List (Kw × Expr Dbl T)} {vs ws : List (Val Dbl)} (h : evals p key es = .ok vs)
    (hw : evals p key (kws.map Prod.snd) = .ok ws) : eval p key (callKw c es kws) = construct key c vs ((kws.map Prod.fst).zip ws) := by
  have hl := evals_length hw
  simp only [List.length_map] at hl
  simp [callKw, eval, evals_append h hw, hl]

theorem eval_call {c : Cls} {es : List (Expr Dbl T)} {vs : List (Val Dbl)} (h : evals p key es = .ok vs) : eval p key (.call c es []) = construct key c vs [] := by
  simp [eval, h]

theorem eval_arr {a b : NdArr Dbl} (h : Reads p a b) : eval p key (.arr (p.text a)) = .ok (.arr b) := by simp [eval, h.read]

theorem eq_fin_true {x : Dbl} {r : ℝ} (h : Arith.eq x (.fin r) = true) : x = .fin r := by
  cases x <;> simp_all [Arith.eq, Dbl.eq]

theorem kw_beq (a b : Kw) : (a == b) = decide (a = b) := rfl

theorem ifNot_eval (x : Dbl) (r : ℝ) (k : Kw) : ∃ ws, evals p key ((ifNot (T := T) x (.fin r) k).map Prod.snd) = .ok ws ∧
    ((x = .fin r ∧ ifNot (T := T) x (.fin r) k = [] ∧ ws = []) ∨ (ifNot (T := T) x (.fin r) k = [(k, .num x)] ∧ ws = [.num x])) := by
  by_cases h : Arith.eq x (.fin r) = true
  · exact ⟨[], by simp [ifNot, h, evals], Or.inl ⟨eq_fin_true h, by simp [ifNot, h], rfl⟩⟩
  · exact ⟨[.num x], by simp [ifNot, h, evals, eval], Or.inr ⟨by simp [ifNot, h], rfl⟩⟩

/-! ## Media, coatings, frames -/

theorem vec_reads {a : List Dbl} {y : NdArr Dbl} (h : Reads p (.vec a) y) : ∃ b, y = .vec b ∧ a.length = b.length := by
  have := h.shape
  cases y <;> simp [LikeArr] at this
  exact ⟨_, rfl, this.1⟩

theorem mat_reads {a : List (List Dbl)} {y : NdArr Dbl} (h : Reads p (.mat a) y) : ∃ b, y = .mat b ∧ a.map List.length = b.map List.length := by
  have := h.shape
  cases y <;> simp [LikeArr] at this
  exact ⟨_, rfl, this⟩

theorem exact_vec {a b : List Dbl} (h : Reads p (.vec a) (.vec b)) (he : ExactText p (.vec a)) : b = a := by
  have := h.read.symm.trans he
  simpa using this

theorem exact_mat {a b : List (List Dbl)} (h : Reads p (.mat a) (.mat b)) (he : ExactText p (.mat a)) : b = a := by
  have := h.read.symm.trans he
  simpa using this

theorem medium_back (m : MediumObj Dbl) (h : ∀ a ∈ mediumArrays m, Readable p a) : ∃ m', eval p key (mediumRepr p m) = .ok (.medium m') ∧
    mediumRepr p m' = mediumRepr p m ∧ ((∀ a ∈ mediumArrays m, ExactText p a) → m' = m) := by
  cases m with
  | const n => exact ⟨.const n, by simp [mediumRepr, eval, evals, construct, bindArgs, required, fill], rfl, fun _ => rfl⟩
  | table w n =>
    obtain ⟨w', hw⟩ := h (.vec w) (by simp [mediumArrays])
    obtain ⟨n', hn⟩ := h (.vec n) (by simp [mediumArrays])
    obtain ⟨w', rfl, -⟩ := vec_reads hw
    obtain ⟨n', rfl, -⟩ := vec_reads hn
    refine ⟨.table w' n', ?_, by simp [mediumRepr, hw.text, hn.text], fun he => ?_⟩
    · rw [mediumRepr, eval_call (evals_cons (eval_arr hw) (evals_cons (eval_arr hn) rfl))]
      simp [construct, bindArgs, required, fill]
    · rw [exact_vec hw (he _ (by simp [mediumArrays])), exact_vec hn (he _ (by simp [mediumArrays]))]
  | sellmeier a b c d e f => exact ⟨.sellmeier a b c d e f, by simp [mediumRepr, eval, evals, construct, sixOf], rfl, fun _ => rfl⟩
  | sumita a b c d e f => exact ⟨.sumita a b c d e f, by simp [mediumRepr, eval, evals, construct, sixOf], rfl, fun _ => rfl⟩
  | air q t h' => exact ⟨.air q t h', by simp [mediumRepr, eval, evals, construct, bindArgs, required, fill], rfl, fun _ => rfl⟩

theorem coordSys_back (c : CoordSys Dbl) (h : ∀ a ∈ coordSysArrays c, Readable p a) : ∃ c', eval p key (coordSysRepr p c) = .ok (.coordSys c') ∧
    coordSysRepr p c' = coordSysRepr p c ∧ ((∀ a ∈ coordSysArrays c, ExactText p a) → c' = c) := by
  obtain ⟨o', ho⟩ := h (.vec (originList c)) (by simp [coordSysArrays])
  obtain ⟨r', hr⟩ := h (.mat (rotRows c)) (by simp [coordSysArrays])
  obtain ⟨o', rfl, hol⟩ := vec_reads ho
  obtain ⟨r', rfl, hrl⟩ := mat_reads hr
  obtain ⟨x, y, z, rfl⟩ : ∃ x y z, o' = [x, y, z] := by
    rcases o' with _ | ⟨x, _ | ⟨y, _ | ⟨z, _ | ⟨w, l⟩⟩⟩⟩ <;> simp [originList] at hol ⊢
  have three : ∀ l : List Dbl, l.length = 3 → ∃ x y z, l = [x, y, z] := by
    intro l hl
    rcases l with _ | ⟨x, _ | ⟨y, _ | ⟨z, _ | ⟨w, l⟩⟩⟩⟩ <;> simp at hl ⊢
  obtain ⟨l1, l2, l3, rfl⟩ : ∃ l1 l2 l3, r' = [l1, l2, l3] := by
    rcases r' with _ | ⟨x, _ | ⟨y, _ | ⟨z, _ | ⟨w, l⟩⟩⟩⟩ <;> simp [rotRows] at hrl ⊢
  simp only [rotRows, List.map_cons, List.length_cons, List.length_nil, List.map_nil, List.cons.injEq, and_true] at hrl
  obtain ⟨x1, y1, z1, rfl⟩ := three l1 hrl.1.symm
  obtain ⟨x2, y2, z2, rfl⟩ := three l2 hrl.2.1.symm
  obtain ⟨x3, y3, z3, rfl⟩ := three l3 hrl.2.2.symm
  refine ⟨⟨⟨x, y, z⟩, ⟨x1, y1, z1, x2, y2, z2, x3, y3, z3⟩⟩, ?_, ?_, fun he => ?_⟩
  · rw [coordSysRepr, eval_call (evals_cons (eval_arr ho) (evals_cons (eval_arr hr) rfl))]
    simp [construct, bindArgs, fill, mkCoordSys]
  · simp only [coordSysRepr]
    rw [show NdArr.vec (originList (⟨⟨x, y, z⟩, ⟨x1, y1, z1, x2, y2, z2, x3, y3, z3⟩⟩ : CoordSys Dbl)) = .vec [x, y, z] from rfl, ho.text,
      show NdArr.mat (rotRows (⟨⟨x, y, z⟩, ⟨x1, y1, z1, x2, y2, z2, x3, y3, z3⟩⟩ : CoordSys Dbl)) = .mat [[x1, y1, z1], [x2, y2, z2], [x3, y3, z3]] from rfl, hr.text]
  · have e1 := exact_vec ho (he _ (by simp [coordSysArrays]))
    have e2 := exact_mat hr (he _ (by simp [coordSysArrays]))
    obtain ⟨⟨a, b, d⟩, ⟨m11, m12, m13, m21, m22, m23, m31, m32, m33⟩⟩ := c
    simp [originList, rotRows] at e1 e2
    simp [e1, e2]

/-! ## Surfaces -/

mutual
theorem surface_back : ∀ s : SurfaceObj Dbl, (∀ a ∈ surfaceArrays s, Readable p a) → LegalSurface s → ∃ s', eval p key (surfaceRepr p s) = .ok (.surface s') ∧
    surfaceRepr p s' = surfaceRepr p s ∧ LegalSurface s' ∧ ((∀ a ∈ surfaceArrays s, ExactText p a) → Spelled s → s' = s)
  | .plane => fun _ _ => ⟨.plane, by simp [surfaceRepr, eval, evals, construct, bindArgs, fill], rfl, trivial, fun _ _ => rfl⟩
  | .tilted a b => fun _ _ => ⟨.tilted a b, by simp [surfaceRepr, eval, evals, construct, bindArgs, required, fill], rfl, trivial, fun _ _ => rfl⟩
  | .paraboloid R => fun _ _ => ⟨.paraboloid R, by simp [surfaceRepr, eval, evals, construct, bindArgs, required, fill], rfl, trivial, fun _ _ => rfl⟩
  | .sphere R => fun _ _ => ⟨.sphere R, by simp [surfaceRepr, eval, evals, construct, bindArgs, required, fill], rfl, trivial, fun _ _ => rfl⟩
  | .quadric R k => fun _ _ => ⟨.quadric R k, by simp [surfaceRepr, eval, evals, construct, bindArgs, required, fill], rfl, trivial, fun _ _ => rfl⟩
  | .asphere R k cs imin => fun h hl => by
    obtain ⟨c', hc⟩ := h (.vec cs) (by simp [surfaceArrays])
    obtain ⟨c', rfl, -⟩ := vec_reads hc
    have hl' : 0 < imin := hl
    refine ⟨.asphere R k c' imin, ?_, by simp [surfaceRepr, hc.text], hl, fun he _ => by rw [exact_vec hc (he _ (by simp [surfaceArrays]))]⟩
    have ha : evals p key [.num R, .num k, .arr (p.text (.vec cs))] = .ok [.num R, .num k, .arr (.vec c')] := evals_cons rfl (evals_cons rfl (evals_cons (eval_arr hc) rfl))
    rw [surfaceRepr]
    by_cases h2 : imin = 2
    · subst h2
      rw [eval_callKw ha (ws := []) (by simp [evals])]
      simp [construct, bindArgs, required, fill]
    · rw [eval_callKw ha (ws := [.int imin]) (by simp [h2, evals, eval])]
      simp [construct, bindArgs, required, fill, h2, hl']
  | .zernike cs outer inner x0 y0 => fun h _ => by
    obtain ⟨c', hc⟩ := h (.vec cs) (by simp [surfaceArrays])
    obtain ⟨c', rfl, -⟩ := vec_reads hc
    refine ⟨.zernike c' outer inner x0 y0, ?_, by simp [surfaceRepr, hc.text], trivial, fun he _ => by rw [exact_vec hc (he _ (by simp [surfaceArrays]))]⟩
    have ha : evals p key [.arr (p.text (.vec cs))] = .ok [.arr (.vec c')] := evals_cons (eval_arr hc) rfl
    rw [surfaceRepr]
    simp only [Dbl.one_dbl, Dbl.zero_dbl]
    obtain ⟨w1, e1, g1⟩ := ifNot_eval (p := p) (key := key) outer 1 .R_outer
    obtain ⟨w2, e2, g2⟩ := ifNot_eval (p := p) (key := key) inner 0 .R_inner
    obtain ⟨w3, e3, g3⟩ := ifNot_eval (p := p) (key := key) x0 0 .x_origin
    obtain ⟨w4, e4, g4⟩ := ifNot_eval (p := p) (key := key) y0 0 .y_origin
    rw [eval_callKw ha (ws := ((w1 ++ w2) ++ w3) ++ w4) (by simp only [List.map_append]; exact evals_append (evals_append (evals_append e1 e2) e3) e4)]
    rcases g1 with ⟨q1, r1, rfl⟩ | ⟨r1, rfl⟩ <;> rcases g2 with ⟨q2, r2, rfl⟩ | ⟨r2, rfl⟩ <;> rcases g3 with ⟨q3, r3, rfl⟩ | ⟨r3, rfl⟩ <;>
      rcases g4 with ⟨q4, r4, rfl⟩ | ⟨r4, rfl⟩ <;> rw [r1, r2, r3, r4] <;> simp [construct, bindArgs, required, fill, List.lookup, kw_beq, *]
  | .bicubic xs ys zs zx zy zxy np => fun h hl => by
    obtain ⟨xs', h1⟩ := h (.vec xs) (by simp [surfaceArrays])
    obtain ⟨ys', h2⟩ := h (.vec ys) (by simp [surfaceArrays])
    obtain ⟨zs', h3⟩ := h (.mat zs) (by simp [surfaceArrays])
    obtain ⟨zx', h4⟩ := h (.mat zx) (by simp [surfaceArrays])
    obtain ⟨zy', h5⟩ := h (.mat zy) (by simp [surfaceArrays])
    obtain ⟨zxy', h6⟩ := h (.mat zxy) (by simp [surfaceArrays])
    obtain ⟨xs', rfl, -⟩ := vec_reads h1
    obtain ⟨ys', rfl, -⟩ := vec_reads h2
    obtain ⟨zs', rfl, -⟩ := mat_reads h3
    obtain ⟨zx', rfl, -⟩ := mat_reads h4
    obtain ⟨zy', rfl, -⟩ := mat_reads h5
    obtain ⟨zxy', rfl, -⟩ := mat_reads h6
    have ha : evals p key [.arr (p.text (.vec xs)), .arr (p.text (.vec ys)), .arr (p.text (.mat zs)), .arr (p.text (.mat zx)), .arr (p.text (.mat zy)), .arr (p.text (.mat zxy))]
        = .ok [.arr (.vec xs'), .arr (.vec ys'), .arr (.mat zs'), .arr (.mat zx'), .arr (.mat zy'), .arr (.mat zxy')] :=
      evals_cons (eval_arr h1) (evals_cons (eval_arr h2) (evals_cons (eval_arr h3) (evals_cons (eval_arr h4) (evals_cons (eval_arr h5) (evals_cons (eval_arr h6) rfl)))))
    have un : upper "nan".toList = "NAN".toList := by decide
    have uz : upper "zero".toList = "ZERO".toList := by decide
    have un' : upper ['n', 'a', 'n'] = ['N', 'A', 'N'] := by decide
    have uz' : upper ['z', 'e', 'r', 'o'] = ['Z', 'E', 'R', 'O'] := by decide
    have unz : "ZERO".toList ≠ "NAN".toList := by decide
    by_cases hn : upper np = "NAN".toList
    · refine ⟨.bicubic xs' ys' zs' zx' zy' zxy' "nan".toList, ?_, ?_, Or.inl un, fun he hsp => ?_⟩
      · rw [surfaceRepr, if_pos hn, eval_callKw ha (ws := []) (by simp [evals])]
        simp [construct, bindArgs, required, fill, un']
      · simp only [surfaceRepr, h1.text, h2.text, h3.text, h4.text, h5.text, h6.text, hn, un]
      · rw [exact_vec h1 (he _ (by simp [surfaceArrays])), exact_vec h2 (he _ (by simp [surfaceArrays])), exact_mat h3 (he _ (by simp [surfaceArrays])),
          exact_mat h4 (he _ (by simp [surfaceArrays])), exact_mat h5 (he _ (by simp [surfaceArrays])), exact_mat h6 (he _ (by simp [surfaceArrays]))]
        rcases hsp with rfl | rfl
        · rfl
        · exact absurd (uz.symm.trans hn) unz
    · refine ⟨.bicubic xs' ys' zs' zx' zy' zxy' "zero".toList, ?_, ?_, Or.inr uz, fun he hsp => ?_⟩
      · rw [surfaceRepr, if_neg hn, eval_callKw ha (ws := [.str "zero".toList]) (by simp [evals, eval])]
        simp [construct, bindArgs, required, fill, uz']
      · simp only [surfaceRepr, h1.text, h2.text, h3.text, h4.text, h5.text, h6.text, hn, uz, unz]
      · rw [exact_vec h1 (he _ (by simp [surfaceArrays])), exact_vec h2 (he _ (by simp [surfaceArrays])), exact_mat h3 (he _ (by simp [surfaceArrays])),
          exact_mat h4 (he _ (by simp [surfaceArrays])), exact_mat h5 (he _ (by simp [surfaceArrays])), exact_mat h6 (he _ (by simp [surfaceArrays]))]
        rcases hsp with rfl | rfl
        · exact absurd un hn
        · rfl
  | .sum ss => fun h hl => by
    obtain ⟨ss', h1, h2, h3, h4⟩ := surfaces_back ss h hl
    refine ⟨.sum ss', ?_, by simp [surfaceRepr, h2], h3, fun he hsp => by rw [h4 he hsp]⟩
    have hs : eval p key (.tuple (surfaceReprs p ss)) = .ok (.seq (ss'.map .surface)) := by simp [eval, h1]
    rw [surfaceRepr, eval_call (evals_cons hs rfl)]
    have : ∀ l : List (SurfaceObj Dbl), asSurfaces (l.map .surface) = some l := by
      intro l
      induction l with
      | nil => rfl
      | cons s l ih => simp [asSurfaces, ih]
    simp [construct, this]
theorem surfaces_back : ∀ ss : List (SurfaceObj Dbl), (∀ a ∈ surfacesArrays ss, Readable p a) → LegalSurfaces ss → ∃ ss' : List (SurfaceObj Dbl),
    evals p key (surfaceReprs p ss) = .ok (ss'.map .surface) ∧
    surfaceReprs p ss' = surfaceReprs p ss ∧ LegalSurfaces ss' ∧ ((∀ a ∈ surfacesArrays ss, ExactText p a) → Spelleds ss → ss' = ss)
  | [] => fun _ _ => ⟨[], rfl, rfl, trivial, fun _ _ => rfl⟩
  | s :: ss => fun h hl => by
    obtain ⟨s', a1, a2, a3, a4⟩ := surface_back s (fun a ha => h a (by simp [surfacesArrays, ha])) hl.1
    obtain ⟨ss', b1, b2, b3, b4⟩ := surfaces_back ss (fun a ha => h a (by simp [surfacesArrays, ha])) hl.2
    refine ⟨s' :: ss', evals_cons a1 b1, by simp [surfaceReprs, a2, b2], ⟨a3, b3⟩, fun he hsp => ?_⟩
    rw [a4 (fun a ha => he a (by simp [surfacesArrays, ha])) hsp.1, b4 (fun a ha => he a (by simp [surfacesArrays, ha])) hsp.2]
end

/-! ## Obscurations -/

theorem centre_eval (x y : Dbl) : ∃ ws, evals p key (centre (T := T) x y) = .ok ws ∧ ((x = .fin 0 ∧ y = .fin 0 ∧ ws = []) ∨ ws = [.num x, .num y]) := by
  by_cases h : (Arith.eq x (0 : Dbl) && Arith.eq y (0 : Dbl)) = true
  · refine ⟨[], by simp only [centre, h, if_true, evals], Or.inl ?_⟩
    simp only [Bool.and_eq_true, Dbl.zero_dbl] at h
    exact ⟨eq_fin_true h.1, eq_fin_true h.2, rfl⟩
  · exact ⟨[.num x, .num y], by simp only [centre, h, if_false, evals, eval, Bool.false_eq_true], Or.inr rfl⟩

theorem asObscs_map (l : List (Obsc Dbl)) : asObscs (l.map .obsc) = some l := by
  induction l with
  | nil => rfl
  | cons s l ih => simp [asObscs, ih]

theorem union_args {l : List (Obsc Dbl)} (h : l ≠ []) :
    construct key .union (l.map .obsc) [] = .ok (.obsc (ObscObj.mkUnion key l)) ∧
      construct key .intersection (l.map .obsc) [] = .ok (.obsc (ObscObj.mkIntersection key l)) := by
  have := asObscs_map l
  match l, h with
  | [a], _ => exact ⟨rfl, rfl⟩
  | a :: b :: l, _ => simp [construct, this] at this ⊢; simp [this]

theorem sort_id {l : List (Obsc Dbl)} (h : l.Pairwise fun a b => key a ≤ key b) : ObscObj.sortItems key l = l := by
  apply List.mergeSort_of_pairwise
  simpa using h

theorem pairwise_key {l l' : List (Obsc Dbl)} (h : l'.map key = l.map key) (hp : l.Pairwise fun a b => key a ≤ key b) : l'.Pairwise fun a b => key a ≤ key b := by
  have h1 : (l.map key).Pairwise (· ≤ ·) := by simpa [List.pairwise_map] using hp
  rw [← h] at h1
  simpa [List.pairwise_map] using h1

mutual
theorem obsc_back (hkey : TextKey p key) : ∀ o : Obsc Dbl, (∀ a ∈ obscArrays o, Readable p a) → LegalObsc key o → ∃ e o', obscRepr p o = .ok e ∧ eval p key e = .ok (.obsc o') ∧
    obscRepr p o' = .ok e ∧ ((∀ a ∈ obscArrays o, ExactText p a) → o' = o)
  | .circle r x y => fun _ _ => by
    refine ⟨_, .circle r x y, rfl, ?_, rfl, fun _ => rfl⟩
    obtain ⟨w, e, g⟩ := centre_eval (p := p) (key := key) x y
    rw [eval_call (evals_append (vs := [.num r]) rfl e)]
    rcases g with ⟨rfl, rfl, rfl⟩ | rfl <;> simp [construct, bindArgs, required, fill]
  | .annulus i o x y => fun _ _ => by
    refine ⟨_, .annulus i o x y, rfl, ?_, rfl, fun _ => rfl⟩
    obtain ⟨w, e, g⟩ := centre_eval (p := p) (key := key) x y
    rw [eval_call (evals_append (vs := [.num i, .num o]) rfl e)]
    rcases g with ⟨rfl, rfl, rfl⟩ | rfl <;> simp [construct, bindArgs, required, fill]
  | .rectangle w h x y θ => fun _ _ => by
    refine ⟨_, .rectangle w h x y θ, rfl, ?_, rfl, fun _ => rfl⟩
    obtain ⟨w', e, g⟩ := centre_eval (p := p) (key := key) x y
    rw [Dbl.zero_dbl]
    obtain ⟨w1, e1, g1⟩ := ifNot_eval (p := p) (key := key) θ 0 .theta
    rw [eval_callKw (evals_append (vs := [.num w, .num h]) rfl e) e1]
    rcases g with ⟨rfl, rfl, rfl⟩ | rfl <;> rcases g1 with ⟨q1, r1, rfl⟩ | ⟨r1, rfl⟩ <;> rw [r1] <;> simp [construct, bindArgs, required, fill, List.lookup, kw_beq, *]
  | .ray w θ x y => fun _ _ => by
    refine ⟨_, .ray w θ x y, rfl, ?_, rfl, fun _ => rfl⟩
    obtain ⟨w', e, g⟩ := centre_eval (p := p) (key := key) x y
    rw [eval_call (evals_append (vs := [.num w, .num θ]) rfl e)]
    rcases g with ⟨rfl, rfl, rfl⟩ | rfl <;> simp [construct, bindArgs, required, fill]
  | .polygon ps => fun h _ => by
    obtain ⟨xs, hx⟩ := h (.vec (ps.map Prod.fst)) (by simp [obscArrays])
    obtain ⟨ys, hy⟩ := h (.vec (ps.map Prod.snd)) (by simp [obscArrays])
    obtain ⟨xs, rfl, lx⟩ := vec_reads hx
    obtain ⟨ys, rfl, ly⟩ := vec_reads hy
    simp only [List.length_map] at lx ly
    refine ⟨_, .polygon (xs.zip ys), rfl, ?_, ?_, fun he => ?_⟩
    · rw [eval_call (evals_cons (eval_arr hx) (evals_cons (eval_arr hy) rfl))]
      simp [construct, bindArgs, required, fill]
    · simp only [obscRepr]
      rw [List.map_fst_zip (by omega), List.map_snd_zip (by omega), hx.text, hy.text]
    · rw [exact_vec hx (he _ (by simp [obscArrays])), exact_vec hy (he _ (by simp [obscArrays]))]
      congr 1
      induction ps with
      | nil => rfl
      | cons q ps ih => simp [List.zip_map']
  | .negation o => fun h hl => by
    obtain ⟨e, o', h1, h2, h3, h4⟩ := obsc_back hkey o h hl
    refine ⟨.call .negation [e] [], .negation o', by simp [obscRepr, h1], ?_, by simp [obscRepr, h3], fun he => by rw [h4 he]⟩
    rw [eval_call (evals_cons h2 rfl)]
    simp [construct, bindArgs, required, fill]
  | .union os => fun h hl => by
    obtain ⟨es, os', h1, h2, h3, h4, h5⟩ := obscs_back hkey os h hl.2.2
    have hn' : os' ≠ [] := by
      rintro rfl
      exact hl.1 (List.map_eq_nil_iff.1 h4.symm)
    have hn : es ≠ [] := by
      rintro rfl
      simp [evals] at h2
      exact hn' h2
    obtain ⟨e, es, rfl⟩ := List.exists_cons_of_ne_nil hn
    refine ⟨.call .union (e :: es) [], .union os', by simp [obscRepr, h1, itemsCall], ?_, by simp [obscRepr, h3, itemsCall], fun he => by rw [h5 he]⟩
    rw [eval_call h2, (union_args hn').1, ObscObj.mkUnion, sort_id (pairwise_key h4 hl.2.1)]
  | .intersection os => fun h hl => by
    obtain ⟨es, os', h1, h2, h3, h4, h5⟩ := obscs_back hkey os h hl.2.2
    have hn' : os' ≠ [] := by
      rintro rfl
      exact hl.1 (List.map_eq_nil_iff.1 h4.symm)
    have hn : es ≠ [] := by
      rintro rfl
      simp [evals] at h2
      exact hn' h2
    obtain ⟨e, es, rfl⟩ := List.exists_cons_of_ne_nil hn
    refine ⟨.call .intersection (e :: es) [], .intersection os', by simp [obscRepr, h1, itemsCall], ?_, by simp [obscRepr, h3, itemsCall], fun he => by rw [h5 he]⟩
    rw [eval_call h2, (union_args hn').2, ObscObj.mkIntersection, sort_id (pairwise_key h4 hl.2.1)]
theorem obscs_back (hkey : TextKey p key) : ∀ os : List (Obsc Dbl), (∀ a ∈ obscsArrays os, Readable p a) → LegalObscs key os → ∃ (es : List (Expr Dbl T)) (os' : List (Obsc Dbl)),
    obscReprs p os = .ok es ∧ evals p key es = .ok (os'.map .obsc) ∧ obscReprs p os' = .ok es ∧ os'.map key = os.map key ∧ ((∀ a ∈ obscsArrays os, ExactText p a) → os' = os)
  | [] => fun _ _ => ⟨[], [], rfl, rfl, rfl, rfl, fun _ => rfl⟩
  | o :: os => fun h hl => by
    obtain ⟨e, o', a1, a2, a3, a4⟩ := obsc_back hkey o (fun a ha => h a (by simp [obscsArrays, ha])) hl.1
    obtain ⟨es, os', b1, b2, b3, b4, b5⟩ := obscs_back hkey os (fun a ha => h a (by simp [obscsArrays, ha])) hl.2
    refine ⟨e :: es, o' :: os', by simp [obscReprs, a1, b1], evals_cons a2 b2, by simp [obscReprs, a3, b3], ?_, fun he => ?_⟩
    · simp only [List.map_cons, b4]
      rw [hkey o' o (a3.trans a1.symm)]
    · rw [a4 (fun a ha => he a (by simp [obscsArrays, ha])), b5 (fun a ha => he a (by simp [obscsArrays, ha]))]
end

/-! ## Optics -/

/-- What becomes of a medium that is an attribute of an optic: a vacuum is not printed. -/
def MedBack (p : Printer Dbl T) (key : Obsc Dbl → List Char) (m m' : MediumObj Dbl) : Prop :=
  if isVacuum m then m' = vacuumObj else eval p key (mediumRepr p m) = .ok (.medium m')

theorem medBack_fun {m a b : MediumObj Dbl} (ha : MedBack p key m a) (hb : MedBack p key m b) : a = b := by
  unfold MedBack at ha hb
  split at ha
  · simp_all
  · rename_i h
    rw [if_neg h, ha] at hb
    simpa using hb

theorem vacuum_eq {m : MediumObj Dbl} (h : isVacuum m = true) : m = vacuumObj := by
  unfold isVacuum at h
  split at h
  · subst h
    rename_i h
    exact mediumEq_eq h
  · simp at h

theorem medBack (m : MediumObj Dbl) (h : ∀ a ∈ mediumArrays m, Readable p a) : ∃ m', MedBack p key m m' ∧ isVacuum m' = isVacuum m ∧ mediumRepr p m' = mediumRepr p m ∧
    (m.eq m = .ok true → m'.eq m' = .ok true) ∧ ((∀ a ∈ mediumArrays m, ExactText p a) → m' = m) := by
  by_cases hv : isVacuum m = true
  · have := vacuum_eq hv
    subst this
    exact ⟨vacuumObj, by simp [MedBack, hv], rfl, rfl, id, fun _ => rfl⟩
  · obtain ⟨m', h1, h2, h3⟩ := medium_back (key := key) m h
    refine ⟨m', by simp [MedBack, hv, h1], ?_, h2, ?_, h3⟩
    · cases m <;> cases m' <;> simp [mediumRepr] at h2 <;> simp [isVacuum, MediumObj.eq, vacuumObj, h2]
    · intro he
      cases m with
      | table w n =>
        cases m' with
        | table w' n' =>
          obtain ⟨a, ha⟩ := h (.vec w) (by simp [mediumArrays])
          obtain ⟨b, hb⟩ := h (.vec n) (by simp [mediumArrays])
          simp only [mediumRepr] at h1
          rw [eval_call (evals_cons (eval_arr ha) (evals_cons (eval_arr hb) rfl))] at h1
          obtain ⟨a, rfl, -⟩ := vec_reads ha
          obtain ⟨b, rfl, -⟩ := vec_reads hb
          simp [construct, bindArgs, required, fill] at h1
          obtain ⟨rfl, rfl⟩ := h1
          simp [MediumObj.eq, arrayEqual] at he ⊢
          exact ⟨ha.shape.2 he.1, hb.shape.2 he.2⟩
        | _ => simp [mediumRepr] at h2
      | _ => cases m' <;> simp [mediumRepr] at h2 <;> simpa [h2] using he

/-- The arguments of an interface or compound: what is not printed is the default. -/
theorem bind_optic {ps : List (Kw × Option (Val Dbl))} {pos : List (Val Dbl)} (hl : ps.length = pos.length) {name : Name} {c : CoordSys Dbl} {ws1 ws2 : List (Val Dbl)}
    {ks1 ks2 : List Kw} {m1 m2 : MediumObj Dbl}
    (h1 : (ks1 = [] ∧ ws1 = [] ∧ m1 = vacuumObj) ∨ (ks1 = [.inMedium] ∧ ws1 = [.medium m1]))
    (h2 : (ks2 = [] ∧ ws2 = [] ∧ m2 = vacuumObj) ∨ (ks2 = [.outMedium] ∧ ws2 = [.medium m2])) :
    bindArgs (ps ++ opticParams) pos (([Kw.name, Kw.coordSys] ++ ks1 ++ ks2).zip ([Val.str name, Val.coordSys c] ++ ws1 ++ ws2)) =
        .ok (pos ++ [.str name, .coordSys c, .medium m1, .medium m2]) ∧
      bindArgs (ps ++ [(.obscuration, some .none)] ++ opticParams) pos (([Kw.name, Kw.coordSys] ++ ks1 ++ ks2).zip ([Val.str name, Val.coordSys c] ++ ws1 ++ ws2)) =
        .ok (pos ++ [.none, .str name, .coordSys c, .medium m1, .medium m2]) ∧
      ∀ o, bindArgs (ps ++ [(.obscuration, some .none)] ++ opticParams) pos
          ((Kw.obscuration :: ([Kw.name, Kw.coordSys] ++ ks1 ++ ks2)).zip (Val.obsc o :: ([Val.str name, Val.coordSys c] ++ ws1 ++ ws2))) =
        .ok (pos ++ [.obsc o, .str name, .coordSys c, .medium m1, .medium m2]) := by
  rcases h1 with ⟨rfl, rfl, rfl⟩ | ⟨rfl, rfl⟩ <;> rcases h2 with ⟨rfl, rfl, rfl⟩ | ⟨rfl, rfl⟩ <;>
    refine ⟨?_, ?_, fun o => ?_⟩ <;> simp [bindArgs, ← hl, opticParams, fill, List.lookup, kw_beq]

theorem med_args {m m' : MediumObj Dbl} (h : MedBack p key m m') (k : Kw) : ∃ ks ws,
    ((if isVacuum m then [] else [(k, mediumRepr p m)] : List (Kw × Expr Dbl T)).map Prod.fst = ks) ∧
    evals p key ((if isVacuum m then [] else [(k, mediumRepr p m)] : List (Kw × Expr Dbl T)).map Prod.snd) = .ok ws ∧
    ((ks = [] ∧ ws = [] ∧ m' = vacuumObj) ∨ (ks = [k] ∧ ws = [.medium m'])) := by
  unfold MedBack at h
  split at h
  · rename_i hv
    exact ⟨[], [], by simp [hv], by simp [hv, evals], Or.inl ⟨rfl, rfl, h⟩⟩
  · rename_i hv
    exact ⟨[k], [.medium m'], by simp [hv], by simp [hv, evals, h], Or.inr ⟨rfl, rfl⟩⟩

theorem helper_eval {name : Name} {c c' : CoordSys Dbl} {m1 m2 m1' m2' : MediumObj Dbl} (hc : eval p key (coordSysRepr p c) = .ok (.coordSys c'))
    (h1 : MedBack p key m1 m1') (h2 : MedBack p key m2 m2') : ∃ ks1 ks2 ws1 ws2,
    (helper p name c m1 m2).map Prod.fst = [Kw.name, Kw.coordSys] ++ ks1 ++ ks2 ∧
    evals p key ((helper p name c m1 m2).map Prod.snd) = .ok ([Val.str name, Val.coordSys c'] ++ ws1 ++ ws2) ∧
    ((ks1 = [] ∧ ws1 = [] ∧ m1' = vacuumObj) ∨ (ks1 = [.inMedium] ∧ ws1 = [.medium m1'])) ∧
    ((ks2 = [] ∧ ws2 = [] ∧ m2' = vacuumObj) ∨ (ks2 = [.outMedium] ∧ ws2 = [.medium m2'])) := by
  obtain ⟨ks1, ws1, a1, a2, a3⟩ := med_args h1 .inMedium
  obtain ⟨ks2, ws2, b1, b2, b3⟩ := med_args h2 .outMedium
  refine ⟨ks1, ks2, ws1, ws2, ?_, ?_, a3, b3⟩
  · rw [helper, List.map_append, List.map_append, a1, b1]
    rfl
  · rw [helper, List.map_append, List.map_append]
    exact evals_append (evals_append (evals_cons rfl (evals_cons hc rfl)) a2) b2

theorem coatings_new (k : KindObj Dbl) : factory k = newCoatings k := by cases k <;> rfl

/-- The kind of interface, with the screen that was read. -/
def kindWith (k : KindObj Dbl) (ss : List (SurfaceObj Dbl)) : KindObj Dbl := match k, ss with
  | .screen _, [s] => .screen s
  | k, _ => k

theorem iface_construct {k : KindObj Dbl} {s : SurfaceObj Dbl} {ss : List (SurfaceObj Dbl)} (hl : ss.length = (screenOf k).length) {vs : List (Val Dbl)} {kws : List (Kw × Val Dbl)}
    (h : ∀ ps : List (Kw × Option (Val Dbl)), ps.length = ((s :: ss).map Val.surface).length →
      bindArgs (ps ++ [(.obscuration, some .none)] ++ opticParams) ((s :: ss).map .surface) kws = .ok ((s :: ss).map .surface ++ vs)) :
    construct key (kindCls k) ((s :: ss).map .surface) kws = mkIface (kindWith k ss) s vs := by
  cases k <;> simp only [screenOf, List.length_nil, List.length_eq_zero_iff, List.length_cons] at hl
  case screen t =>
    obtain ⟨t', rfl⟩ := List.length_eq_one_iff.1 hl
    simp only [construct, kindCls]
    rw [h _ (by simp [required])]
    rfl
  all_goals
    subst hl
    simp only [construct, kindCls]
    rw [h _ (by simp [required])]
    rfl

theorem iface_mk {k : KindObj Dbl} {ss : List (SurfaceObj Dbl)} (s : SurfaceObj Dbl) (name : Name) (c : CoordSys Dbl) {m1 m2 : MediumObj Dbl}
    (hm : screenOf k ≠ [] → m1.eq m2 = .ok true) (o : Option (Obsc Dbl)) :
    mkIface (kindWith k ss) s [match o with | none => .none | some o => .obsc o, .str name, .coordSys c, .medium m1, .medium m2] =
      .ok (.optic (forget (.iface ⟨kindWith k ss, name, s, o, c, m1, m2, false, none, none, none⟩))) := by
  have hk : ∀ t, kindWith k ss = .screen t → m1.eq m2 = .ok true := by
    intro t ht
    apply hm
    cases k <;> simp [kindWith, screenOf] at ht ⊢
  generalize kindWith k ss = k' at *
  unfold mkIface
  rw [coatings_new]
  cases k' <;> cases o <;> simp [forget, hk]

theorem asOptics_map (l : List (OpticObj Dbl)) : asOptics (l.map .optic) = some l := by
  induction l with
  | nil => rfl
  | cons s l ih => simp [asOptics, ih]

theorem compound_mk {lens : Bool} {items : List (OpticObj Dbl)} (name : Name) (c : CoordSys Dbl) (m1 m2 : MediumObj Dbl) (h : lens = true → Joined items) :
    mkCompound lens items [.str name, .coordSys c, .medium m1, .medium m2] = .ok (.optic (.compound ⟨lens, name, c, m1, m2, false, none⟩ items)) := by
  unfold mkCompound
  cases lens with
  | false => rfl
  | true =>
    have h := h rfl
    match items, h with
    | [a, b], h => 
      have h' : (opticOut a).eq (opticIn b) = .ok true := h
      simp [h']

mutual
theorem optic_back (hkey : TextKey p key) : ∀ o : OpticObj Dbl, (∀ a ∈ opticArrays o, Readable p a) → LegalOptic key o → ∃ e o', opticRepr p o = .ok e ∧
    eval p key e = .ok (.optic o') ∧ opticRepr p o' = .ok e ∧ (MedBack p key (opticIn o) (opticIn o') ∧ MedBack p key (opticOut o) (opticOut o') ∧
      ((opticOut o).eq (opticOut o) = .ok true → (opticOut o').eq (opticOut o') = .ok true)) ∧
    ((∀ a ∈ opticArrays o, ExactText p a) → SpelledOptic o → o' = forget o)
  | .iface d => fun h hl => by
    obtain ⟨k, name, s, ob, c, m1, m2, skip, fc, rc, st⟩ := d
    obtain ⟨hl1, hl2, hl3⟩ := hl
    simp only at hl1 hl2 hl3
    obtain ⟨ss', a1, a2, a3, a4⟩ := surfaces_back (p := p) (key := key) (s :: screenOf k) (fun a ha => h a (by simp [opticArrays, ha])) hl1
    obtain ⟨es, os', b1, b2, b3, -, b5⟩ := obscs_back hkey ob.toList (fun a ha => h a (by simp [opticArrays, ha])) hl2
    obtain ⟨c', c1, c2, c3⟩ := coordSys_back (p := p) (key := key) c (fun a ha => h a (by simp [opticArrays, ha]))
    obtain ⟨m1', d1, d2, d3, d4, d5⟩ := medBack (p := p) (key := key) m1 (fun a ha => h a (by simp [opticArrays, ha]))
    obtain ⟨m2', e1, e2, e3, e4, e5⟩ := medBack (p := p) (key := key) m2 (fun a ha => h a (by simp [opticArrays, ha]))
    obtain ⟨ks1, ks2, ws1, ws2, g1, g2, g3, g4⟩ := helper_eval (name := name) c1 d1 e1
    obtain ⟨s', ss', rfl⟩ : ∃ s' ss'', ss' = s' :: ss'' := by
      cases ss' with
      | nil => simp [surfaceReprs] at a2
      | cons s' ss' => exact ⟨s', ss', rfl⟩
    simp only [surfaceReprs, List.cons.injEq] at a2
    have hlen : ss'.length = (screenOf k).length := by
      have := congrArg List.length a2.2
      have hr : ∀ l : List (SurfaceObj Dbl), (surfaceReprs p l).length = l.length := by
        intro l
        induction l with
        | nil => rfl
        | cons a l ih => simp [surfaceReprs, ih]
      simpa [hr] using this
    have hm : screenOf k ≠ [] → m1'.eq m2' = .ok true := by
      intro hk
      have hq := hl3 hk
      have : m1 = m2 := mediumEq_eq hq
      subst this
      rw [medBack_fun e1 d1]
      exact d4 hq
    have hargs : ifaceArgs p ⟨k, name, s, ob, c, m1, m2, skip, fc, rc, st⟩ = surfaceReprs p (s :: screenOf k) := by
      cases k <;> rfl
    have hargs' : ∀ ob' f r, ifaceArgs p ⟨kindWith k ss', name, s', ob', c', m1', m2', false, f, r, none⟩ = surfaceReprs p (s :: screenOf k) := by
      intro ob' f r
      cases k <;> simp [ifaceArgs, kindWith, screenOf, surfaceReprs, a2.1] at hlen ⊢
      obtain ⟨t, rfl⟩ := List.length_eq_one_iff.1 hlen
      simpa [surfaceReprs, screenOf] using a2.2
    have hcls : kindCls (kindWith k ss') = kindCls k := by
      cases k <;> simp [kindWith, kindCls, screenOf] at hlen ⊢
      obtain ⟨t, rfl⟩ := List.length_eq_one_iff.1 hlen
      rfl
    have hhelp : helper p name c' m1' m2' = helper p name c m1 m2 := by simp only [helper, c2, d2, d3, e2, e3]
    have hexact : (∀ a ∈ opticArrays (.iface ⟨k, name, s, ob, c, m1, m2, skip, fc, rc, st⟩), ExactText p a) → SpelledOptic (.iface ⟨k, name, s, ob, c, m1, m2, skip, fc, rc, st⟩) →
        s' = s ∧ kindWith k ss' = k ∧ os' = ob.toList ∧ c' = c ∧ m1' = m1 ∧ m2' = m2 := by
      intro he hsp
      have q := a4 (fun a ha => he a (by simp [opticArrays, ha])) hsp
      simp only [List.cons.injEq] at q
      refine ⟨q.1, ?_, b5 fun a ha => he a (by simp [opticArrays, ha]), c3 fun a ha => he a (by simp [opticArrays, ha]), d5 fun a ha => he a (by simp [opticArrays, ha]),
        e5 fun a ha => he a (by simp [opticArrays, ha])⟩
      rw [q.2]
      cases k <;> rfl
    cases ob with
    | none =>
      refine ⟨_, forget (.iface ⟨kindWith k ss', name, s', none, c', m1', m2', false, none, none, none⟩), rfl, ?_, ?_, ⟨d1, e1, e4⟩, fun he hsp => ?_⟩
      · rw [hargs, eval_callKw a1 g2, g1, iface_construct hlen (fun ps hps => (bind_optic hps g3 g4).2.1)]
        exact iface_mk s' name c' hm none
      · simp only [opticRepr, ifaceRepr, forget, hargs', hargs, hcls, hhelp]
      · obtain ⟨q1, q2, q3, q4, q5, q6⟩ := hexact he hsp
        simp only [forget, q1, q2, q4, q5, q6]
    | some o =>
      simp only [Option.toList, obscReprs] at b1 b2
      cases ho : obscRepr p o with
      | error e => simp [ho] at b1
      | ok e =>
        simp [ho] at b1
        subst b1
        obtain ⟨o', rfl⟩ : ∃ o', os' = [o'] := by
          have := evals_length b2
          simp at this
          exact List.length_eq_one_iff.1 this
        have ho' : obscRepr p o' = .ok e := by
          simp only [obscReprs] at b3
          cases hq : obscRepr p o' with
          | error e => simp [hq] at b3
          | ok e' => simp [hq] at b3; rw [b3]
        have hev : eval p key e = .ok (.obsc o') := by
          simp only [evals] at b2
          cases hq : eval p key e with
          | error e => simp [hq] at b2
          | ok e' => simp [hq] at b2; rw [b2]
        refine ⟨callKw (kindCls k) (surfaceReprs p (s :: screenOf k)) ((.obscuration, e) :: helper p name c m1 m2),
          forget (.iface ⟨kindWith k ss', name, s', some o', c', m1', m2', false, none, none, none⟩), ?_, ?_, ?_, ⟨d1, e1, e4⟩, fun he hsp => ?_⟩
        · simp only [opticRepr, ifaceRepr, ho, hargs]
        · have hmap : ((Kw.obscuration, e) :: helper p name c m1 m2).map Prod.fst = Kw.obscuration :: ([Kw.name, Kw.coordSys] ++ ks1 ++ ks2) := by rw [List.map_cons, g1]
          rw [eval_callKw (kws := (.obscuration, e) :: helper p name c m1 m2) a1 (evals_cons hev g2), hmap, iface_construct hlen (fun ps hps => (bind_optic hps g3 g4).2.2 o')]
          exact iface_mk s' name c' hm (some o')
        · simp only [opticRepr, ifaceRepr, forget, hargs', hcls, hhelp, ho']
        · obtain ⟨q1, q2, q3, q4, q5, q6⟩ := hexact he hsp
          simp only [Option.toList, List.cons.injEq, and_true] at q3
          simp only [forget, q1, q2, q3, q4, q5, q6]
  | .compound d items => fun h hl => by
    obtain ⟨lens, name, c, m1, m2, skip, st⟩ := d
    obtain ⟨hl1, hl2, hl3⟩ := hl
    simp only at hl2
    obtain ⟨es, os', a1, a2, a3, a4, a5⟩ := optics_back hkey items (fun a ha => h a (by simp [opticArrays, ha])) hl3
    obtain ⟨c', c1, c2, c3⟩ := coordSys_back (p := p) (key := key) c (fun a ha => h a (by simp [opticArrays, ha]))
    obtain ⟨m1', d1, d2, d3, d4, d5⟩ := medBack (p := p) (key := key) m1 (fun a ha => h a (by simp [opticArrays, ha]))
    obtain ⟨m2', e1, e2, e3, e4, e5⟩ := medBack (p := p) (key := key) m2 (fun a ha => h a (by simp [opticArrays, ha]))
    obtain ⟨ks1, ks2, ws1, ws2, g1, g2, g3, g4⟩ := helper_eval (name := name) c1 d1 e1
    have hhelp : helper p name c' m1' m2' = helper p name c m1 m2 := by simp only [helper, c2, d2, d3, e2, e3]
    have hes : es ≠ [] := by
      rintro rfl
      simp only [evals, Except.ok.injEq] at a2
      have := a4.length_eq
      rw [List.map_eq_nil_iff.1 a2.symm] at this
      simp at this
      exact hl1 this
    obtain ⟨e, es, rfl⟩ := List.exists_cons_of_ne_nil hes
    have hj : lens = true → Joined os' := by
      intro hq
      have := hl2 hq
      match items, os', this, a4 with
      | [a, b], [a', b'], hab, .cons ha (.cons hb .nil) =>
        have hab : (opticOut a).eq (opticIn b) = .ok true := hab
        have hm := mediumEq_eq hab
        have hb := hb.1
        rw [← hm] at hab hb
        show (opticOut a').eq (opticIn b') = .ok true
        rw [← medBack_fun ha.2.1 hb]
        exact ha.2.2 hab
    have hlist : eval p key (.list (e :: es)) = .ok (.seq (os'.map .optic)) := by simp [eval, a2]
    refine ⟨callKw (if lens then .lens else .compound) [.list (e :: es)] (helper p name c m1 m2), .compound ⟨lens, name, c', m1', m2', false, none⟩ os', by simp [opticRepr, a1], ?_,
      by simp [opticRepr, a3, hhelp], ⟨d1, e1, e4⟩, fun he hsp => ?_⟩
    · rw [eval_callKw (evals_cons hlist rfl) g2, g1]
      have hb := fun ps (hps : ps.length = [Val.seq (os'.map Val.optic)].length) => (bind_optic (ps := ps) (name := name) (c := c') hps g3 g4).1
      cases lens with
      | true =>
        simp only [construct, if_true]
        rw [hb _ (by simp [required])]
        simp only [List.cons_append, List.nil_append, asOptics_map]
        exact compound_mk name c' m1' m2' hj
      | false =>
        simp only [construct, if_false, Bool.false_eq_true]
        rw [hb _ (by simp [required])]
        simp only [List.cons_append, List.nil_append, asOptics_map]
        exact compound_mk name c' m1' m2' hj
    · rw [forget, a5 (fun a ha => he a (by simp [opticArrays, ha])) hsp, c3 fun a ha => he a (by simp [opticArrays, ha]), d5 fun a ha => he a (by simp [opticArrays, ha]),
        e5 fun a ha => he a (by simp [opticArrays, ha])]
theorem optics_back (hkey : TextKey p key) : ∀ os : List (OpticObj Dbl), (∀ a ∈ opticsArrays os, Readable p a) → LegalOptics key os → ∃ (es : List (Expr Dbl T)) (os' : List (OpticObj Dbl)),
    opticReprs p os = .ok es ∧ evals p key es = .ok (os'.map .optic) ∧ opticReprs p os' = .ok es ∧
      List.Forall₂ (fun o o' => MedBack p key (opticIn o) (opticIn o') ∧ MedBack p key (opticOut o) (opticOut o') ∧
        ((opticOut o).eq (opticOut o) = .ok true → (opticOut o').eq (opticOut o') = .ok true)) os os' ∧
      ((∀ a ∈ opticsArrays os, ExactText p a) → SpelledOptics os → os' = forgets os)
  | [] => fun _ _ => ⟨[], [], rfl, rfl, rfl, .nil, fun _ _ => rfl⟩
  | o :: os => fun h hl => by
    obtain ⟨e, o', a1, a2, a3, a4, a5⟩ := optic_back hkey o (fun a ha => h a (by simp [opticsArrays, ha])) hl.1
    obtain ⟨es, os', b1, b2, b3, b4, b5⟩ := optics_back hkey os (fun a ha => h a (by simp [opticsArrays, ha])) hl.2
    refine ⟨e :: es, o' :: os', by simp [opticReprs, a1, b1], evals_cons a2 b2, by simp [opticReprs, a3, b3], .cons a4 b4, fun he hsp => ?_⟩
    rw [a5 (fun a ha => he a (by simp [opticsArrays, ha])) hsp.1, b5 (fun a ha => he a (by simp [opticsArrays, ha])) hsp.2]
    rfl
end

/-! ## Rays, transformations, lattices -/

def raysArrays (rv : RayVec Dbl) : List (NdArr Dbl) :=
  [.vec (rv.rays.map (·.r.x)), .vec (rv.rays.map (·.r.y)), .vec (rv.rays.map (·.r.z)), .vec (rv.rays.map (·.v.x)), .vec (rv.rays.map (·.v.y)), .vec (rv.rays.map (·.v.z)),
    .vec (rv.rays.map (·.t)), .vec (rv.rays.map (·.wavelength)), .vec (rv.rays.map (·.flux)), .bools (rv.rays.map (·.vignetted)), .bools (rv.rays.map (·.failed))]
    ++ coordSysArrays rv.coordSys

theorem mkRays_columns : ∀ (n : ℕ) (x y z vx vy vz t w f : List Dbl) (v b : List Bool), n = x.length → n = y.length → n = z.length → n = vx.length → n = vy.length →
    n = vz.length → n = t.length → n = w.length → n = f.length → n = v.length → n = b.length →
    (mkRays x y z vx vy vz t w f v b).map (·.r.x) = x ∧ (mkRays x y z vx vy vz t w f v b).map (·.r.y) = y ∧ (mkRays x y z vx vy vz t w f v b).map (·.r.z) = z ∧
    (mkRays x y z vx vy vz t w f v b).map (·.v.x) = vx ∧ (mkRays x y z vx vy vz t w f v b).map (·.v.y) = vy ∧ (mkRays x y z vx vy vz t w f v b).map (·.v.z) = vz ∧
    (mkRays x y z vx vy vz t w f v b).map (·.t) = t ∧ (mkRays x y z vx vy vz t w f v b).map (·.wavelength) = w ∧ (mkRays x y z vx vy vz t w f v b).map (·.flux) = f ∧
    (mkRays x y z vx vy vz t w f v b).map (·.vignetted) = v ∧ (mkRays x y z vx vy vz t w f v b).map (·.failed) = b
  | 0, x, y, z, vx, vy, vz, t, w, f, v, b, h1, h2, h3, h4, h5, h6, h7, h8, h9, h10, h11 => by
    rw [eq_comm, List.length_eq_zero_iff] at h1 h2 h3 h4 h5 h6 h7 h8 h9 h10 h11
    subst h1 h2 h3 h4 h5 h6 h7 h8 h9 h10 h11
    simp [mkRays]
  | n + 1, x, y, z, vx, vy, vz, t, w, f, v, b, h1, h2, h3, h4, h5, h6, h7, h8, h9, h10, h11 => by
    have cut : ∀ {α : Type} {l : List α}, n + 1 = l.length → ∃ a l', l = a :: l' ∧ n = l'.length := by
      intro α l h
      cases l with
      | nil => simp at h
      | cons a l => exact ⟨a, l, rfl, by simpa using h⟩
    obtain ⟨_, x, rfl, k1⟩ := cut h1
    obtain ⟨_, y, rfl, k2⟩ := cut h2
    obtain ⟨_, z, rfl, k3⟩ := cut h3
    obtain ⟨_, vx, rfl, k4⟩ := cut h4
    obtain ⟨_, vy, rfl, k5⟩ := cut h5
    obtain ⟨_, vz, rfl, k6⟩ := cut h6
    obtain ⟨_, t, rfl, k7⟩ := cut h7
    obtain ⟨_, w, rfl, k8⟩ := cut h8
    obtain ⟨_, f, rfl, k9⟩ := cut h9
    obtain ⟨_, v, rfl, k10⟩ := cut h10
    obtain ⟨_, b, rfl, k11⟩ := cut h11
    obtain ⟨a1, a2, a3, a4, a5, a6, a7, a8, a9, a10, a11⟩ := mkRays_columns n x y z vx vy vz t w f v b k1 k2 k3 k4 k5 k6 k7 k8 k9 k10 k11
    simp only [mkRays, List.map_cons, a1, a2, a3, a4, a5, a6, a7, a8, a9, a10, a11, and_self]

theorem mkRays_self (l : List (Ray Dbl)) : mkRays (l.map (·.r.x)) (l.map (·.r.y)) (l.map (·.r.z)) (l.map (·.v.x)) (l.map (·.v.y)) (l.map (·.v.z)) (l.map (·.t))
    (l.map (·.wavelength)) (l.map (·.flux)) (l.map (·.vignetted)) (l.map (·.failed)) = l := by
  induction l with
  | nil => rfl
  | cons a l ih => simp only [List.map_cons, mkRays, ih]

theorem bools_reads {a : List Bool} {y : NdArr Dbl} (h : Reads p (.bools a) y) : y = .bools a := by
  have := h.shape
  cases y <;> simp [LikeArr] at this
  rw [this]

/-! ## C124 -/

/-- `eval(repr(x))` gives `y`, which prints the same text. -/
def PrintsBack {X : Type} (p : Printer Dbl T) (key : Obsc Dbl → List Char) (repr : X → Except PyErr (Expr Dbl T)) (wrap : X → Val Dbl) (x y : X) : Prop :=
  ∃ e, repr x = .ok e ∧ eval p key e = .ok (wrap y) ∧ repr y = .ok e

/-- **C124** for media. -/
theorem C124_medium (m : MediumObj Dbl) (h : ∀ a ∈ mediumArrays m, Readable p a) :
    ∃ m', PrintsBack p key (fun m => .ok (mediumRepr p m)) .medium m m' ∧ ((∀ a ∈ mediumArrays m, ExactText p a) → m' = m) := by
  obtain ⟨m', h1, h2, h3⟩ := medium_back (key := key) m h
  exact ⟨m', ⟨_, rfl, h1, congrArg Except.ok h2⟩, h3⟩

/-- **C124** for coatings. -/
theorem C124_coating (c : CoatingObj Dbl) : PrintsBack (T := T) p key (fun c => .ok (coatingRepr c)) .coating c c :=
  ⟨_, rfl, by simp [coatingRepr, eval, evals, construct, bindArgs, required, fill], rfl⟩

/-- **C124** for surfaces. -/
theorem C124_surface (s : SurfaceObj Dbl) (h : ∀ a ∈ surfaceArrays s, Readable p a) (hl : LegalSurface s) :
    ∃ s', PrintsBack p key (fun s => .ok (surfaceRepr p s)) .surface s s' ∧ ((∀ a ∈ surfaceArrays s, ExactText p a) → Spelled s → s' = s) := by
  obtain ⟨s', h1, h2, -, h3⟩ := surface_back (key := key) s h hl
  exact ⟨s', ⟨_, rfl, h1, congrArg Except.ok h2⟩, h3⟩

/-- **C124** for obscurations. -/
theorem C124_obscuration (hkey : TextKey p key) (o : Obsc Dbl) (h : ∀ a ∈ obscArrays o, Readable p a) (hl : LegalObsc key o) :
    ∃ o', PrintsBack p key (obscRepr p) .obsc o o' ∧ ((∀ a ∈ obscArrays o, ExactText p a) → o' = o) := by
  obtain ⟨e, o', h1, h2, h3, h4⟩ := obsc_back hkey o h hl
  exact ⟨o', ⟨e, h1, h2, h3⟩, h4⟩

/-- **C124** for coordinate systems. -/
theorem C124_coordSys (c : CoordSys Dbl) (h : ∀ a ∈ coordSysArrays c, Readable p a) :
    ∃ c', PrintsBack p key (fun c => .ok (coordSysRepr p c)) .coordSys c c' ∧ ((∀ a ∈ coordSysArrays c, ExactText p a) → c' = c) := by
  obtain ⟨c', h1, h2, h3⟩ := coordSys_back (key := key) c h
  exact ⟨c', ⟨_, rfl, h1, congrArg Except.ok h2⟩, h3⟩

/-- **C124** for coordinate transformations. -/
theorem C124_coordTransform (c : TransformObj Dbl) (h : ∀ a ∈ coordSysArrays c.fromSys ++ coordSysArrays c.toSys, Readable p a) :
    ∃ c', PrintsBack p key (fun c => .ok (transformRepr p c)) .transform c c' ∧ ((∀ a ∈ coordSysArrays c.fromSys ++ coordSysArrays c.toSys, ExactText p a) → c' = c) := by
  obtain ⟨a, b⟩ := c
  obtain ⟨a', h1, h2, h3⟩ := coordSys_back (key := key) a fun x hx => h x (by simp [hx])
  obtain ⟨b', g1, g2, g3⟩ := coordSys_back (key := key) b fun x hx => h x (by simp [hx])
  refine ⟨⟨a', b'⟩, ⟨_, rfl, ?_, by simp only [transformRepr, h2, g2]⟩, fun he => by rw [h3 fun x hx => he x (by simp [hx]), g3 fun x hx => he x (by simp [hx])]⟩
  rw [transformRepr, eval_call (evals_cons h1 (evals_cons g1 rfl))]
  simp [construct, bindArgs, required, fill]

/-- What `Lattice` demands: batoid/lattice.py L52-57. -/
def LegalLattice (l : LatticeObj Dbl) : Prop := l.shape.length = l.primitiveVectors.length ∧ some l.shape.length = l.primitiveVectors.head?.map List.length

/-- **C124** for lattices. -/
theorem C124_lattice (l : LatticeObj Dbl) (h : ∀ a ∈ [NdArr.nd l.shape l.array, .mat l.primitiveVectors], Readable p a) (hl : LegalLattice l) :
    ∃ l', PrintsBack p key (fun l => .ok (latticeRepr p l)) .lattice l l' ∧ ((∀ a ∈ [NdArr.nd l.shape l.array, .mat l.primitiveVectors], ExactText p a) → l' = l) := by
  obtain ⟨sh, a, v⟩ := l
  obtain ⟨y, hy⟩ := h (.nd sh a) (by simp)
  obtain ⟨w, hw⟩ := h (.mat v) (by simp)
  obtain ⟨w, rfl, lw⟩ := mat_reads hw
  obtain ⟨a', rfl⟩ : ∃ a', y = .nd sh a' := by
    have := hy.shape
    cases y <;> simp [LikeArr] at this
    exact ⟨_, by rw [this]⟩
  have l1 : sh.length = w.length := by
    have := congrArg List.length lw
    simp only [List.length_map] at this
    exact hl.1.trans this
  have l2 : some sh.length = w.head?.map List.length := by
    rw [← List.head?_map, ← lw, List.head?_map]
    exact hl.2
  refine ⟨⟨sh, a', w⟩, ⟨_, rfl, ?_, by simp only [latticeRepr, hy.text, hw.text]⟩, fun he => ?_⟩
  · rw [latticeRepr, eval_call (evals_cons (eval_arr hy) (evals_cons (eval_arr hw) rfl))]
    simp only [construct, bindArgs, required, fill, List.map_cons, List.map_nil, List.length_cons, List.length_nil, List.drop, List.not_mem_nil, false_imp_iff, implies_true, and_true,
      le_refl, if_true, List.append_nil]
    rw [if_neg]
    simp only [not_or, not_not]
    exact ⟨l1, l2⟩
  · have e1 := hy.read.symm.trans (he _ (by simp))
    rw [exact_mat hw (he _ (by simp))]
    simp only [Except.ok.injEq, NdArr.nd.injEq, true_and] at e1
    rw [e1]

/-- **C124** for ray vectors. -/
theorem C124_rays (rv : RayVec Dbl) (h : ∀ a ∈ raysArrays rv, Readable p a) :
    ∃ rv', PrintsBack p key (fun rv => .ok (raysRepr p rv)) .rays rv rv' ∧ ((∀ a ∈ raysArrays rv, ExactText p a) → rv' = rv) := by
  obtain ⟨l, c⟩ := rv
  obtain ⟨c', c1, c2, c3⟩ := coordSys_back (key := key) c fun a ha => h a (by simp only [raysArrays, List.mem_append]; exact Or.inr ha)
  have hx : ∀ a ∈ [(NdArr.vec (l.map (·.r.x)) : NdArr Dbl), .vec (l.map (·.r.y)), .vec (l.map (·.r.z)), .vec (l.map (·.v.x)), .vec (l.map (·.v.y)), .vec (l.map (·.v.z)),
    .vec (l.map (·.t)), .vec (l.map (·.wavelength)), .vec (l.map (·.flux)), .bools (l.map (·.vignetted)), .bools (l.map (·.failed))], Readable p a :=
    fun a ha => h a (by simp only [raysArrays, List.mem_append]; exact Or.inl ha)
  simp only [List.forall_mem_cons, List.not_mem_nil, false_imp_iff, implies_true, and_true] at hx
  obtain ⟨⟨x, r1⟩, ⟨y, r2⟩, ⟨z, r3⟩, ⟨vx, r4⟩, ⟨vy, r5⟩, ⟨vz, r6⟩, ⟨t, r7⟩, ⟨w, r8⟩, ⟨f, r9⟩, ⟨v, r10⟩, ⟨b, r11⟩⟩ := hx
  obtain ⟨x, rfl, l1⟩ := vec_reads r1
  obtain ⟨y, rfl, l2⟩ := vec_reads r2
  obtain ⟨z, rfl, l3⟩ := vec_reads r3
  obtain ⟨vx, rfl, l4⟩ := vec_reads r4
  obtain ⟨vy, rfl, l5⟩ := vec_reads r5
  obtain ⟨vz, rfl, l6⟩ := vec_reads r6
  obtain ⟨t, rfl, l7⟩ := vec_reads r7
  obtain ⟨w, rfl, l8⟩ := vec_reads r8
  obtain ⟨f, rfl, l9⟩ := vec_reads r9
  have hv := bools_reads r10
  have hb := bools_reads r11
  subst hv hb
  simp only [List.length_map] at l1 l2 l3 l4 l5 l6 l7 l8 l9
  obtain ⟨a1, a2, a3, a4, a5, a6, a7, a8, a9, a10, a11⟩ :=
    mkRays_columns l.length x y z vx vy vz t w f (l.map (·.vignetted)) (l.map (·.failed)) l1 l2 l3 l4 l5 l6 l7 l8 l9 (by simp) (by simp)
  refine ⟨⟨mkRays x y z vx vy vz t w f (l.map (·.vignetted)) (l.map (·.failed)), c'⟩, ⟨_, rfl, ?_, ?_⟩, fun he => ?_⟩
  · rw [raysRepr, eval_call (evals_cons (eval_arr r1) (evals_cons (eval_arr r2) (evals_cons (eval_arr r3) (evals_cons (eval_arr r4) (evals_cons (eval_arr r5) (evals_cons (eval_arr r6)
      (evals_cons (eval_arr r7) (evals_cons (eval_arr r8) (evals_cons (eval_arr r9) (evals_cons (eval_arr r10) (evals_cons (eval_arr r11) (evals_cons c1 rfl))))))))))))]
    simp [construct, bindArgs, required, fill]
  · simp only [raysRepr, a1, a2, a3, a4, a5, a6, a7, a8, a9, a10, a11, r1.text, r2.text, r3.text, r4.text, r5.text, r6.text, r7.text, r8.text, r9.text, c2]
  · have he' := fun a ha => he a (by simp only [raysArrays, List.mem_append]; exact Or.inl ha)
    simp only [List.forall_mem_cons, List.not_mem_nil, false_imp_iff, implies_true, and_true] at he'
    obtain ⟨e1, e2, e3, e4, e5, e6, e7, e8, e9, -, -⟩ := he'
    rw [exact_vec r1 e1, exact_vec r2 e2, exact_vec r3 e3, exact_vec r4 e4, exact_vec r5 e5, exact_vec r6 e6, exact_vec r7 e7, exact_vec r8 e8, exact_vec r9 e9, mkRays_self,
      c3 fun a ha => he a (by simp only [raysArrays, List.mem_append]; exact Or.inr ha)]

/-- **C124** for optics, as far as it holds: what the constructors set comes back; coatings, `skip` and `stopSurface` do not (`C124_attributes_violated`). -/
theorem C124_optic_partial (hkey : TextKey p key) (o : OpticObj Dbl) (h : ∀ a ∈ opticArrays o, Readable p a) (hl : LegalOptic key o) :
    ∃ o', PrintsBack p key (opticRepr p) .optic o o' ∧ ((∀ a ∈ opticArrays o, ExactText p a) → SpelledOptic o → o' = forget o) := by
  obtain ⟨e, o', h1, h2, h3, -, h4⟩ := optic_back hkey o h hl
  exact ⟨o', ⟨e, h1, h2, h3⟩, h4⟩

mutual
def Unskipped : OpticObj Dbl → Prop
  | .iface d => d.skip = false
  | .compound d items => d.skip = false ∧ Unskippeds items
def Unskippeds : List (OpticObj Dbl) → Prop
  | [] => True
  | o :: os => Unskipped o ∧ Unskippeds os
end

mutual
theorem eq_forget : ∀ o o' : OpticObj Dbl, o.eq (forget o') = o.eq o'
  | .iface a, .iface b => by
    simp only [forget, OpticObj.eq, IfaceObj.eq, IfaceObj.baseEq]
  | .compound a xs, .compound b ys => by
    simp only [forget, OpticObj.eq, eq_forgets xs ys]
  | .iface a, .compound b ys => by simp only [forget, OpticObj.eq]
  | .compound a xs, .iface b => by simp only [forget, OpticObj.eq]
theorem eq_forgets : ∀ os os' : List (OpticObj Dbl), OpticObj.itemsEq os (forgets os') = OpticObj.itemsEq os os'
  | [], [] => rfl
  | [], _ :: _ => rfl
  | _ :: _, [] => rfl
  | o :: os, o' :: os' => by simp only [forgets, OpticObj.itemsEq, eq_forget o o', eq_forgets os os']
end

mutual
theorem skips_forget : ∀ o : OpticObj Dbl, Unskipped o → SameSkips o (forget o)
  | .iface _ => fun h => h
  | .compound _ items => fun h => ⟨h.1, skips_forgets items h.2⟩
theorem skips_forgets : ∀ os : List (OpticObj Dbl), Unskippeds os → AllSameSkips os (forgets os)
  | [] => fun _ => trivial
  | o :: os => fun h => ⟨skips_forget o h.1, skips_forgets os h.2⟩
end

/-- **C124**, the use of it: without NaN and without `skip`, and if the arrays are printed with all digits, the optic that is read back compares equal and traces all rays alike. -/
theorem C124_trace_partial (hkey : TextKey p key) (o : OpticObj Dbl) (hl : LegalOptic key o) (ht : ∀ a ∈ opticArrays o, Readable p a ∧ ExactText p a) (hsp : SpelledOptic o)
    (hn : NaNFree (opticNumbers o)) (hs : Unskipped o) :
    ∃ e o', opticRepr p o = .ok e ∧ eval p key e = .ok (.optic o') ∧ o.eq o' = .ok true ∧ ∀ (env : Env Dbl) (niter : ℕ) (reverse : Bool) (rv : RayVec Dbl),
      (o.denote env).trace niter reverse rv = (o'.denote env).trace niter reverse rv := by
  obtain ⟨o', ⟨e, h1, h2, -⟩, h4⟩ := C124_optic_partial hkey o (fun a ha => (ht a ha).1) hl
  have := h4 (fun a ha => (ht a ha).2) hsp
  subst this
  have he : o.eq (forget o) = .ok true := by rw [eq_forget, C81_optic_refl o hn]
  exact ⟨e, _, h1, h2, he, fun env niter reverse rv => (C80_optic_partial env niter o (forget o) he (skips_forget o hs) reverse rv).1⟩

/-! ## Printers -/

/-- All digits. -/
def exactPrinter : Printer Dbl (NdArr Dbl) := ⟨id, .ok⟩

/-- Eight decimals. -/
noncomputable def round8 : Dbl → Dbl
  | .fin r => .fin (⌊r * 100000000 + 1 / 2⌋ / 100000000)
  | x => x

noncomputable def digits8 : NdArr Dbl → NdArr Dbl
  | .vec a => .vec (a.map round8)
  | .mat a => .mat (a.map (List.map round8))
  | .nd s a => .nd s (a.map round8)
  | .bools b => .bools b

def sizeOfArr : NdArr Dbl → ℕ
  | .vec a => a.length
  | .mat a => (a.map List.length).sum
  | .nd _ a => a.length
  | .bools b => b.length

/-- Like numpy: eight decimals; of more than a thousand elements most are left out, and what is printed cannot be read. -/
noncomputable def numpyPrinter : Printer Dbl (NdArr Dbl) where
  text := digits8
  read a := if sizeOfArr a ≤ 1000 then .ok a else .error .typeError

theorem exact_readable (a : NdArr Dbl) : Readable exactPrinter a ∧ ExactText exactPrinter a :=
  ⟨⟨a, rfl, rfl, by cases a <;> simp [LikeArr]⟩, rfl⟩

theorem round8_idem (x : Dbl) : round8 (round8 x) = round8 x := by
  cases x <;> simp only [round8]
  rename_i r
  have h : ((⌊r * 100000000 + 1 / 2⌋ : ℝ) / 100000000 * 100000000 + 1 / 2) = (⌊r * 100000000 + 1 / 2⌋ : ℝ) + 1 / 2 := by ring
  rw [h, Int.floor_intCast_add, show ⌊(1 / 2 : ℝ)⌋ = 0 by norm_num [Int.floor_eq_iff]]
  simp

theorem round8_eq {x : Dbl} (h : Arith.eq x x = true) : Arith.eq (round8 x) (round8 x) = true := by
  cases x <;> simp_all [round8]

theorem numpy_readable (a : NdArr Dbl) (h : sizeOfArr a ≤ 1000) : Readable numpyPrinter a := by
  have hs : sizeOfArr (digits8 a) = sizeOfArr a := by
    cases a <;> simp [digits8, sizeOfArr, Function.comp_def]
  refine ⟨digits8 a, by simp [numpyPrinter, hs, h], ?_, ?_⟩
  · cases a <;> simp [numpyPrinter, digits8, Function.comp_def, round8_idem]
  · cases a with
    | vec a =>
      refine ⟨by simp, fun he => ?_⟩
      clear h hs
      induction a with
      | nil => rfl
      | cons x a ih =>
        simp only [allEq, Bool.and_eq_true, List.map_cons] at he ⊢
        exact ⟨round8_eq he.1, ih he.2⟩
    | mat a => simp [LikeArr, digits8, Function.comp_def]
    | nd s a => rfl
    | bools b => rfl

/-- Any function of the text is a key. -/
theorem textKey_of (txt : Except PyErr (Expr Dbl T) → List Char) : TextKey p fun o => txt (obscRepr p o) := fun _ _ h => congrArg txt h

/-! ## Cases -/

/-- Circles before the rest. -/
def demoText : Except PyErr (Expr Dbl (NdArr Dbl)) → List Char
  | .ok (.call .circle _ _) => ['a']
  | _ => ['b']

noncomputable def demoKey (p : Printer Dbl (NdArr Dbl)) (o : Obsc Dbl) : List Char := demoText (obscRepr p o)

/-- A lens of glass from a table with a union of obscurations in front, and a detector. -/
noncomputable def printedCamera : OpticObj Dbl :=
  .compound ⟨false, "camera".toList, (⟨⟨0, 0, 1 / 3⟩, M3.one⟩ : CoordSys ℝ).fin, .const (.fin 1), .const (.fin 1), false, none⟩ [
    .compound ⟨true, "lens".toList, (⟨⟨0, 0, 1 / 3⟩, M3.one⟩ : CoordSys ℝ).fin, .const (.fin 1), .const (.fin 1), false, none⟩ [
      .iface ⟨.refractive, "front".toList, .sum [.quadric (.fin 3) (.fin (-1)), .zernike [.fin 0, .fin 0, .fin (1 / 7)] (.fin 2) (.fin 0) (.fin 0) (.fin 1)],
        some (.union [.circle (.fin 1) (.fin 0) (.fin 0), .negation (.rectangle (.fin 4) (.fin 5) (.fin 0) (.fin 1) (.fin 0))]),
        (⟨⟨0, 0, 1 / 3⟩, M3.one⟩ : CoordSys ℝ).fin, .const (.fin 1), .table [.fin (4 / 7), .fin (5 / 7)] [.fin (3 / 2), .fin (10 / 7)], false, none, none, none⟩,
      .iface ⟨.refractive, "back".toList, .asphere (.fin (-3)) (.fin 0) [.fin (1 / 9)] 3, none,
        (⟨⟨0, 0, 2 / 3⟩, M3.one⟩ : CoordSys ℝ).fin, .table [.fin (4 / 7), .fin (5 / 7)] [.fin (3 / 2), .fin (10 / 7)], .const (.fin 1), false, none, none, none⟩],
    .iface ⟨.screen (.bicubic [.fin 0, .fin 1] [.fin 0, .fin 1] [[.fin 0, .fin 0], [.fin 0, .fin 0]] [[.fin 0, .fin 0], [.fin 0, .fin 0]] [[.fin 0, .fin 0], [.fin 0, .fin 0]]
        [[.fin 0, .fin 0], [.fin 0, .fin 0]] "zero".toList), "air".toList, .plane, none, (⟨⟨0, 0, 1⟩, M3.one⟩ : CoordSys ℝ).fin, .const (.fin 1), .const (.fin 1), false, none, none, none⟩,
    .iface ⟨.detector, "D".toList, .plane, none, (⟨⟨0, 0, 10 / 3⟩, M3.one⟩ : CoordSys ℝ).fin, .const (.fin 1), .const (.fin 1), false, none, none, none⟩]

theorem printedCamera_meets (p : Printer Dbl (NdArr Dbl)) : TextKey p (demoKey p) ∧ (∀ a ∈ opticArrays printedCamera, Readable numpyPrinter a) ∧ LegalOptic (demoKey p) printedCamera ∧ SpelledOptic printedCamera ∧
    NaNFree (opticNumbers printedCamera) ∧ Unskipped printedCamera := by
  have uz : upper ['z', 'e', 'r', 'o'] = ['Z', 'E', 'R', 'O'] := by decide
  refine ⟨textKey_of demoText, fun a ha => numpy_readable a ?_, ?_, ?_, ?_, ?_⟩
  · simp only [printedCamera, opticArrays, opticsArrays, surfacesArrays, surfaceArrays, screenOf, obscsArrays, obscArrays, Option.toList, coordSysArrays, mediumArrays, List.mem_append,
      List.mem_cons, List.not_mem_nil, List.append_nil, List.nil_append, or_false, false_or, or_assoc] at ha
    rcases ha with rfl | rfl | rfl | rfl | rfl | rfl | rfl | rfl | rfl | rfl | rfl | rfl | rfl | rfl | rfl | rfl | rfl | rfl | rfl | rfl | rfl | rfl | rfl | rfl <;>
      simp [sizeOfArr, originList, rotRows]
  · simp [printedCamera, LegalOptic, LegalOptics, Joined, LegalSurfaces, LegalSurface, LegalObscs, LegalObsc, screenOf, opticIn, opticOut, MediumObj.eq, arrayEqual, allEq, numEq, uz, demoKey,
      demoText, obscRepr]
    decide
  · simp [printedCamera, SpelledOptic, SpelledOptics, Spelleds, Spelled, screenOf]
  · simp [NaNFree, printedCamera, opticNumbers, opticsNumbers, ifaceNumbers, surfaceNumbers, surfacesNumbers, obscNumbers, obscsNumbers, mediumNumbers, frameNumbers, originList, rotRows, CoordSys.fin,
      V3.fin, M3.fin, M3.map, M3.one]
  · simp [printedCamera, Unskipped, Unskippeds]

/-- It is read back, and what is read prints the same. -/
example : ∃ o', PrintsBack numpyPrinter (demoKey numpyPrinter) (opticRepr numpyPrinter) .optic printedCamera o' :=
  let ⟨h1, h2, h3, _⟩ := printedCamera_meets numpyPrinter
  let ⟨o', h, _⟩ := C124_optic_partial h1 printedCamera h2 h3
  ⟨o', h⟩

/-- With all digits it traces as before. -/
example : ∃ e o', opticRepr exactPrinter printedCamera = .ok e ∧ eval exactPrinter (demoKey exactPrinter) e = .ok (.optic o') ∧ printedCamera.eq o' = .ok true ∧
    ∀ (env : Env Dbl) (niter : ℕ) (reverse : Bool) (rv : RayVec Dbl), (printedCamera.denote env).trace niter reverse rv = (o'.denote env).trace niter reverse rv := by
  obtain ⟨h1, -, h3, h4, h5, h6⟩ := printedCamera_meets exactPrinter
  exact C124_trace_partial h1 printedCamera h3 (fun a _ => exact_readable a) h4 h5 h6

/-- Rays and lattices that meet the hypotheses. -/
example : (∀ a ∈ raysArrays ⟨[⟨⟨.fin 1, .fin 2, .fin 3⟩, ⟨.fin 0, .fin 0, .fin 1⟩, .fin 0, .fin (1 / 2), .fin 1, false, true⟩], (⟨⟨0, 0, 1 / 3⟩, M3.one⟩ : CoordSys ℝ).fin⟩, Readable numpyPrinter a) ∧
    LegalLattice ⟨[2, 1], [.fin 0, .fin 1], [[.fin 1, .fin 0], [.fin 0, .fin 1]]⟩ := by
  refine ⟨fun a ha => numpy_readable a ?_, rfl, rfl⟩
  simp only [raysArrays, coordSysArrays, List.mem_append, List.mem_cons, List.not_mem_nil, or_false, or_assoc] at ha
  rcases ha with rfl | rfl | rfl | rfl | rfl | rfl | rfl | rfl | rfl | rfl | rfl | rfl | rfl <;> simp [sizeOfArr, originList, rotRows]

/-! ## Where it fails -/

/-- A window with a coating that was set, that is skipped. -/
noncomputable def coatedWindow : IfaceObj Dbl :=
  ⟨.refractive, "W".toList, .plane, none, (⟨⟨0, 0, 0⟩, M3.one⟩ : CoordSys ℝ).fin, .const (.fin 1), .const (.fin 1), true, some ⟨.fin (1 / 5), .fin (4 / 5)⟩,
    some ⟨.fin (1 / 5), .fin (4 / 5)⟩, some ((⟨⟨0, 0, 1⟩, M3.one⟩ : CoordSys ℝ).fin, .plane)⟩

/-- **C124** fails for the attributes that are set after construction: even if arrays are printed with all digits, coatings, `skip` and `stopSurface` are lost, although the new
optic compares equal to the old. -/
theorem C124_attributes_violated (p : Printer Dbl T) (hp : ∀ a, Readable p a ∧ ExactText p a) (hkey : TextKey p key) :
    ∃ e d', opticRepr p (.iface coatedWindow) = .ok e ∧ eval p key e = .ok (.optic (.iface d')) ∧ (OpticObj.iface coatedWindow).eq (.iface d') = .ok true ∧
      coatedWindow.forwardCoating = some ⟨.fin (1 / 5), .fin (4 / 5)⟩ ∧ d'.forwardCoating = some ⟨.fin 0, .fin 1⟩ ∧
      coatedWindow.skip = true ∧ d'.skip = false ∧ coatedWindow.stop ≠ none ∧ d'.stop = none := by
  have hl : LegalOptic key (.iface coatedWindow) := by simp [coatedWindow, LegalOptic, LegalSurfaces, LegalSurface, LegalObscs, screenOf]
  obtain ⟨o', ⟨e, h1, h2, -⟩, h3⟩ := C124_optic_partial hkey (.iface coatedWindow) (fun a _ => (hp a).1) hl
  have := h3 (fun a _ => (hp a).2) (by simp [coatedWindow, SpelledOptic, Spelleds, Spelled, screenOf])
  subst this
  refine ⟨e, _, h1, h2, ?_, rfl, by simp [newCoatings, coatedWindow], rfl, rfl, by simp [coatedWindow], rfl⟩
  have := eq_forget (.iface coatedWindow) (.iface coatedWindow)
  rw [forget] at this
  rw [this, C81_optic_refl]
  simp [NaNFree, coatedWindow, opticNumbers, ifaceNumbers, surfaceNumbers, mediumNumbers, frameNumbers, originList, rotRows, CoordSys.fin,
      V3.fin, M3.fin, M3.map, M3.one]

/-- **C124** fails for what has no items: `CompoundOptic([], name="x")`, `ObscUnion([])` and `ObscIntersection([])` can be made and cannot be printed. -/
theorem C124_empty_violated (p : Printer Dbl T) (key : Obsc Dbl → List Char) :
    (∃ o, construct key .compound [.seq []] [(.name, .str ['x'])] = .ok (.optic o) ∧ opticRepr p o = .error .indexError) ∧
    (∃ o, construct key .union [.seq []] [] = .ok (.obsc o) ∧ obscRepr p o = .error .indexError) ∧
    ∃ o, construct key .intersection [.seq []] [] = .ok (.obsc o) ∧ obscRepr p o = .error .indexError := by
  refine ⟨⟨.compound ⟨false, ['x'], globalSys, vacuumObj, vacuumObj, false, none⟩ [], ?_, rfl⟩, ⟨.union [], ?_, rfl⟩, ⟨.intersection [], ?_, rfl⟩⟩
  · simp [construct, bindArgs, required, opticParams, fill, List.lookup, kw_beq, asOptics, mkCompound]
  · simp [construct, asObscs, ObscObj.mkUnion, ObscObj.sortItems]
  · simp [construct, asObscs, ObscObj.mkIntersection, ObscObj.sortItems]

/-- **C124** fails for long arrays: a table of more than a thousand entries is printed with dots. -/
theorem C124_long_violated (w n : List Dbl) (h : 1000 < w.length) : eval numpyPrinter key (mediumRepr numpyPrinter (.table w n)) = .error .typeError := by
  have : numpyPrinter.read (numpyPrinter.text (.vec w)) = .error .typeError := by
    simp only [numpyPrinter, digits8, sizeOfArr, List.length_map]
    rw [if_neg (by omega)]
  simp [mediumRepr, eval, evals, this]

/-- There are such tables. -/
example : ∃ w : List Dbl, 1000 < w.length := ⟨List.replicate 1001 (.fin 1), by rw [List.length_replicate]; omega⟩

/-- **C124** fails for the digits: a frame at a third of a metre comes back elsewhere, and does not compare equal. -/
theorem C124_digits_violated : ∃ c c' : CoordSys Dbl, eval numpyPrinter key (coordSysRepr numpyPrinter c) = .ok (.coordSys c') ∧ coordSysEq c c' = .ok false ∧
    c.origin.x = .fin (1 / 3) ∧ c'.origin.x = .fin (33333333 / 100000000) := by
  have r1 : round8 (.fin (1 / 3)) = .fin (33333333 / 100000000) := by
    rw [round8, show ⌊(1 / 3 * 100000000 + 1 / 2 : ℝ)⌋ = 33333333 by rw [Int.floor_eq_iff]; norm_num]
    norm_num
  have r2 : round8 (.fin 0) = .fin 0 := by
    rw [round8, show ⌊(0 * 100000000 + 1 / 2 : ℝ)⌋ = 0 by rw [Int.floor_eq_iff]; norm_num]
    norm_num
  have r3 : round8 (.fin 1) = .fin 1 := by
    rw [round8, show ⌊(1 * 100000000 + 1 / 2 : ℝ)⌋ = 100000000 by rw [Int.floor_eq_iff]; norm_num]
    norm_num
  refine ⟨⟨⟨.fin (1 / 3), .fin 0, .fin 0⟩, ⟨.fin 1, .fin 0, .fin 0, .fin 0, .fin 1, .fin 0, .fin 0, .fin 0, .fin 1⟩⟩,
    ⟨⟨.fin (33333333 / 100000000), .fin 0, .fin 0⟩, ⟨.fin 1, .fin 0, .fin 0, .fin 0, .fin 1, .fin 0, .fin 0, .fin 0, .fin 1⟩⟩, ?_, ?_, rfl, rfl⟩
  · simp [coordSysRepr, eval, evals, numpyPrinter, digits8, originList, rotRows, r1, r2, r3, sizeOfArr, construct, bindArgs, fill, mkCoordSys]
    exact congrArg (fun x => V3.mk x (Dbl.fin 0) (Dbl.fin 0)) (by rw [← r1]; norm_num)
  · simp [coordSysEq, originList, arrayEqual, allEq]
    norm_num

end Batoid.Props
