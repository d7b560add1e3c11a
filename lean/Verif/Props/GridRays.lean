import Verif.Props.PlaneWave
import Verif.Props.Grids

/-!
# Properties C42, C43 and C44: the rays of asGrid, asPolar and fromStop
-/

namespace Batoid.Props
open Batoid Batoid.Construct Batoid.Numpy

/-! ## The axes of the grid -/

/-- The number of steps that the length of the side is divided into: `n - 1` for odd, `n - 2` for even `n`; but one and two rays
divide it into one and two. -/
def axisCells (n : ℕ) : ℕ := if n ≤ 2 then n else if n % 2 = 0 then n - 2 else n - 1

theorem arange_length (a b : ℤ) : (arange a b).length = (b - a).toNat := by simp [arange]

theorem arange_join {a b c : ℤ} (h1 : a ≤ b) (h2 : b ≤ c) : arange a b ++ arange b c = arange a c := by
  obtain ⟨k, rfl⟩ : ∃ k : ℕ, b = a + k := ⟨(b - a).toNat, by omega⟩
  obtain ⟨l, rfl⟩ : ∃ l : ℕ, c = a + k + l := ⟨(c - (a + k)).toNat, by omega⟩
  unfold arange
  rw [show (a + (k : ℤ) - a).toNat = k by omega, show (a + (k : ℤ) + l - (a + k)).toNat = l by omega,
    show (a + (k : ℤ) + l - a).toNat = k + l by omega, List.range_add, List.map_append, List.map_map]
  congr 1
  refine List.map_congr_left fun i _ => ?_
  simp only [Function.comp]
  push_cast
  ring

theorem fftshift_arange (n : ℕ) :
    fftshift (arange 0 (((n : ℤ) - 1) / 2 + 1) ++ arange (-((n : ℤ) / 2)) 0) = arange (-((n : ℤ) / 2)) (((n : ℤ) - 1) / 2 + 1) := by
  have h1 : (arange 0 (((n : ℤ) - 1) / 2 + 1)).length = (n + 1) / 2 := by rw [arange_length]; omega
  have h2 : (arange (-((n : ℤ) / 2)) 0).length = n / 2 := by rw [arange_length]; omega
  have h3 : (arange 0 (((n : ℤ) - 1) / 2 + 1) ++ arange (-((n : ℤ) / 2)) 0).length -
      (arange 0 (((n : ℤ) - 1) / 2 + 1) ++ arange (-((n : ℤ) / 2)) 0).length / 2 =
        (arange 0 (((n : ℤ) - 1) / 2 + 1)).length := by
    rw [List.length_append, h1, h2]; omega
  unfold fftshift roll
  rw [h3, List.drop_left, List.take_left, arange_join (by omega) (by omega)]

theorem fftshift_map {A B : Type} (f : A → B) (l : List A) : fftshift (l.map f) = (fftshift l).map f := by
  simp [fftshift, roll, List.map_drop, List.map_take]

/-- The coordinates along a side: ray `i` of `n` at `(i - n//2)/cells` of the side. -/
theorem gridAxis_fin {n : ℕ} (hn : 0 < n) :
    gridAxis (F := Dbl) (n : ℤ) =
      .ok ((List.range n).map fun i : ℕ => Dbl.fin (((i : ℝ) - ((n / 2 : ℕ) : ℝ)) / (axisCells n : ℝ))) := by
  have hnr : (n : ℝ) ≠ 0 := by exact_mod_cast hn.ne'
  have hc0 : (axisCells n : ℝ) ≠ 0 := by
    have : axisCells n ≠ 0 := by unfold axisCells; split_ifs <;> omega
    exact_mod_cast this
  have hval : ∃ d : ℝ, (if (n : ℤ) ≤ 2 then (1 : Dbl) else Arith.const (((n : ℤ) - spare n : ℤ) : ℚ) / Arith.const ((n : ℤ) : ℚ)) = Dbl.fin d ∧
      (n : ℝ) * d = axisCells n := by
    by_cases h2 : n ≤ 2
    · refine ⟨1, ?_, ?_⟩
      · rw [if_pos (by omega), Dbl.one_dbl]
      · simp [axisCells, h2]
    · refine ⟨(((n : ℤ) - spare n : ℤ) : ℝ) / n, ?_, ?_⟩
      · rw [if_neg (by omega)]
        rw [Dbl.const_dbl, Dbl.const_dbl, Rat.cast_intCast, Rat.cast_intCast, Int.cast_natCast, Dbl.div_fin hnr]
      · rw [mul_div_cancel₀ _ hnr]
        have : (n : ℤ) - spare n = (axisCells n : ℤ) := by
          unfold spare axisCells
          rw [if_neg h2]
          split_ifs <;> omega
        rw [this, Int.cast_natCast]
  obtain ⟨d, hd, hnd⟩ := hval
  unfold gridAxis
  rw [hd]
  show (fftfreq (n : ℤ) (Dbl.fin d) >>= fun l => Except.ok (fftshift l)) = _
  unfold fftfreq
  rw [if_neg (by omega), if_neg (by omega)]
  show Except.ok (fftshift (List.map _ _)) = _
  rw [fftshift_map, fftshift_arange]
  unfold arange
  rw [List.map_map, show (((n : ℤ) - 1) / 2 + 1 - -((n : ℤ) / 2)).toNat = n by omega]
  refine congrArg _ (List.map_congr_left fun i _ => ?_)
  have : ((-((n : ℤ) / 2) + (i : ℤ) : ℤ) : ℝ) = (i : ℝ) - ((n / 2 : ℕ) : ℝ) := by
    have : (-((n : ℤ) / 2) + (i : ℤ) : ℤ) = (i : ℤ) - ((n / 2 : ℕ) : ℤ) := by omega
    rw [this, Int.cast_sub, Int.cast_natCast, Int.cast_natCast]
  have hN : (Arith.const ((n : ℤ) : ℚ) : Dbl) = Dbl.fin n := by rw [Dbl.const_dbl, Rat.cast_intCast, Int.cast_natCast]
  have hK : (Arith.const ((-((n : ℤ) / 2) + (i : ℤ) : ℤ) : ℚ) : Dbl) = Dbl.fin ((i : ℝ) - ((n / 2 : ℕ) : ℝ)) := by
    rw [Dbl.const_dbl, Rat.cast_intCast, this]
  simp only [Function.comp]
  rw [hN, hK, Dbl.mul_fin, hnd, Dbl.one_dbl, Dbl.div_fin hc0, Dbl.mul_fin, mul_one_div]

/-! ## Specification of the grid -/

/-- The grid of `nx` times `ny` points with index `(j, i)` (row major) at `(i - nx//2) * a + (j - ny//2) * b`; the chief ray, at
index `(ny//2, nx//2)`, is at the origin. -/
noncomputable def gridSpec (nx ny : ℕ) (a b : ℝ × ℝ) : List (ℝ × ℝ) :=
  (List.range ny).flatMap fun j : ℕ => (List.range nx).map fun i : ℕ =>
    (((i : ℝ) - ((nx / 2 : ℕ) : ℝ)) * a.1 + ((j : ℝ) - ((ny / 2 : ℕ) : ℝ)) * b.1,
      ((i : ℝ) - ((nx / 2 : ℕ) : ℝ)) * a.2 + ((j : ℝ) - ((ny / 2 : ℕ) : ℝ)) * b.2)

theorem gridSpec_length (nx ny : ℕ) (a b : ℝ × ℝ) : (gridSpec nx ny a b).length = nx * ny := by
  simp [gridSpec, List.length_flatMap, Nat.mul_comm]

theorem flatMap_range_getElem? {A : Type} (nx : ℕ) (f : ℕ → ℕ → A) : ∀ (ny j i : ℕ), j < ny → i < nx →
    ((List.range ny).flatMap fun j => (List.range nx).map fun i => f j i)[j * nx + i]? = some (f j i)
  | 0, _, _, h, _ => absurd h (Nat.not_lt_zero _)
  | ny + 1, j, i, hj, hi => by
    have hl : ((List.range ny).flatMap fun j => (List.range nx).map fun i => f j i).length = ny * nx := by
      simp [List.length_flatMap]
    rw [List.range_succ, List.flatMap_append, List.flatMap_singleton]
    by_cases h : j < ny
    · have : j * nx + i < ny * nx := by nlinarith [Nat.mul_le_mul_right nx (show j + 1 ≤ ny from h)]
      rw [List.getElem?_append_left (by rw [hl]; exact this)]
      exact flatMap_range_getElem? nx f ny j i h hi
    · have hj' : j = ny := by omega
      subst hj'
      rw [List.getElem?_append_right (by rw [hl]; omega), hl, Nat.add_sub_cancel_left, List.getElem?_map, List.getElem?_range hi]
      rfl

/-- **C42** (the layout of the specification): the point with index `(j, i)`, row major. -/
theorem gridSpec_at {nx ny i j : ℕ} (hi : i < nx) (hj : j < ny) (a b : ℝ × ℝ) :
    (gridSpec nx ny a b)[j * nx + i]? =
      some (((i : ℝ) - ((nx / 2 : ℕ) : ℝ)) * a.1 + ((j : ℝ) - ((ny / 2 : ℕ) : ℝ)) * b.1,
        ((i : ℝ) - ((nx / 2 : ℕ) : ℝ)) * a.2 + ((j : ℝ) - ((ny / 2 : ℕ) : ℝ)) * b.2) := by
  unfold gridSpec
  exact flatMap_range_getElem? nx (fun j i => (((i : ℝ) - ((nx / 2 : ℕ) : ℝ)) * a.1 + ((j : ℝ) - ((ny / 2 : ℕ) : ℝ)) * b.1,
        ((i : ℝ) - ((nx / 2 : ℕ) : ℝ)) * a.2 + ((j : ℝ) - ((ny / 2 : ℕ) : ℝ)) * b.2)) ny j i hj hi

/-! ## The points asGrid puts on the stop -/

/-- A real length or vector. -/
inductive RealExt where
  | num (a : ℝ)
  | vec (a b : ℝ)

/-- The argument passed to the code. -/
def RealExt.fin : RealExt → Ext Dbl
  | .num a => .num (Dbl.fin a)
  | .vec a b => .vec (Dbl.fin a) (Dbl.fin b)

/-- The vector meant by a first argument (`dx`, `lx`): a number is a length along x. -/
def RealExt.first : RealExt → ℝ × ℝ
  | .num a => (a, 0)
  | .vec a b => (a, b)

/-- The vector meant by a second argument (`dy`, `ly`): a number is a length along y. -/
def RealExt.second : RealExt → ℝ × ℝ
  | .num a => (0, a)
  | .vec a b => (a, b)

theorem alongX_fin (e : RealExt) : e.fin.alongX = (Dbl.fin e.first.1, Dbl.fin e.first.2) := by
  cases e <;> simp [RealExt.fin, RealExt.first, Ext.alongX]

theorem alongY_fin (e : RealExt) : e.fin.alongY = (Dbl.fin e.second.1, Dbl.fin e.second.2) := by
  cases e <;> simp [RealExt.fin, RealExt.second, Ext.alongY]

/-- The points for sides `lx` and `ly`: the vectors enter as the rows of a matrix. -/
theorem gridPoints_fin {nx ny : ℕ} (hx : 0 < nx) (hy : 0 < ny) (lx ly : RealExt) :
    gridPoints ((nx : ℤ), (ny : ℤ), lx.fin, ly.fin) none =
      .ok ((gridSpec nx ny (lx.first.1 / axisCells nx, ly.second.1 / axisCells nx)
        (lx.first.2 / axisCells ny, ly.second.2 / axisCells ny)).map fun p => (Dbl.fin p.1, Dbl.fin p.2)) := by
  unfold gridPoints
  simp only [gridAxis_fin hx, gridAxis_fin hy]
  show Except.ok (List.map _ (meshgrid _ _)) = _
  unfold meshgrid gridSpec
  rw [List.flatMap_map, List.map_flatMap, List.map_flatMap]
  refine congrArg _ (congrArg (fun f => List.flatMap f _) ?_)
  funext j
  simp only [List.map_map]
  refine List.map_congr_left fun i _ => ?_
  simp only [Function.comp, shear, alongX_fin, alongY_fin, Dbl.mul_fin, Dbl.add_fin, Prod.mk.injEq, Dbl.fin_inj]
  constructor <;> ring

theorem asGrid_eq {a : Args Dbl} {g : GridArgs Dbl} {lx : Option (Ext Dbl)} {s : Setup Dbl} {sh : ℤ × ℤ × Ext Dbl × Ext Dbl}
    {pts : List (Dbl × Dbl)} {draws : Option (List (Dbl × Dbl))} {flux : Dbl} (h1 : gridLength a g = .ok lx) (h2 : setup true a = .ok s)
    (h3 : gridShape { g with lx := lx } = .ok sh) (h4 : gridPoints sh draws = .ok pts) :
    asGrid a g draws flux = launch s pts (flatFlux flux pts) := by
  unfold asGrid
  rw [h1, h2]
  show (gridShape { g with lx := lx } >>= fun sh => gridPoints sh draws >>= fun pts => launch s pts (flatFlux flux pts)) = _
  rw [h3]
  show (gridPoints sh draws >>= fun pts => launch s pts (flatFlux flux pts)) = _
  rw [h4]
  rfl

theorem launch_flat {back : ℝ} {med : Medium Dbl} {surf : Surface Dbl} {stop cs : CoordSys ℝ} {w n : ℝ} {d : V3 ℝ}
    (hstop : stop.rot.Orth) (hcs : cs.rot.Orth) (hn : 0 < n) (hmed : med.getN (Dbl.fin w) = Dbl.fin n)
    (hd : d.y ≠ 0 ∨ d.z ≠ 0) (pts : List (ℝ × ℝ)) (flux : ℝ)
    (hsag : ∀ p ∈ pts, ∃ z, surf.sag (Dbl.fin p.1) (Dbl.fin p.2) = Dbl.fin z) :
    ∃ rv, launch ⟨Dbl.fin back, med, ⟨surf, stop.fin⟩, cs.fin, Dbl.fin w, none, some d.fin⟩
        (pts.map fun p => (Dbl.fin p.1, Dbl.fin p.2)) (flatFlux (Dbl.fin flux) (pts.map fun p => (Dbl.fin p.1, Dbl.fin p.2))) =
          .ok (some rv) ∧
      PlaneWave surf stop cs n w back d pts (List.replicate pts.length flux) rv := by
  have : flatFlux (Dbl.fin flux) (pts.map fun p => (Dbl.fin p.1, Dbl.fin p.2)) = (List.replicate pts.length flux).map Dbl.fin := by
    simp [flatFlux]
  rw [this]
  exact launch_wave hstop hcs hn hmed hd (by simp) hsag

/-! ## C43: plane waves -/

/-- A legal call: the arguments say where the stop is, the frames are orthonormal, the index of refraction is positive and the
direction is not along the x axis. -/
structure LegalCall (a : Args Dbl) (surf : Surface Dbl) (stop cs : CoordSys ℝ) (n w back : ℝ) (d : V3 ℝ) : Prop where
  meaning : ∃ med, Says a back med surf stop cs w d ∧ med.getN (Dbl.fin w) = Dbl.fin n
  stop : stop.rot.Orth
  cs : cs.rot.Orth
  n : 0 < n
  d : d.y ≠ 0 ∨ d.z ≠ 0

/-- The surface has a height at each of the points. -/
def OnSurface (surf : Surface Dbl) (pts : List (ℝ × ℝ)) : Prop :=
  ∀ p ∈ pts, ∃ z, surf.sag (Dbl.fin p.1) (Dbl.fin p.2) = Dbl.fin z

variable {a : Args Dbl} {surf : Surface Dbl} {stop cs : CoordSys ℝ} {n w back : ℝ} {d : V3 ℝ}

/-- **C43** (fromStop; all legal calls and all points): the rays are a plane wave through the requested points.  *Missing*: the
distance is measured from the origin of the ray frame instead of from the stop, see `C43_distance_violated`; a `source` is not
supported, see `C43_source_violated`. -/
theorem C43_fromStop_partial (h : LegalCall a surf stop cs n w back d) (pts : List (ℝ × ℝ)) (hs : OnSurface surf pts) (flux : ℝ) :
    ∃ rv, fromStop a (pts.map fun p => (Dbl.fin p.1, Dbl.fin p.2)) (Dbl.fin flux) = .ok (some rv) ∧
      PlaneWave surf stop cs n w back d pts (List.replicate pts.length flux) rv := by
  obtain ⟨med, hsay, hmed⟩ := h.meaning
  obtain ⟨rv, h1, h2⟩ := launch_flat (back := back) h.stop h.cs h.n hmed h.d pts flux hs
  refine ⟨rv, ?_, h2⟩
  unfold fromStop
  rw [setup_says hsay]
  exact h1

/-- **C43** (asPolar): the same for the points of the hexapolar grid. -/
theorem C43_asPolar_partial (h : LegalCall a surf stop cs n w back d) (junk : ℕ → Dbl) (outer inner : ℝ) (nrad naz kfold : ℕ)
    (ho : 0 < outer) (hi : 0 ≤ inner) (hr : 0 < nrad) (hk : 0 < kfold)
    (hs : OnSurface surf ((hexRings outer inner nrad naz kfold).flatMap fun p => ringXY p.1 p.2)) (flux : ℝ) :
    ∃ rv, asPolar junk a (some (Dbl.fin outer)) (some (Dbl.fin inner)) (some (nrad : ℤ)) (some (naz : ℤ)) (kfold : ℤ) (Dbl.fin flux) =
        .ok (some rv) ∧
      PlaneWave surf stop cs n w back d ((hexRings outer inner nrad naz kfold).flatMap fun p => ringXY p.1 p.2)
        (List.replicate ((hexRings outer inner nrad naz kfold).flatMap fun p => ringXY p.1 p.2).length flux) rv := by
  obtain ⟨med, hsay, hmed⟩ := h.meaning
  obtain ⟨rv, h1, h2⟩ := launch_flat (back := back) h.stop h.cs h.n hmed h.d _ flux hs
  refine ⟨rv, ?_, h2⟩
  have hz : (((hexRings outer inner nrad naz kfold).flatMap (fun p => List.replicate p.2 (Dbl.fin p.1))).zip
      ((hexRings outer inner nrad naz kfold).flatMap (fun p => ringAngles p.2))).map fromPolar =
      ((hexRings outer inner nrad naz kfold).flatMap fun p => ringXY p.1 p.2).map fun p => (Dbl.fin p.1, Dbl.fin p.2) := by
    induction hexRings outer inner nrad naz kfold with
    | nil => rfl
    | cons p l ih =>
      simp only [List.flatMap_cons, List.map_append]
      rw [List.zip_append (by simp [ringAngles]), List.map_append, ih]
      congr 1
      unfold ringAngles ringXY
      rw [show List.replicate p.2 (Dbl.fin p.1) = (List.range p.2).map fun _ => Dbl.fin p.1 by simp, List.zip_map', List.map_map,
        List.map_map]
      refine List.map_congr_left fun j _ => ?_
      simp [fromPolar]
  unfold asPolar
  rw [setup_says hsay]
  have e1 : pupilOuter a (some (Dbl.fin outer)) = .ok (some (Dbl.fin outer)) := by
    unfold pupilOuter fromOptic; cases a.optic <;> rfl
  have e2 : polarInner a (some (Dbl.fin inner)) = .ok (Dbl.fin inner) := by
    unfold polarInner; cases a.optic <;> rfl
  simp only [e1, e2, bind, Except.bind]
  rw [C60_polar junk outer inner nrad naz kfold ho hi hr hk]
  simp only
  rw [hz]
  exact h1

/-- **C43** (defaults of asPolar): without radii the rays fill the pupil of the optic, from `pupilSize*pupilObscuration/2` to
`pupilSize/2`. -/
theorem C43_polar_pupil_partial (h : LegalCall a surf stop cs n w back d) (junk : ℕ → Dbl) {o : OpticAttrs Dbl} (hopt : a.optic = some o)
    {pupil f : ℝ} (hp : o.pupilSize = some (Dbl.fin pupil)) (hf : o.pupilObscuration = some (Dbl.fin f)) (nrad naz kfold : ℕ)
    (hp0 : 0 < pupil) (hf0 : 0 ≤ f) (hr : 0 < nrad) (hk : 0 < kfold)
    (hs : OnSurface surf ((hexRings (pupil / 2) (f * (pupil / 2)) nrad naz kfold).flatMap fun p => ringXY p.1 p.2)) (flux : ℝ) :
    ∃ rv, asPolar junk a none none (some (nrad : ℤ)) (some (naz : ℤ)) (kfold : ℤ) (Dbl.fin flux) = .ok (some rv) ∧
      PlaneWave surf stop cs n w back d ((hexRings (pupil / 2) (f * (pupil / 2)) nrad naz kfold).flatMap fun p => ringXY p.1 p.2)
        (List.replicate ((hexRings (pupil / 2) (f * (pupil / 2)) nrad naz kfold).flatMap fun p => ringXY p.1 p.2).length flux) rv := by
  obtain ⟨rv, h1, h2⟩ := C43_asPolar_partial h junk (pupil / 2) (f * (pupil / 2)) nrad naz kfold (by positivity) (by positivity) hr hk hs flux
  refine ⟨rv, ?_, h2⟩
  have h2' : (2 : Dbl) = Dbl.fin 2 := Dbl.ofNat_dbl' 2
  have e1 : pupilOuter a none = pupilOuter a (some (Dbl.fin (pupil / 2))) := by
    unfold pupilOuter fromOptic
    rw [hopt]
    simp [hp, h2', Dbl.div_fin]
  have e2 : polarInner a none = polarInner a (some (Dbl.fin (f * (pupil / 2)))) := by
    unfold polarInner
    rw [hopt]
    simp only [hp, hf, h2', Dbl.mul_fin, Dbl.div_fin two_ne_zero]
    congr 2
    ring
  rw [← h1]
  unfold asPolar
  rw [e1, e2]

/-- The shape of the grid for a number of rays and a spacing. -/
theorem gridShape_spacing (nx : ℕ) (ny : Option ℕ) (dx : RealExt) (dy : Option RealExt) (g : GridArgs Dbl)
    (hnx : g.nx = some (nx : ℤ)) (hny : g.ny = ny.map fun k : ℕ => (k : ℤ)) (hdx : g.dx = some dx.fin) (hdy : g.dy = dy.map RealExt.fin) :
    gridShape { g with lx := none } =
      .ok ((nx : ℤ), ((ny.getD nx : ℕ) : ℤ), dx.fin.times ((nx : ℤ) - spare nx),
        (dy.getD dx).fin.times (((ny.getD nx : ℕ) : ℤ) - spare (ny.getD nx : ℕ))) := by
  simp only [gridShape, hnx, hny, hdx, hdy]
  cases ny <;> cases dy <;> rfl

/-- A multiple of a length or vector. -/
def RealExt.scale (e : RealExt) (k : ℝ) : RealExt :=
  match e with
  | .num a => .num (a * k)
  | .vec a b => .vec (a * k) (b * k)

theorem times_fin (e : RealExt) (k : ℤ) : e.fin.times k = (e.scale k).fin := by
  cases e <;> simp [RealExt.fin, Ext.times, RealExt.scale]

theorem scale_first (e : RealExt) (k : ℝ) : (e.scale k).first = (e.first.1 * k, e.first.2 * k) := by
  cases e <;> simp [RealExt.first, RealExt.scale]

theorem scale_second (e : RealExt) (k : ℝ) : (e.scale k).second = (e.second.1 * k, e.second.2 * k) := by
  cases e <;> simp [RealExt.second, RealExt.scale]

/-- What becomes of the requested spacing: nothing is left of it when there are two rays. -/
noncomputable def keptSpacing (n : ℕ) : ℝ := (((n : ℤ) - spare n : ℤ) : ℝ) / axisCells n

theorem keptSpacing_one {n : ℕ} (h : 2 < n) : keptSpacing n = 1 := by
  have : (n : ℤ) - spare n = (axisCells n : ℤ) := by
    unfold spare axisCells
    rw [if_neg (show ¬ n ≤ 2 by omega)]
    split_ifs <;> omega
  rw [keptSpacing, this, Int.cast_natCast]
  refine div_self ?_
  have : axisCells n ≠ 0 := by unfold axisCells; split_ifs <;> omega
  exact_mod_cast this

theorem keptSpacing_two : keptSpacing 2 = 0 := by simp [keptSpacing, spare]

/-- asGrid with a number of rays and a spacing, whatever the optic. -/
theorem asGrid_spacing (h : LegalCall a surf stop cs n w back d) {nx : ℕ} {ny : Option ℕ} {dx : RealExt} {dy : Option RealExt}
    (hx : 0 < nx) (hy : 0 < ny.getD nx) {pts : List (ℝ × ℝ)}
    (hp : pts = gridSpec nx (ny.getD nx) (dx.first.1 * keptSpacing nx, (dy.getD dx).second.1 * keptSpacing (ny.getD nx) *
          (axisCells (ny.getD nx) / axisCells nx))
        (dx.first.2 * keptSpacing nx * (axisCells nx / axisCells (ny.getD nx)), (dy.getD dx).second.2 * keptSpacing (ny.getD nx)))
    (hs : OnSurface surf pts) (ly : Option (Ext Dbl)) (flux : ℝ) :
    ∃ rv, asGrid a ⟨some (nx : ℤ), ny.map fun k : ℕ => (k : ℤ), some dx.fin, dy.map RealExt.fin, none, ly⟩ none (Dbl.fin flux) =
        .ok (some rv) ∧
      PlaneWave surf stop cs n w back d pts (List.replicate pts.length flux) rv := by
  obtain ⟨med, hsay, hmed⟩ := h.meaning
  obtain ⟨rv, h1, h2⟩ := launch_flat (back := back) h.stop h.cs h.n hmed h.d pts flux hs
  refine ⟨rv, ?_, h2⟩
  have hL : gridLength a ⟨some (nx : ℤ), ny.map fun k : ℕ => (k : ℤ), some dx.fin, dy.map RealExt.fin, none, ly⟩ = .ok none := by
    unfold gridLength
    cases a.optic <;> rfl
  have hcx : (axisCells nx : ℝ) ≠ 0 := by
    have : axisCells nx ≠ 0 := by unfold axisCells; split_ifs <;> omega
    exact_mod_cast this
  have hcy : (axisCells (ny.getD nx) : ℝ) ≠ 0 := by
    have : axisCells (ny.getD nx) ≠ 0 := by unfold axisCells; split_ifs <;> omega
    exact_mod_cast this
  rw [asGrid_eq hL (setup_says hsay true) (gridShape_spacing nx ny dx dy _ rfl rfl rfl rfl)
    (by rw [times_fin, times_fin]; exact gridPoints_fin hx hy _ _), scale_first, scale_second]
  have : gridSpec nx (ny.getD nx)
      (dx.first.1 * (((nx : ℤ) - spare nx : ℤ) : ℝ) / axisCells nx,
        (dy.getD dx).second.1 * (((ny.getD nx : ℕ) : ℤ) - spare (ny.getD nx : ℕ) : ℤ) / axisCells nx)
      (dx.first.2 * (((nx : ℤ) - spare nx : ℤ) : ℝ) / axisCells (ny.getD nx),
        (dy.getD dx).second.2 * (((ny.getD nx : ℕ) : ℤ) - spare (ny.getD nx : ℕ) : ℤ) / axisCells (ny.getD nx)) = pts := by
    rw [hp]
    unfold keptSpacing
    congr 2
    · field_simp
    · field_simp
    · field_simp
    · field_simp
  simp only
  rw [this]
  exact h1

/-! ## C42: the grid -/

/-- With a single ray along a side, the spacing does not matter. -/
theorem gridSpec_congr {nx ny : ℕ} {p q p' q' : ℝ × ℝ} (h1 : nx = 1 ∨ p = p') (h2 : ny = 1 ∨ q = q') :
    gridSpec nx ny p q = gridSpec nx ny p' q' := by
  unfold gridSpec
  refine List.flatMap_congr fun j hj => List.map_congr_left fun i hi => ?_
  rw [List.mem_range] at hi hj
  have e1 : ∀ f : ℝ × ℝ → ℝ, ((i : ℝ) - ((nx / 2 : ℕ) : ℝ)) * f p = ((i : ℝ) - ((nx / 2 : ℕ) : ℝ)) * f p' := by
    intro f
    rcases h1 with rfl | rfl
    · have : i = 0 := by omega
      subst this; simp
    · rfl
  have e2 : ∀ f : ℝ × ℝ → ℝ, ((j : ℝ) - ((ny / 2 : ℕ) : ℝ)) * f q = ((j : ℝ) - ((ny / 2 : ℕ) : ℝ)) * f q' := by
    intro f
    rcases h2 with rfl | rfl
    · have : j = 0 := by omega
      subst this; simp
    · rfl
  rw [e1 Prod.fst, e1 Prod.snd, e2 Prod.fst, e2 Prod.snd]

/-- **C42** (number of rays and spacing; all sizes except two): `asGrid(nx=, ny=, dx=, dy=)` makes `nx*ny` rays, ray `(j, i)`
through the point `((i - nx//2) dx, (j - ny//2) dy)` of the stop; the missing `ny` and `dy` are `nx` and `dx`.  *Missing*: two
rays along a side, see `C42_two_rays_violated`. -/
theorem C42_spacing_partial (h : LegalCall a surf stop cs n w back d) {nx : ℕ} {ny : Option ℕ} {dx : ℝ} {dy : Option ℝ}
    (hx : 0 < nx) (hy : 0 < ny.getD nx) (hx2 : nx ≠ 2) (hy2 : ny.getD nx ≠ 2)
    (hs : OnSurface surf (gridSpec nx (ny.getD nx) (dx, 0) (0, dy.getD dx))) (ly : Option (Ext Dbl)) (flux : ℝ) :
    ∃ rv, asGrid a ⟨some (nx : ℤ), ny.map fun k : ℕ => (k : ℤ), some (.num (Dbl.fin dx)), dy.map fun y => .num (Dbl.fin y), none, ly⟩
        none (Dbl.fin flux) = .ok (some rv) ∧
      PlaneWave surf stop cs n w back d (gridSpec nx (ny.getD nx) (dx, 0) (0, dy.getD dx))
        (List.replicate (nx * ny.getD nx) flux) rv := by
  have := asGrid_spacing h (dx := .num dx) (dy := dy.map RealExt.num) hx hy (pts := gridSpec nx (ny.getD nx) (dx, 0) (0, dy.getD dx))
    (by
      have hd : ((dy.map RealExt.num).getD (.num dx)).second = (0, dy.getD dx) := by cases dy <;> rfl
      rw [hd]
      refine gridSpec_congr ?_ ?_
      · by_cases h1 : nx = 1
        · exact .inl h1
        · right
          rw [keptSpacing_one (by omega : 2 < nx)]
          simp [RealExt.first]
      · by_cases h1 : ny.getD nx = 1
        · exact .inl h1
        · right
          rw [keptSpacing_one (by omega : 2 < ny.getD nx)]
          simp [RealExt.first])
    hs ly flux
  rw [gridSpec_length] at this
  rw [show (dy.map fun y => (Ext.num (Dbl.fin y))) = (dy.map RealExt.num).map RealExt.fin by cases dy <;> rfl]
  exact this

theorem asGrid_length (h : LegalCall a surf stop cs n w back d) {nx ny : ℕ} {lx ly : RealExt} {g : GridArgs Dbl} {l : Option (Ext Dbl)}
    (hl : gridLength a g = .ok l) (hg : gridShape { g with lx := l } = .ok ((nx : ℤ), (ny : ℤ), lx.fin, ly.fin)) (hx : 0 < nx) (hy : 0 < ny)
    (hs : OnSurface surf (gridSpec nx ny (lx.first.1 / axisCells nx, ly.second.1 / axisCells nx)
        (lx.first.2 / axisCells ny, ly.second.2 / axisCells ny))) (flux : ℝ) :
    ∃ rv, asGrid a g none (Dbl.fin flux) = .ok (some rv) ∧
      PlaneWave surf stop cs n w back d (gridSpec nx ny (lx.first.1 / axisCells nx, ly.second.1 / axisCells nx)
        (lx.first.2 / axisCells ny, ly.second.2 / axisCells ny)) (List.replicate (nx * ny) flux) rv := by
  obtain ⟨med, hsay, hmed⟩ := h.meaning
  obtain ⟨rv, h1, h2⟩ := launch_flat (back := back) h.stop h.cs h.n hmed h.d _ flux hs
  rw [gridSpec_length] at h2
  refine ⟨rv, ?_, h2⟩
  rw [asGrid_eq hl (setup_says hsay true) hg (gridPoints_fin hx hy lx ly)]
  exact h1

/-- **C42** (number of rays and length of the sides): the side of the grid is divided into `axisCells` steps, and ray `(j, i)`
goes through the point of the stop that is `i - nx//2` and `j - ny//2` steps from the origin.  The missing `ny` and `ly` are `nx`
and `lx`. -/
theorem C42_length (h : LegalCall a surf stop cs n w back d) {nx : ℕ} {ny : Option ℕ} {lx : ℝ} {ly : Option ℝ}
    (hx : 0 < nx) (hy : 0 < ny.getD nx)
    (hs : OnSurface surf (gridSpec nx (ny.getD nx) (lx / axisCells nx, 0) (0, ly.getD lx / axisCells (ny.getD nx))))
    (dy : Option (Ext Dbl)) (flux : ℝ) :
    ∃ rv, asGrid a ⟨some (nx : ℤ), ny.map fun k : ℕ => (k : ℤ), none, dy, some (.num (Dbl.fin lx)), ly.map fun y => .num (Dbl.fin y)⟩
        none (Dbl.fin flux) = .ok (some rv) ∧
      PlaneWave surf stop cs n w back d (gridSpec nx (ny.getD nx) (lx / axisCells nx, 0) (0, ly.getD lx / axisCells (ny.getD nx)))
        (List.replicate (nx * ny.getD nx) flux) rv := by
  have e0 : ∀ k : ℕ, (0 : ℝ) / (axisCells k : ℝ) = 0 := fun k => zero_div _
  have := asGrid_length h (nx := nx) (ny := ny.getD nx) (lx := .num lx) (ly := .num (ly.getD lx)) (l := some (.num (Dbl.fin lx)))
    (g := ⟨some (nx : ℤ), ny.map fun k : ℕ => (k : ℤ), none, dy, some (.num (Dbl.fin lx)), ly.map fun y => .num (Dbl.fin y)⟩)
    (by unfold gridLength; cases a.optic <;> rfl) (by unfold gridShape; cases ny <;> cases ly <;> rfl) hx hy
    (by simpa only [RealExt.first, RealExt.second, e0] using hs) flux
  simpa only [RealExt.first, RealExt.second, e0] using this

/-- **C42** (the length is taken from the optic when only the number of rays is given). -/
theorem C42_pupil {F : Type} [Arith F] (a : Args F) (o : OpticAttrs F) (p : F) (ho : a.optic = some o) (hp : o.pupilSize = some p)
    (nx : Option ℤ) (ny : Option ℤ) (dx dy ly : Option (Ext F)) (hnd : nx = none ∨ dx = none) (draws : Option (List (F × F))) (flux : F) :
    asGrid a ⟨nx, ny, dx, dy, none, ly⟩ draws flux = asGrid a ⟨nx, ny, dx, dy, some (.num p), ly⟩ draws flux := by
  have e1 : gridLength a ⟨nx, ny, dx, dy, none, ly⟩ = .ok (some (.num p)) := by
    simp only [gridLength, ho, hp]
    rcases hnd with rfl | rfl <;> simp
  have e2 : gridLength a ⟨nx, ny, dx, dy, some (.num p), ly⟩ = .ok (some (.num p)) := by
    simp only [gridLength]
  unfold asGrid
  rw [e1, e2]

/-- **C42** (extent, odd numbers): the outermost points are half the length to either side of the origin. -/
theorem C42_odd_extent (k : ℕ) (hk : 0 < k) (lx : ℝ) :
    ((0 : ℝ) - (((2 * k + 1) / 2 : ℕ) : ℝ)) * (lx / axisCells (2 * k + 1)) = -(lx / 2) ∧
      (((2 * k : ℕ) : ℝ) - (((2 * k + 1) / 2 : ℕ) : ℝ)) * (lx / axisCells (2 * k + 1)) = lx / 2 := by
  have h1 : axisCells (2 * k + 1) = 2 * k := by
    unfold axisCells; rw [if_neg (by omega), if_neg (by omega)]; omega
  have h2 : (2 * k + 1) / 2 = k := by omega
  have hk' : (k : ℝ) ≠ 0 := by exact_mod_cast hk.ne'
  rw [h1, h2]
  push_cast
  constructor
  · field_simp; ring
  · field_simp; ring

/-- **C42** (extent, even numbers from four): the second and the last points are half the length to either side of the origin;
the first is one step further out. -/
theorem C42_even_extent (k : ℕ) (hk : 0 < k) (lx : ℝ) :
    ((1 : ℝ) - (((2 * k + 2) / 2 : ℕ) : ℝ)) * (lx / axisCells (2 * k + 2)) = -(lx / 2) ∧
      (((2 * k + 1 : ℕ) : ℝ) - (((2 * k + 2) / 2 : ℕ) : ℝ)) * (lx / axisCells (2 * k + 2)) = lx / 2 := by
  have h1 : axisCells (2 * k + 2) = 2 * k := by
    unfold axisCells; rw [if_neg (by omega), if_pos (by omega)]; omega
  have h2 : (2 * k + 2) / 2 = k + 1 := by omega
  have hk' : (k : ℝ) ≠ 0 := by exact_mod_cast hk.ne'
  rw [h1, h2]
  push_cast
  constructor
  · field_simp; ring
  · field_simp; ring

/-- The number of rays inferred from length and spacing. -/
theorem inferCount_fin {l s : ℝ} (hs : s ≠ 0) :
    inferCount (.num (Dbl.fin l)) (.num (Dbl.fin s)) = .ok (⌊(l / s + 1 / 10) / 2⌋ * 2 + 2) := by
  have hc : (Arith.const (1 / 10) : Dbl) = Dbl.fin (1 / 10) := by
    rw [Dbl.const_dbl]; norm_num
  have h2 : (2 : Dbl) = Dbl.fin 2 := Dbl.ofNat_dbl' 2
  simp only [inferCount, Dbl.zero_dbl, Dbl.eq_fin, hs, decide_false, Bool.false_eq_true, if_false, Dbl.div_fin hs, hc, Dbl.add_fin, h2,
    floorDiv_fin (two_ne_zero), toInt_fin, Int.floor_intCast]
  rfl

/-- **C42** (length and spacing): an even number of rays is inferred, `2*floor((lx/dx + 1/10)/2) + 2`, and the spacing is adjusted
to the length. -/
theorem C42_inferred (h : LegalCall a surf stop cs n w back d) {lx dx : ℝ} (hdx : 0 < dx) (hlx : 0 ≤ lx)
    {k : ℕ} (hk : k = ⌊(lx / dx + 1 / 10) / 2⌋₊)
    (hs : OnSurface surf (gridSpec (2 * k + 2) (2 * k + 2) (lx / axisCells (2 * k + 2), 0) (0, lx / axisCells (2 * k + 2)))) (flux : ℝ) :
    ∃ rv, asGrid a ⟨none, none, some (.num (Dbl.fin dx)), none, some (.num (Dbl.fin lx)), none⟩ none (Dbl.fin flux) = .ok (some rv) ∧
      PlaneWave surf stop cs n w back d
        (gridSpec (2 * k + 2) (2 * k + 2) (lx / axisCells (2 * k + 2), 0) (0, lx / axisCells (2 * k + 2)))
        (List.replicate ((2 * k + 2) * (2 * k + 2)) flux) rv := by
  have e0 : ∀ k : ℕ, (0 : ℝ) / (axisCells k : ℝ) = 0 := fun k => zero_div _
  have hc : inferCount (.num (Dbl.fin lx)) (.num (Dbl.fin dx)) = .ok (((2 * k + 2 : ℕ)) : ℤ) := by
    rw [inferCount_fin hdx.ne']
    have hnn : (0 : ℝ) ≤ (lx / dx + 1 / 10) / 2 := by positivity
    have : ⌊(lx / dx + 1 / 10) / 2⌋ = (k : ℤ) := by rw [hk]; exact (Int.natCast_floor_eq_floor hnn).symm
    rw [this]
    push_cast
    congr 1
    ring
  have := asGrid_length h (nx := 2 * k + 2) (ny := 2 * k + 2) (lx := .num lx) (ly := .num lx) (l := some (.num (Dbl.fin lx)))
    (g := ⟨none, none, some (.num (Dbl.fin dx)), none, some (.num (Dbl.fin lx)), none⟩)
    (by unfold gridLength; cases a.optic <;> rfl)
    (by
      simp only [gridShape, Option.getD_none, Ext.turn, hc, bind, Except.bind]
      rfl) (by omega) (by omega)
    (by simpa only [RealExt.first, RealExt.second, e0] using hs) flux
  simpa only [RealExt.first, RealExt.second, e0] using this

/-- **C42**: when the length is an even multiple of the spacing, the spacing is exactly the requested one. -/
theorem C42_even_ratio_partial (h : LegalCall a surf stop cs n w back d) {dx : ℝ} (hdx : 0 < dx) {k : ℕ} (hk : 0 < k)
    (hs : OnSurface surf (gridSpec (2 * k + 2) (2 * k + 2) (dx, 0) (0, dx))) (flux : ℝ) :
    ∃ rv, asGrid a ⟨none, none, some (.num (Dbl.fin dx)), none, some (.num (Dbl.fin (2 * k * dx))), none⟩ none (Dbl.fin flux) =
        .ok (some rv) ∧
      PlaneWave surf stop cs n w back d (gridSpec (2 * k + 2) (2 * k + 2) (dx, 0) (0, dx))
        (List.replicate ((2 * k + 2) * (2 * k + 2)) flux) rv := by
  have hk' : (k : ℝ) ≠ 0 := by exact_mod_cast hk.ne'
  have hf : k = ⌊(2 * k * dx / dx + 1 / 10) / 2⌋₊ := by
    rw [mul_div_cancel_right₀ _ hdx.ne']
    symm
    rw [Nat.floor_eq_iff (by positivity)]
    constructor <;> linarith
  have hc : axisCells (2 * k + 2) = 2 * k := by
    unfold axisCells; rw [if_neg (by omega), if_pos (by omega)]; omega
  have e : 2 * k * dx / (axisCells (2 * k + 2) : ℝ) = dx := by
    rw [hc]; push_cast; field_simp
  have := C42_inferred h (lx := 2 * k * dx) hdx (by positivity) hf (by rw [e]; exact hs) flux
  rw [e] at this
  exact this

/-! ### A simple setting -/

/-- A call with nothing but a wavelength and a direction: straight down. -/
noncomputable def straightArgs : Args Dbl := { wavelength := some (Dbl.fin 1), dirCos := some (⟨0, 0, -1⟩ : V3 ℝ).fin }

theorem globalFrame_orth : globalFrame.rot.Orth := M3.orth_one

theorem straight_legal : LegalCall straightArgs Surface.plane globalFrame globalFrame 1 1 40 ⟨0, 0, -1⟩ where
  meaning := ⟨⟨fun _ => Dbl.fin 1⟩, ⟨.inr ⟨rfl, .inr ⟨rfl, rfl⟩⟩, .inr ⟨rfl, .inr ⟨rfl, rfl⟩⟩, .inr ⟨rfl, .inr ⟨rfl, rfl⟩⟩,
    .inr ⟨rfl, .inr ⟨rfl, rfl⟩⟩, rfl, ⟨rfl, .inl rfl⟩⟩, rfl⟩
  stop := globalFrame_orth
  cs := globalFrame_orth
  n := one_pos
  d := .inr (by norm_num)

theorem plane_onSurface (pts : List (ℝ × ℝ)) : OnSurface Surface.plane pts := fun _ _ => ⟨0, by simp [Surface.plane]⟩

/-- In this setting the rays start right above the points. -/
theorem straight_above {pts : List (ℝ × ℝ)} {flux : List ℝ} {rv : RayVec Dbl}
    (h : PlaneWave Surface.plane globalFrame globalFrame 1 1 40 ⟨0, 0, -1⟩ pts flux rv) {i : ℕ} {p : ℝ × ℝ} {f : ℝ}
    (hp : pts[i]? = some p) (hf : flux[i]? = some f) :
    (rv.rays[i]?).map (fun ray => (ray.r.x, ray.r.y)) = some (Dbl.fin p.1, Dbl.fin p.2) := by
  obtain ⟨v, ⟨c, hc, rfl⟩, _, hr⟩ := h.rays
  obtain ⟨r, z, T, h1, _, _, h4⟩ := hr i p f hp hf
  have e : ∀ q : V3 ℝ, globalFrame.toLocal (globalFrame.toGlobal q) = q := CoordSys.toLocal_toGlobal globalFrame_orth
  rw [e] at h4
  have hx := congrArg V3.x h4
  have hy := congrArg V3.y h4
  simp at hx hy
  rw [h1]
  simp [hx, hy]

/-- **C42** (violated for two rays along a side): the length computed from `nx = 2` and `dx` is zero, and all four rays of
`asGrid(nx=2, dx=dx)` go through the origin instead of being `dx` apart. -/
theorem C42_two_rays_violated (dx : ℝ) (hdx : dx ≠ 0) :
    ∃ rv, asGrid straightArgs ⟨some 2, none, some (.num (Dbl.fin dx)), none, none, none⟩ none (Dbl.fin 1) = .ok (some rv) ∧
      rv.rays.length = 4 ∧ (∀ i < 4, (rv.rays[i]?).map (fun ray => (ray.r.x, ray.r.y)) = some (Dbl.fin 0, Dbl.fin 0)) ∧
      ¬ PlaneWave Surface.plane globalFrame globalFrame 1 1 40 ⟨0, 0, -1⟩ (gridSpec 2 2 (dx, 0) (0, dx)) (List.replicate 4 1) rv := by
  obtain ⟨rv, h1, h2⟩ := asGrid_spacing straight_legal (nx := 2) (ny := none) (dx := .num dx) (dy := none) (by omega) (by simp)
    (pts := gridSpec 2 2 (0, 0) (0, 0)) (by simp [RealExt.first, RealExt.second, keptSpacing_two]) (plane_onSurface _) none 1
  have hz : ∀ i < 4, (gridSpec 2 2 (0, 0) (0, 0))[i]? = some (0, 0) := by
    intro i hi
    obtain ⟨j, k, hj, hk, rfl⟩ : ∃ j k, j < 2 ∧ k < 2 ∧ i = j * 2 + k := ⟨i / 2, i % 2, by omega, by omega, by omega⟩
    rw [gridSpec_at hk hj]; simp
  have hall : ∀ i < 4, (rv.rays[i]?).map (fun ray => (ray.r.x, ray.r.y)) = some (Dbl.fin 0, Dbl.fin 0) := by
    intro i hi
    exact straight_above h2 (f := 1) (hz i hi) (by rw [gridSpec_length, List.getElem?_replicate, if_pos hi])
  refine ⟨rv, h1, ?_, hall, ?_⟩
  · rw [h2.size, gridSpec_length]
  · intro hw
    have h0 := straight_above hw (i := 0) (f := 1) (gridSpec_at (i := 0) (j := 0) (nx := 2) (ny := 2) (by omega) (by omega) _ _) (by simp)
    rw [hall 0 (by omega)] at h0
    simp at h0
    exact hdx h0

/-- **C42** (violated for length and spacing): `asGrid(lx=3, dx=1)` makes a grid that is not one of spacing one, whatever the
numbers of rays. -/
theorem C42_adjusted_violated :
    ∃ rv, asGrid straightArgs ⟨none, none, some (.num (Dbl.fin 1)), none, some (.num (Dbl.fin 3)), none⟩ none (Dbl.fin 1) = .ok (some rv) ∧
      ∀ nx ny, 0 < nx → 0 < ny →
        ¬ PlaneWave Surface.plane globalFrame globalFrame 1 1 40 ⟨0, 0, -1⟩ (gridSpec nx ny (1, 0) (0, 1)) (List.replicate (nx * ny) 1) rv := by
  have hk : 1 = ⌊((3 : ℝ) / 1 + 1 / 10) / 2⌋₊ := by
    symm; rw [Nat.floor_eq_iff (by norm_num)]; norm_num
  obtain ⟨rv, h1, h2⟩ := C42_inferred straight_legal (lx := 3) (dx := 1) one_pos (by norm_num) hk (plane_onSurface _) 1
  refine ⟨rv, h1, fun nx ny hx hy hw => ?_⟩
  have hlen : nx * ny = 16 := by
    have := h2.size.symm.trans hw.size
    rw [gridSpec_length, gridSpec_length] at this
    omega
  have e1 := straight_above h2 (i := 0) (f := 1) (gridSpec_at (i := 0) (j := 0) (nx := 4) (ny := 4) (by omega) (by omega) _ _) (by simp)
  have e2 := straight_above hw (i := 0) (f := 1)
    (by simpa using gridSpec_at (i := 0) (j := 0) (nx := nx) (ny := ny) hx hy (1, 0) (0, 1)) (by simp [hlen])
  rw [e1] at e2
  have hc : axisCells 4 = 2 := rfl
  simp only [hc, Option.some.injEq, Prod.mk.injEq, Dbl.fin_inj] at e2
  obtain ⟨ex, ey⟩ := e2
  norm_num at ex ey
  have hx6 : nx / 2 = 3 := by exact_mod_cast ex.symm
  have hy6 : ny / 2 = 3 := by exact_mod_cast ey.symm
  have a1 : 6 ≤ nx := by omega
  have a2 : 6 ≤ ny := by omega
  nlinarith

/-- How many of the three arguments are given. -/
def givenCount {F : Type} (g : GridArgs F) : ℕ :=
  (if g.nx.isSome then 1 else 0) + (if g.dx.isSome then 1 else 0) + (if g.lx.isSome then 1 else 0)

/-- **C42** (exactly two of `nx`, `dx`, `lx`): without an optic, any other number of them is rejected, in every arithmetic. -/
theorem C42_exactly_two {F : Type} [Arith F] (a : Args F) (g : GridArgs F) (ho : a.optic = none) (hg : givenCount g ≠ 2)
    (draws : Option (List (F × F))) (flux : F) : ∃ e, asGrid a g draws flux = .error e := by
  have hl : gridLength a g = .ok g.lx := by
    unfold gridLength
    rw [ho]
    cases g.lx <;> rfl
  have hs : gridShape { g with lx := g.lx } = .error .valueError := by
    obtain ⟨nx, ny, dx, dy, lx, ly⟩ := g
    cases nx <;> cases dx <;> cases lx <;> first | rfl | (exfalso; revert hg; simp [givenCount])
  unfold asGrid
  rw [hl]
  show ∃ e, (setup true a >>= fun s => gridShape { g with lx := g.lx } >>= fun sh => _) = _
  rw [hs]
  cases setup true a with
  | error e => exact ⟨e, rfl⟩
  | ok s => exact ⟨.valueError, rfl⟩

/-- **C42**: with the other arguments in order, the exception is `ValueError`. -/
theorem C42_exactly_two_error (h : LegalCall a surf stop cs n w back d) (g : GridArgs Dbl) (ho : a.optic = none)
    (hg : givenCount g ≠ 2) (draws : Option (List (Dbl × Dbl))) (flux : Dbl) : asGrid a g draws flux = .error .valueError := by
  obtain ⟨med, hsay, _⟩ := h.meaning
  have hl : gridLength a g = .ok g.lx := by
    unfold gridLength
    rw [ho]
    cases g.lx <;> rfl
  have hs : gridShape { g with lx := g.lx } = .error .valueError := by
    obtain ⟨nx, ny, dx, dy, lx, ly⟩ := g
    cases nx <;> cases dx <;> cases lx <;> first | rfl | (exfalso; revert hg; simp [givenCount])
  unfold asGrid
  rw [hl, setup_says hsay]
  show (gridShape { g with lx := g.lx } >>= fun sh => _) = _
  rw [hs]
  rfl

/-- Non-vacuity: a legal call of every kind, for a five by four grid. -/
example : ∃ rv, asGrid straightArgs ⟨some 5, some 4, some (.num (Dbl.fin 2)), some (.num (Dbl.fin 3)), none, none⟩ none (Dbl.fin 1) =
    .ok (some rv) ∧ rv.rays.length = 20 := by
  obtain ⟨rv, h1, h2⟩ := C42_spacing_partial straight_legal (nx := 5) (ny := some 4) (dx := 2) (dy := some 3) (by omega) (by simp)
    (by omega) (by simp) (plane_onSurface _) none 1
  exact ⟨rv, h1, by rw [h2.size, gridSpec_length]; rfl⟩

/-! ## C44: lattice vectors -/

/-- **C44** (what happens, square grids of more than two rays a side): the components of the given vectors enter transposed: point
`(j, i)` is at `(i dx[0] + j dx[1], i dy[0] + j dy[1])`, and a missing `dy` is `dx` itself. -/
theorem C44_transposed (h : LegalCall a surf stop cs n w back d) {k : ℕ} (hk : 2 < k) {dx : ℝ × ℝ} {dy : Option (ℝ × ℝ)}
    (hs : OnSurface surf (gridSpec k k (dx.1, (dy.getD dx).1) (dx.2, (dy.getD dx).2))) (flux : ℝ) :
    ∃ rv, asGrid a ⟨some (k : ℤ), none, some (.vec (Dbl.fin dx.1) (Dbl.fin dx.2)), dy.map fun y => .vec (Dbl.fin y.1) (Dbl.fin y.2),
        none, none⟩ none (Dbl.fin flux) = .ok (some rv) ∧
      PlaneWave surf stop cs n w back d (gridSpec k k (dx.1, (dy.getD dx).1) (dx.2, (dy.getD dx).2)) (List.replicate (k * k) flux) rv := by
  have hcx : (axisCells k : ℝ) ≠ 0 := by
    have : axisCells k ≠ 0 := by unfold axisCells; split_ifs <;> omega
    exact_mod_cast this
  have := asGrid_spacing h (nx := k) (ny := none) (dx := .vec dx.1 dx.2) (dy := dy.map fun y => .vec y.1 y.2) (by omega)
    (by simp; omega) (pts := gridSpec k k (dx.1, (dy.getD dx).1) (dx.2, (dy.getD dx).2))
    (by
      have hd : ((dy.map fun y => RealExt.vec y.1 y.2).getD (.vec dx.1 dx.2)).second = dy.getD dx := by cases dy <;> rfl
      simp only [Option.getD_none, hd, keptSpacing_one hk, RealExt.first, div_self hcx, mul_one])
    hs none flux
  rw [gridSpec_length] at this
  rw [show (dy.map fun y => (Ext.vec (Dbl.fin y.1) (Dbl.fin y.2))) = (dy.map fun y => RealExt.vec y.1 y.2).map RealExt.fin by
    cases dy <;> rfl]
  exact this

/-- **C44** (the documented lattice, when the matrix of the two vectors is symmetric): then point `(j, i)` is at `i dx + j dy`.
*Missing*: all other pairs of vectors, and the default of `dy`; see `C44_vectors_violated` and `C44_default_violated`. -/
theorem C44_symmetric_partial (h : LegalCall a surf stop cs n w back d) {k : ℕ} (hk : 2 < k) {dx dy : ℝ × ℝ} (hsym : dx.2 = dy.1)
    (hs : OnSurface surf (gridSpec k k dx dy)) (flux : ℝ) :
    ∃ rv, asGrid a ⟨some (k : ℤ), none, some (.vec (Dbl.fin dx.1) (Dbl.fin dx.2)), some (.vec (Dbl.fin dy.1) (Dbl.fin dy.2)),
        none, none⟩ none (Dbl.fin flux) = .ok (some rv) ∧
      PlaneWave surf stop cs n w back d (gridSpec k k dx dy) (List.replicate (k * k) flux) rv := by
  have e1 : (dx.1, dy.1) = dx := by rw [← hsym]
  have e2 : (dx.2, dy.2) = dy := by rw [hsym]
  have := C44_transposed h hk (dx := dx) (dy := some dy) (by simpa only [Option.getD_some, e1, e2] using hs) flux
  simpa only [Option.getD_some, Option.map_some, e1, e2] using this

/-- **C44** (violated): with `dx = (1, 1)`, `dy = (0, 1)` the grid of `asGrid(nx=3, ...)` is not that of the lattice vectors. -/
theorem C44_vectors_violated :
    ∃ rv, asGrid straightArgs ⟨some 3, none, some (.vec (Dbl.fin 1) (Dbl.fin 1)), some (.vec (Dbl.fin 0) (Dbl.fin 1)), none, none⟩ none
        (Dbl.fin 1) = .ok (some rv) ∧
      ¬ PlaneWave Surface.plane globalFrame globalFrame 1 1 40 ⟨0, 0, -1⟩ (gridSpec 3 3 (1, 1) (0, 1)) (List.replicate 9 1) rv := by
  obtain ⟨rv, h1, h2⟩ := C44_transposed straight_legal (k := 3) (by omega) (dx := (1, 1)) (dy := some (0, 1)) (plane_onSurface _) 1
  refine ⟨rv, h1, fun hw => ?_⟩
  have e1 := straight_above h2 (i := 0) (f := 1) (gridSpec_at (i := 0) (j := 0) (nx := 3) (ny := 3) (by omega) (by omega) _ _) (by simp)
  have e2 := straight_above hw (i := 0) (f := 1) (gridSpec_at (i := 0) (j := 0) (nx := 3) (ny := 3) (by omega) (by omega) _ _) (by simp)
  rw [e1] at e2
  simp at e2

/-- **C44** (violated): the documented default of `dy` is `dx` turned by 90 degrees; with `dx = (1, 0)` given as a vector, all the
rays of `asGrid(nx=3, dx=(1, 0))` lie on one line. -/
theorem C44_default_violated :
    ∃ rv, asGrid straightArgs ⟨some 3, none, some (.vec (Dbl.fin 1) (Dbl.fin 0)), none, none, none⟩ none (Dbl.fin 1) = .ok (some rv) ∧
      (∀ i < 9, ∃ x, (rv.rays[i]?).map (fun ray => (ray.r.x, ray.r.y)) = some (Dbl.fin x, Dbl.fin x)) ∧
      ¬ PlaneWave Surface.plane globalFrame globalFrame 1 1 40 ⟨0, 0, -1⟩ (gridSpec 3 3 (1, 0) (0, 1)) (List.replicate 9 1) rv := by
  obtain ⟨rv, h1, h2⟩ := C44_transposed straight_legal (k := 3) (by omega) (dx := (1, 0)) (dy := none) (plane_onSurface _) 1
  refine ⟨rv, h1, fun i hi => ?_, fun hw => ?_⟩
  · obtain ⟨j, k, hj, hk, rfl⟩ : ∃ j k, j < 3 ∧ k < 3 ∧ i = j * 3 + k := ⟨i / 3, i % 3, by omega, by omega, by omega⟩
    exact ⟨_, straight_above h2 (f := 1) (gridSpec_at hk hj _ _) (by rw [List.getElem?_replicate, if_pos hi])⟩
  · have e1 := straight_above h2 (i := 1) (f := 1) (gridSpec_at (i := 1) (j := 0) (nx := 3) (ny := 3) (by omega) (by omega) _ _) (by simp)
    have e2 := straight_above hw (i := 1) (f := 1) (gridSpec_at (i := 1) (j := 0) (nx := 3) (ny := 3) (by omega) (by omega) _ _) (by simp)
    rw [e1] at e2
    simp at e2

/-- An optic with a pupil of 4 and a central obscuration of one half. -/
noncomputable def annularArgs : Args Dbl :=
  { straightArgs with optic := some ⟨some (Dbl.fin 40), some ⟨fun _ => Dbl.fin 1⟩, some ⟨Surface.plane, globalFrame.fin⟩, some (Dbl.fin 4), some (Dbl.fin (1 / 2)), globalFrame.fin⟩ }

theorem annular_legal : LegalCall annularArgs Surface.plane globalFrame globalFrame 1 1 40 ⟨0, 0, -1⟩ where
  meaning := ⟨_, ⟨.inr ⟨rfl, .inl ⟨_, rfl, rfl⟩⟩, .inr ⟨rfl, .inl ⟨_, rfl, rfl⟩⟩, .inr ⟨rfl, .inl ⟨_, rfl, rfl⟩⟩, .inr ⟨rfl, .inl ⟨_, rfl, rfl⟩⟩, rfl, ⟨rfl, .inl rfl⟩⟩, rfl⟩
  stop := globalFrame_orth
  cs := globalFrame_orth
  n := one_pos
  d := .inr (by norm_num)

/-- Three rings from radius 1 to radius 2. -/
example : ∃ rv, asPolar (fun _ => 0) annularArgs none none (some 3) (some 12) 6 (Dbl.fin 1) = .ok (some rv) ∧
    PlaneWave Surface.plane globalFrame globalFrame 1 1 40 ⟨0, 0, -1⟩ ((hexRings (4 / 2) (1 / 2 * (4 / 2)) 3 12 6).flatMap fun p => ringXY p.1 p.2)
      (List.replicate ((hexRings (4 / 2) (1 / 2 * (4 / 2)) 3 12 6).flatMap fun p => ringXY p.1 p.2).length 1) rv :=
  C43_polar_pupil_partial annular_legal (fun _ => 0) rfl rfl rfl 3 12 6 (by norm_num) (by norm_num) (by norm_num) (by norm_num) (plane_onSurface _) 1

end Batoid.Props
