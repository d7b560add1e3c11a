import Verif.Pyramid
import Mathlib.Data.Nat.Find
import Mathlib.Tactic.Linarith
import Mathlib.Tactic.Ring

/-!
# Property C103: the layout of Zernike plots

The specification vocabulary: `NollLike` is what is used of the numbering of the Zernike polynomials by `galsim.zernike.noll_to_zern`, and
`nollIndex` the numbering itself.
-/

namespace Batoid.Props
open Batoid Arith Pyramid

/-- Different indices belong to different pairs of a radial order `n` and an azimuthal order `m`, with `|m| ≤ n` of the same parity; the radial
order grows with the index. -/
structure NollLike (noll : ℤ → ℤ × ℤ) : Prop where
  low : ∀ j, 1 ≤ j → -(noll j).1 ≤ (noll j).2
  high : ∀ j, 1 ≤ j → (noll j).2 ≤ (noll j).1
  parity : ∀ j, 1 ≤ j → ((noll j).1 - (noll j).2) % 2 = 0
  inj : ∀ j k, 1 ≤ j → 1 ≤ k → noll j = noll k → j = k
  mono : ∀ j k, 1 ≤ j → j ≤ k → (noll j).1 ≤ (noll k).1
  one : (noll 1).1 = 0
  two : 0 < (noll 2).1
  four : noll 4 = (2, 0)
  five : noll 5 = (2, -2)

theorem panels_ok {α β ε : Type} {f : α → Except ε β} {g : α → β} : ∀ (l : List α), (∀ a ∈ l, f a = .ok (g a)) → l.mapM f = .ok (l.map g)
  | [], _ => rfl
  | a :: l, h => by
    rw [List.mapM_cons, h a (by simp), panels_ok l fun b hb => h b (by simp [hb])]
    rfl

/-- What C103 says about a panel and those beside it. -/
structure PanelOf (noll : ℤ → ℤ × ℤ) (count : ℕ) (jmin : ℤ) {F : Type} (p : Panel F) : Prop where
  index : p.index = p.j - jmin ∧ 0 ≤ p.index ∧ p.index < count
  row : p.row = (noll p.j).1 - (noll jmin).1
  inGrid : 0 ≤ p.row ∧ p.row ≤ (noll (count + jmin - 1)).1 - (noll jmin).1 ∧ 0 ≤ p.col ∧ p.col ≤ (noll (count + jmin - 1)).1
  place : 2 * p.col + p.moved = (noll p.j).2 + (noll (count + jmin - 1)).1

theorem cell_place {nmin nmax n m : ℤ} (hp : (n - m) % 2 = 0) :
    (cell nmin (nmax + 1) n m).1 = n - nmin ∧ 2 * (cell nmin (nmax + 1) n m).2 + moved nmax n = m + nmax := by
  unfold cell moved
  split_ifs <;> refine ⟨rfl, ?_⟩ <;> simp only <;> omega

theorem amount_one {noll : ℤ → ℤ × ℤ} (hz : NollLike noll) (nmin ncol : ℤ) : amount noll nmin ncol = 1 := by
  simp only [amount, hz.four, hz.five, cell]
  norm_num

theorem cell_bounds {nmin nmax n m : ℤ} (hp : (n - m) % 2 = 0) (h1 : -n ≤ m) (h2 : m ≤ n) (h3 : n ≤ nmax) :
    0 ≤ (cell nmin (nmax + 1) n m).2 ∧ (cell nmin (nmax + 1) n m).2 ≤ nmax := by
  unfold cell
  split_ifs <;> constructor <;> simp only <;> omega

section
variable {F : Type} [Arith F]

theorem pyramid_ok {noll : ℤ → ℤ × ℤ} (hz : NollLike noll) {count : ℕ} {jmin : ℤ} (h1 : 1 ≤ jmin) (h4 : jmin ≤ 4) (h5 : 6 ≤ count + jmin)
    {vdim : Bool} (hv : vdim = true → 2 ≤ jmin) (vmin vmax : F) :
    zernikePyramid noll count jmin vdim vmin vmax = .ok (((List.range count).map fun k : ℕ => jmin + (k : ℤ)).map fun j =>
      ⟨j, (cell (noll jmin).1 ((noll (count + jmin - 1)).1 + 1) (noll j).1 (noll j).2).1,
        (cell (noll jmin).1 ((noll (count + jmin - 1)).1 + 1) (noll j).1 (noll j).2).2, moved (noll (count + jmin - 1)).1 (noll j).1, j - jmin,
        if vdim then vmin / const ((noll j).1 : ℚ) else vmin, if vdim then vmax / const ((noll j).1 : ℚ) else vmax⟩) := by
  unfold zernikePyramid
  have hm := hz.mono jmin (count + jmin - 1) h1 (by omega)
  simp only
  rw [if_neg (by omega), if_neg (by omega)]
  rw [panels_ok _ (g := fun j => _)]
  · simp only [bind, Except.bind, pure, Except.pure]
    rw [if_pos (by omega)]
  · intro j hj
    simp only [List.mem_map, List.mem_range] at hj
    obtain ⟨k, hk, rfl⟩ := hj
    unfold panel Pyramid.range
    simp only [amount_one hz, mul_one]
    cases vdim with
    | false => rfl
    | true =>
      have h0 : (noll (jmin + k)).1 ≠ 0 := by
        have := hz.mono 2 (jmin + k) (by omega) (by have := hv rfl; omega)
        have := hz.two
        omega
      simp [h0, bind, Except.bind, pure, Except.pure]

/-- C103: `zernikePyramid` makes one panel for every coefficient, in order, which shows that coefficient; its row is its radial order, and
from left to right the panels are placed by their azimuthal order `m`, such that every row is centred; all cells are within the grid and
different.  With `vdim` the colour range is divided by the radial order.  (Missing: `jmin` above 4 or fewer coefficients than up to 5, and
`jmin = 1` with `vdim`.) -/
theorem C103_layout_partial {noll : ℤ → ℤ × ℤ} (hz : NollLike noll) {count : ℕ} {jmin : ℤ} (h1 : 1 ≤ jmin) (h4 : jmin ≤ 4) (h5 : 6 ≤ count + jmin)
    {vdim : Bool} (hv : vdim = true → 2 ≤ jmin) (vmin vmax : F) :
    ∃ ps : List (Panel F), zernikePyramid noll count jmin vdim vmin vmax = .ok ps ∧
      ps.map Panel.j = (List.range count).map (fun k : ℕ => jmin + (k : ℤ)) ∧ (∀ p ∈ ps, PanelOf noll count jmin p) ∧
      (ps.map fun p => (p.row, p.col)).Nodup ∧
      (∀ p ∈ ps, p.vmin = (if vdim then vmin / const ((noll p.j).1 : ℚ) else vmin) ∧ p.vmax = (if vdim then vmax / const ((noll p.j).1 : ℚ) else vmax)) := by
  refine ⟨_, pyramid_ok hz h1 h4 h5 hv vmin vmax, ?_, ?_, ?_, ?_⟩
  · rw [List.map_map]
    exact List.map_id'' (fun _ => rfl) _
  · intro p hp
    simp only [List.map_map, List.mem_map, List.mem_range, Function.comp_apply] at hp
    obtain ⟨k, hk, rfl⟩ := hp
    have hj : 1 ≤ jmin + (k : ℤ) := by omega
    have c1 := cell_place (nmin := (noll jmin).1) (nmax := (noll (count + jmin - 1)).1) (hz.parity _ hj)
    have hm1 := hz.mono jmin (jmin + k) h1 (by omega)
    have hm2 := hz.mono (jmin + k) (count + jmin - 1) hj (by omega)
    have c2 := cell_bounds (nmin := (noll jmin).1) (hz.parity _ hj) (hz.low _ hj) (hz.high _ hj) hm2
    refine ⟨⟨rfl, by simp, by simp; omega⟩, c1.1, ⟨?_, ?_, c2.1, c2.2⟩, c1.2⟩
    · simp only; rw [c1.1]; omega
    · simp only; rw [c1.1]; omega
  · rw [List.map_map, List.map_map]
    refine List.Nodup.map_on ?_ List.nodup_range
    intro a ha b hb e
    simp only [Function.comp_apply, Prod.mk.injEq] at e
    have ha' : 1 ≤ jmin + (a : ℤ) := by omega
    have hb' : 1 ≤ jmin + (b : ℤ) := by omega
    have c1 := cell_place (nmin := (noll jmin).1) (nmax := (noll (count + jmin - 1)).1) (hz.parity _ ha')
    have c2 := cell_place (nmin := (noll jmin).1) (nmax := (noll (count + jmin - 1)).1) (hz.parity _ hb')
    have e1 : (noll (jmin + a)).1 = (noll (jmin + b)).1 := by
      have := e.1
      rw [c1.1, c2.1] at this
      omega
    have e2 : (noll (jmin + a)).2 = (noll (jmin + b)).2 := by
      have h := c1.2
      rw [e.2, e1, c2.2] at h
      omega
    have := hz.inj _ _ ha' hb' (Prod.ext e1 e2)
    omega
  · intro p hp
    simp only [List.map_map, List.mem_map, List.mem_range, Function.comp_apply] at hp
    obtain ⟨k, hk, rfl⟩ := hp
    exact ⟨rfl, rfl⟩

/-- With the default `vdim` no plot can begin at the piston: division by zero. -/
theorem C103_piston_violated {noll : ℤ → ℤ × ℤ} (hz : NollLike noll) (count : ℕ) (vmin vmax : F) :
    zernikePyramid noll (count + 1) 1 true vmin vmax = .error .zeroDivisionError := by
  unfold zernikePyramid
  have hm := hz.mono 1 (((count + 1 : ℕ) : ℤ) + 1 - 1) le_rfl (by omega)
  simp only
  rw [if_neg (by omega), if_neg (by omega), List.range_succ_eq_map]
  simp only [List.map_cons, List.mapM_cons, Nat.cast_zero, add_zero]
  simp [panel, Pyramid.range, hz.one, bind, Except.bind]

/-- No plot can begin above 4. -/
theorem C103_start_violated {noll : ℤ → ℤ × ℤ} (hz : NollLike noll) (count : ℕ) {jmin : ℤ} (h : 4 < jmin) (vmin vmax : F) :
    zernikePyramid noll (count + 1) jmin false vmin vmax = .error .keyError := by
  unfold zernikePyramid
  have hm := hz.mono jmin (((count + 1 : ℕ) : ℤ) + jmin - 1) (by omega) (by omega)
  simp only
  rw [if_neg (by omega), if_neg (by omega)]
  rw [panels_ok (f := panel noll jmin (noll jmin).1 (noll (((count + 1 : ℕ) : ℤ) + jmin - 1)).1 ((noll (((count + 1 : ℕ) : ℤ) + jmin - 1)).1 + 1) false
    vmin vmax) _ (g := fun j => _) (fun j _ => rfl)]
  simp only [bind, Except.bind]
  rw [if_neg (by omega)]

end

/-! ## The numbering -/

/-- How many polynomials have a radial order below `n`. -/
def tri (n : ℕ) : ℕ := n * (n + 1) / 2

theorem tri_succ (n : ℕ) : tri (n + 1) = tri n + (n + 1) := by
  unfold tri
  have : (n + 1) * (n + 1 + 1) = n * (n + 1) + (n + 1) * 2 := by ring
  rw [this, Nat.add_mul_div_right _ _ (by norm_num)]

/-- The radial order of an index. -/
def nollRow (j : ℕ) : ℕ := Nat.findGreatest (fun n => tri n < j) j

theorem tri_mono {a b : ℕ} (h : a ≤ b) : tri a ≤ tri b := by
  induction h with
  | refl => exact le_rfl
  | step _ ih => rw [Nat.succ_eq_add_one, tri_succ]; omega

theorem le_tri (n : ℕ) : n ≤ tri n := by
  induction n with
  | zero => exact Nat.zero_le _
  | succ n ih => rw [tri_succ]; omega

theorem nollRow_spec {j : ℕ} (hj : 1 ≤ j) : tri (nollRow j) < j ∧ j ≤ tri (nollRow j) + nollRow j + 1 := by
  constructor
  · exact Nat.findGreatest_spec (P := fun n => tri n < j) (Nat.zero_le j) (by simp [tri]; omega)
  · by_contra h
    have h1 : tri (nollRow j + 1) < j := by rw [tri_succ]; omega
    have h2 : nollRow j + 1 ≤ j := by have := le_tri (nollRow j + 1); omega
    have := Nat.le_findGreatest (P := fun n => tri n < j) h2 h1
    have e : Nat.findGreatest (fun n => tri n < j) j = nollRow j := rfl
    omega

/-- The absolute azimuthal order of the `k`-th polynomial (from 1) of the radial order `n`. -/
def nollAbs (n k : ℕ) : ℕ := if n % 2 = 0 then k / 2 * 2 else (k - 1) / 2 * 2 + 1

/-- Noll's numbering: even indices belong to cosines (`m > 0`), odd ones to sines. -/
def nollIndex (j : ℤ) : ℤ × ℤ :=
  let n := nollRow j.toNat
  let a : ℤ := nollAbs n (j.toNat - tri n)
  (n, if j % 2 = 0 then a else -a)

theorem nollIndex_like : NollLike nollIndex := by
  have key : ∀ j : ℤ, 1 ≤ j → nollAbs (nollRow j.toNat) (j.toNat - tri (nollRow j.toNat)) ≤ nollRow j.toNat ∧
      nollAbs (nollRow j.toNat) (j.toNat - tri (nollRow j.toNat)) % 2 = nollRow j.toNat % 2 := by
    intro j hj
    obtain ⟨h1, h2⟩ := nollRow_spec (j := j.toNat) (by omega)
    generalize nollRow j.toNat = n at *
    unfold nollAbs
    split_ifs <;> constructor <;> omega
  have mono : ∀ a b : ℕ, 1 ≤ a → a ≤ b → nollRow a ≤ nollRow b := by
    intro a b ha hab
    obtain ⟨h1, -⟩ := nollRow_spec ha
    obtain ⟨-, h4⟩ := nollRow_spec (ha.trans hab)
    by_contra h
    have := tri_mono (show nollRow b + 1 ≤ nollRow a by omega)
    rw [tri_succ] at this
    omega
  refine ⟨?_, ?_, ?_, ?_, ?_, ?_, ?_, ?_, ?_⟩
  · intro j hj
    obtain ⟨h1, h2⟩ := key j hj
    simp only [nollIndex]
    split_ifs <;> omega
  · intro j hj
    obtain ⟨h1, h2⟩ := key j hj
    simp only [nollIndex]
    split_ifs <;> omega
  · intro j hj
    obtain ⟨h1, h2⟩ := key j hj
    simp only [nollIndex]
    split_ifs <;> omega
  · intro j k hj hk e
    have e1 : nollRow j.toNat = nollRow k.toNat := by
      have := congrArg Prod.fst e
      simpa [nollIndex] using this
    have e2 := congrArg Prod.snd e
    simp only [nollIndex] at e2
    obtain ⟨h1, h2⟩ := nollRow_spec (j := j.toNat) (by omega)
    obtain ⟨h3, h4⟩ := nollRow_spec (j := k.toNat) (by omega)
    rw [← e1] at h3 h4 e2
    generalize nollRow j.toNat = n at *
    generalize tri n = t at *
    unfold nollAbs at e2
    split_ifs at e2 <;> omega
  · intro j k hj hk
    simp only [nollIndex]
    exact_mod_cast mono j.toNat k.toNat (by omega) (by omega)
  · simp only [nollIndex]
    obtain ⟨h1, -⟩ := nollRow_spec (j := (1 : ℤ).toNat) (by simp)
    have h2 := le_tri (nollRow (1 : ℤ).toNat)
    have h3 : (1 : ℤ).toNat = 1 := rfl
    omega
  · simp only [nollIndex]
    obtain ⟨-, h2⟩ := nollRow_spec (j := (2 : ℤ).toNat) (by decide)
    have h3 : (2 : ℤ).toNat = 2 := rfl
    by_contra h
    have h4 : nollRow (2 : ℤ).toNat = 0 := by omega
    rw [h4, h3] at h2
    simp [tri] at h2
  · simp [nollIndex, nollRow, tri, nollAbs, Nat.findGreatest]
  · simp [nollIndex, nollRow, tri, nollAbs, Nat.findGreatest]

/-- The plot of Z4 to Z22 exists. -/
example : ∃ ps : List (Panel Dbl), zernikePyramid nollIndex 19 4 true (-1) 1 = .ok ps ∧ ∀ p ∈ ps, PanelOf nollIndex 19 4 p := by
  obtain ⟨ps, h1, -, h2, -⟩ := C103_layout_partial nollIndex_like (count := 19) (jmin := 4) (vdim := true) (by norm_num) (by norm_num) (by norm_num)
    (fun _ => by norm_num) (-1 : Dbl) 1
  exact ⟨ps, h1, h2⟩

end Batoid.Props
