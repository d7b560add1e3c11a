import Verif.Sky
import Verif.Vec
import Mathlib.Analysis.SpecialFunctions.Trigonometric.Arctan
import Mathlib.Analysis.SpecialFunctions.Complex.Arg

/-!
# Property C102: sky coordinates

The specification vocabulary: a star is the unit vector `starVector` towards it, with components along the equator (towards the
meridian, and towards the east) and the pole; seen from the ground it is `horizonVector`, with components towards the north, the east and up;
`tiltBy lat` relates the two at the latitude `lat`.  Angles are in degrees, `rad` turns them into radians.
-/

namespace Batoid.Props
open Batoid Arith Sky

/-- Degrees to radians. -/
noncomputable def rad (x : ℝ) : ℝ := x * (Real.pi / 180)

theorem rad_back (x : ℝ) : rad (x * (180 / Real.pi)) = x := by
  unfold rad
  have := Real.pi_ne_zero
  field_simp

theorem deg2rad_fin (x : ℝ) : deg2rad (Dbl.fin x) = .fin (rad x) := by
  simp only [deg2rad, rad, Dbl.const_dbl, Dbl.pi_def]
  rw [Dbl.div_fin (by norm_num), Dbl.mul_fin]; norm_num

theorem rad2deg_fin (x : ℝ) : rad2deg (Dbl.fin x) = .fin (x * (180 / Real.pi)) := by
  simp only [rad2deg, Dbl.const_dbl, Dbl.pi_def]
  rw [Dbl.div_fin Real.pi_ne_zero, Dbl.mul_fin]; norm_num

/-! ## The angle of a direction -/

theorem arctan2_spec {ρ x y : ℝ} (hρ : 0 < ρ) (h : x * x + y * y = ρ * ρ) :
    ∃ t : ℝ, arctan2 (Dbl.fin y) (.fin x) = .fin t ∧ -Real.pi < t ∧ t ≤ Real.pi ∧ ρ * Real.cos t = x ∧ ρ * Real.sin t = y := by
  have hπ := Real.pi_pos
  unfold arctan2
  simp only [Dbl.zero_dbl, Dbl.lt_fin, decide_eq_true_eq, Dbl.pi_def, Dbl.ofNat_dbl']
  have hsq : ∀ z : ℝ, z ≠ 0 → Real.sqrt (1 + (y / z) ^ 2) * |z| = Real.sqrt (z * z + y * y) := by
    intro z hz
    rw [← Real.sqrt_sq_eq_abs, ← Real.sqrt_mul (by positivity)]
    congr 1
    field_simp
  have hr : Real.sqrt (x * x + y * y) = ρ := by rw [h]; exact Real.sqrt_mul_self hρ.le
  have key : x ≠ 0 → ρ * Real.cos (Real.arctan (y / x)) = |x| ∧ ρ * Real.sin (Real.arctan (y / x)) = y / x * |x| := by
    intro hx
    have h1 := hsq x hx
    rw [hr] at h1
    have hs : 0 < Real.sqrt (1 + (y / x) ^ 2) := Real.sqrt_pos.2 (by positivity)
    rw [Real.cos_arctan, Real.sin_arctan, ← h1]
    constructor <;> field_simp
  split_ifs with h1 h2 h3 h4 h5 h6
  · obtain ⟨k1, k2⟩ := key h1.ne'
    rw [abs_of_pos h1] at k1 k2
    refine ⟨Real.arctan (y / x), by rw [Dbl.div_fin h1.ne', Dbl.atan_fin], ?_, ?_, k1, by rw [k2]; field_simp⟩
    · linarith [Real.neg_pi_div_two_lt_arctan (y / x)]
    · linarith [Real.arctan_lt_pi_div_two (y / x)]
  · obtain ⟨k1, k2⟩ := key h2.ne
    rw [abs_of_neg h2] at k1 k2
    refine ⟨Real.arctan (y / x) - Real.pi, by rw [Dbl.div_fin h2.ne, Dbl.atan_fin, Dbl.sub_fin], ?_, ?_, ?_, ?_⟩
    · have : 0 < y / x := div_pos_of_neg_of_neg h3 h2
      have := Real.arctan_pos.2 this
      linarith
    · linarith [Real.arctan_lt_pi_div_two (y / x)]
    · rw [Real.cos_sub_pi]; linarith
    · rw [Real.sin_sub_pi]
      have : y / x * -x = -y := by have := h2.ne; field_simp
      linarith
  · obtain ⟨k1, k2⟩ := key h2.ne
    rw [abs_of_neg h2] at k1 k2
    refine ⟨Real.arctan (y / x) + Real.pi, by rw [Dbl.div_fin h2.ne, Dbl.atan_fin, Dbl.add_fin], ?_, ?_, ?_, ?_⟩
    · linarith [Real.neg_pi_div_two_lt_arctan (y / x)]
    · have h7 : y / x ≤ 0 := div_nonpos_of_nonneg_of_nonpos (not_lt.1 h3) h2.le
      have : Real.arctan (y / x) ≤ 0 := by rw [← Real.arctan_zero]; exact Real.arctan_strictMono.monotone h7
      linarith
    · rw [Real.cos_add_pi]; linarith
    · rw [Real.sin_add_pi]
      have : y / x * -x = -y := by have := h2.ne; field_simp
      linarith
  · have hx : x = 0 := le_antisymm (not_lt.1 h1) (not_lt.1 h2)
    have hy : y = ρ := by subst hx; nlinarith
    refine ⟨Real.pi / 2, by rw [Dbl.div_fin (by norm_num)], by linarith, by linarith, ?_, ?_⟩ <;> simp [hx, hy]
  · have hx : x = 0 := le_antisymm (not_lt.1 h1) (not_lt.1 h2)
    have hy : y = -ρ := by subst hx; nlinarith
    refine ⟨-(Real.pi / 2), by rw [Dbl.div_fin (by norm_num), Dbl.neg_fin], by linarith, by linarith, ?_, ?_⟩ <;> simp [hx, hy]
  · have hx : x = 0 := le_antisymm (not_lt.1 h1) (not_lt.1 h2)
    have hy : y = 0 := le_antisymm (not_lt.1 h4) (not_lt.1 h5)
    exfalso
    subst hx hy
    nlinarith
  · have hx : x = 0 := le_antisymm (not_lt.1 h1) (not_lt.1 h2)
    have hy : y = 0 := le_antisymm (not_lt.1 h4) (not_lt.1 h5)
    exfalso
    subst hx hy
    nlinarith

/-- An angle within a turn is known by its sine and cosine. -/
theorem angle_unique {s t : ℝ} (hs : -Real.pi < s ∧ s ≤ Real.pi) (ht : -Real.pi < t ∧ t ≤ Real.pi) (hc : Real.cos s = Real.cos t)
    (hn : Real.sin s = Real.sin t) : s = t := by
  obtain ⟨k, hk⟩ := (Real.Angle.angle_eq_iff_two_pi_dvd_sub).1 (Real.Angle.cos_sin_inj hc hn)
  have hπ := Real.pi_pos
  have h1 : -1 < (k : ℝ) := by
    have : -(2 * Real.pi) < 2 * Real.pi * k := by rw [← hk]; linarith [hs.1, ht.2]
    by_contra hh
    have := not_lt.1 hh
    nlinarith
  have h2 : (k : ℝ) < 1 := by
    have : 2 * Real.pi * k < 2 * Real.pi := by rw [← hk]; linarith [hs.2, ht.1]
    by_contra hh
    have := not_lt.1 hh
    nlinarith
  have h3 : k = 0 := by
    have a : -1 < k := by exact_mod_cast h1
    have b : k < 1 := by exact_mod_cast h2
    omega
  rw [h3] at hk
  simp at hk
  linarith

/-! ## Vectors -/

/-- The direction of a star with the given hour angle and declination (radians): towards the point of the equator in the meridian, towards
the east, and towards the pole. -/
noncomputable def starVector (ha dec : ℝ) : V3 ℝ := ⟨Real.cos dec * Real.cos ha, -(Real.cos dec * Real.sin ha), Real.sin dec⟩

/-- The direction with the given altitude and azimuth (radians): towards the north, the east, and up. -/
noncomputable def horizonVector (alt az : ℝ) : V3 ℝ := ⟨Real.cos alt * Real.cos az, Real.cos alt * Real.sin az, Real.sin alt⟩

/-- From the one to the other at a latitude: the pole is `lat` above the north point of the horizon, the equator `90° - lat` above the
south point. -/
noncomputable def tiltBy (lat : ℝ) : M3 ℝ := ⟨-Real.sin lat, 0, Real.cos lat, 0, 1, 0, Real.cos lat, 0, Real.sin lat⟩

theorem tilt_tilt (lat : ℝ) (v : V3 ℝ) : (tiltBy lat).mulVec ((tiltBy lat).mulVec v) = v := by
  have h := Real.sin_sq_add_cos_sq lat
  ext <;> simp only [tiltBy, M3.mulVec]
  · linear_combination v.x * h
  · ring
  · linear_combination v.z * h

theorem turn_over {β γ φ S : ℝ} (hφ : Real.cos φ ≠ 0) (hS : S = Real.sin β * Real.sin φ + Real.cos β * Real.cos φ * Real.cos γ) (hne : S ^ 2 ≠ 1) :
    (-1 ≤ S ∧ S ≤ 1) ∧ 0 < Real.cos (Real.arcsin S) ∧ ∃ t : ℝ,
      arctan2 (-(Dbl.fin (Real.sin γ)) * .fin (Real.cos β) / .fin (Real.cos (Real.arcsin S)))
        (.fin (Real.sin β - S * Real.sin φ) / .fin (Real.cos (Real.arcsin S) * Real.cos φ)) = .fin t ∧ -Real.pi < t ∧ t ≤ Real.pi ∧
      Real.cos (Real.arcsin S) * Real.cos t = Real.sin β * Real.cos φ - Real.cos β * Real.sin φ * Real.cos γ ∧
      Real.cos (Real.arcsin S) * Real.sin t = -(Real.cos β * Real.sin γ) := by
  have hβ := Real.sin_sq_add_cos_sq β
  have hγ := Real.sin_sq_add_cos_sq γ
  have hf := Real.sin_sq_add_cos_sq φ
  have hsum : (Real.sin β * Real.cos φ - Real.cos β * Real.sin φ * Real.cos γ) ^ 2 + (Real.cos β * Real.sin γ) ^ 2 = 1 - S ^ 2 := by
    rw [hS]
    linear_combination (Real.sin β ^ 2 + Real.cos β ^ 2 * Real.cos γ ^ 2) * hf + Real.cos β ^ 2 * hγ + hβ
  have h1 : 0 ≤ 1 - S ^ 2 := by rw [← hsum]; positivity
  have h2 : 0 < 1 - S ^ 2 := lt_of_le_of_ne h1 fun e => hne (by linarith)
  have hr : -1 ≤ S ∧ S ≤ 1 := by constructor <;> nlinarith
  have hc : 0 < Real.cos (Real.arcsin S) := by rw [Real.cos_arcsin]; exact Real.sqrt_pos.2 h2
  have hcc : Real.cos (Real.arcsin S) ^ 2 = 1 - S ^ 2 := by rw [Real.cos_arcsin, Real.sq_sqrt h1]
  refine ⟨hr, hc, ?_⟩
  generalize Real.cos (Real.arcsin S) = C at hc hcc
  have hC := hc.ne'
  have e1 : Real.sin β - S * Real.sin φ = Real.cos φ * (Real.sin β * Real.cos φ - Real.cos β * Real.sin φ * Real.cos γ) := by
    rw [hS]; linear_combination (-Real.sin β) * hf
  have e2 : (Real.sin β - S * Real.sin φ) / (C * Real.cos φ) = (Real.sin β * Real.cos φ - Real.cos β * Real.sin φ * Real.cos γ) / C := by
    rw [e1]; field_simp
  rw [Dbl.neg_fin, Dbl.mul_fin, Dbl.div_fin hC, Dbl.div_fin (mul_ne_zero hC hφ), e2]
  obtain ⟨t, t1, t2, t3, t4, t5⟩ := arctan2_spec (ρ := 1) (x := (Real.sin β * Real.cos φ - Real.cos β * Real.sin φ * Real.cos γ) / C)
    (y := -Real.sin γ * Real.cos β / C) one_pos (by
      field_simp
      linear_combination hsum - hcc)
  refine ⟨t, t1, t2, t3, ?_, ?_⟩
  · rw [one_mul] at t4; rw [t4]; field_simp
  · rw [one_mul] at t5; rw [t5]; field_simp

theorem horizon_inj {a z a' z' : ℝ} (ha : |a| < Real.pi / 2) (ha' : |a'| < Real.pi / 2) (hz : -Real.pi < z ∧ z ≤ Real.pi)
    (hz' : -Real.pi < z' ∧ z' ≤ Real.pi) (h : horizonVector a z = horizonVector a' z') : a = a' ∧ z = z' := by
  obtain ⟨b1, b2⟩ := abs_lt.1 ha
  obtain ⟨c1, c2⟩ := abs_lt.1 ha'
  have e : a = a' := Real.injOn_sin ⟨by linarith, b2.le⟩ ⟨by linarith, c2.le⟩ (congrArg V3.z h)
  subst e
  have hc : 0 < Real.cos a := Real.cos_pos_of_mem_Ioo ⟨by linarith, b2⟩
  exact ⟨rfl, angle_unique hz hz' (mul_left_cancel₀ hc.ne' (congrArg V3.x h)) (mul_left_cancel₀ hc.ne' (congrArg V3.y h))⟩

theorem rad_lat {lat : ℝ} (h : |lat| < 90) : 0 < Real.cos (rad lat) := by
  obtain ⟨h1, h2⟩ := abs_lt.1 h
  have hπ := Real.pi_pos
  unfold rad
  apply Real.cos_pos_of_mem_Ioo
  constructor <;> nlinarith

theorem arcsin_deg {S : ℝ} (h1 : -1 ≤ S ∧ S ≤ 1) (hne : S ^ 2 ≠ 1) : |Real.arcsin S * (180 / Real.pi)| < 90 ∧ |Real.arcsin S| < Real.pi / 2 := by
  have hπ := Real.pi_pos
  have a1 : Real.arcsin S < Real.pi / 2 := Real.arcsin_lt_pi_div_two.2 (lt_of_le_of_ne h1.2 fun e => hne (by rw [e]; norm_num))
  have a2 : -(Real.pi / 2) < Real.arcsin S := by
    rw [← Real.arcsin_neg_one]
    exact Real.strictMonoOn_arcsin ⟨le_rfl, by norm_num⟩ ⟨h1.1, h1.2⟩ (lt_of_le_of_ne h1.1 fun e => hne (by rw [← e]; norm_num))
  refine ⟨?_, abs_lt.2 ⟨a2, a1⟩⟩
  rw [abs_lt, ← mul_div_assoc, lt_div_iff₀ hπ, div_lt_iff₀ hπ]
  constructor <;> nlinarith

theorem turn_deg {t : ℝ} (h1 : -Real.pi < t) (h2 : t ≤ Real.pi) : -180 < t * (180 / Real.pi) ∧ t * (180 / Real.pi) ≤ 180 := by
  have hπ := Real.pi_pos
  rw [← mul_div_assoc, lt_div_iff₀ hπ, div_le_iff₀ hπ]
  constructor <;> nlinarith

/-- C102: `eq_to_az` gives the altitude and the azimuth under which a star is seen, unless it is in the zenith or the nadir or the observer at a
pole.  `L` is the sidereal time. -/
theorem C102_to_horizon {ra dec jd lat lon L : ℝ} (hL : lst (Dbl.fin jd) (.fin lon) = .fin L) (hlat : |lat| < 90)
    (hz : ((tiltBy (rad lat)).mulVec (starVector (rad (L - ra)) (rad dec))).z ^ 2 ≠ 1) :
    ∃ alt az : ℝ, eqToAz (Dbl.fin ra) (.fin dec) (.fin jd) (.fin lat) (.fin lon) = (.fin alt, .fin az) ∧ |alt| < 90 ∧ -180 < az ∧ az ≤ 180 ∧
      horizonVector (rad alt) (rad az) = (tiltBy (rad lat)).mulVec (starVector (rad (L - ra)) (rad dec)) := by
  have hφ := (rad_lat hlat).ne'
  have ez : ((tiltBy (rad lat)).mulVec (starVector (rad (L - ra)) (rad dec))).z =
      Real.sin (rad dec) * Real.sin (rad lat) + Real.cos (rad dec) * Real.cos (rad lat) * Real.cos (rad (L - ra)) := by
    simp only [tiltBy, M3.mulVec, starVector]; ring
  rw [ez] at hz
  obtain ⟨hr, -, t, t1, t2, t3, t4, t5⟩ := turn_over (γ := rad (L - ra)) (β := rad dec) hφ rfl hz
  have eh : rad L - rad ra = rad (L - ra) := by unfold rad; ring
  refine ⟨_, t * (180 / Real.pi), ?_, (arcsin_deg hr hz).1, (turn_deg t2 t3).1, (turn_deg t2 t3).2, ?_⟩
  · simp only [eqToAz, hL, deg2rad_fin, Dbl.sub_fin, eh, Dbl.sin_fin, Dbl.cos_fin, Dbl.mul_fin, Dbl.add_fin, Dbl.asin_fin hr, rad2deg_fin] at t1 ⊢
    rw [t1, rad2deg_fin]
  · rw [rad_back, rad_back]
    ext
    · simp only [horizonVector, tiltBy, M3.mulVec, starVector]; rw [t4]; ring
    · simp only [horizonVector, tiltBy, M3.mulVec, starVector]; rw [t5]; ring
    · rw [ez]; exact Real.sin_arcsin hr.1 hr.2

/-- C102: `az_to_eq` gives the right ascension and the declination of what is seen in a direction, unless it is the pole or the observer at a
pole. -/
theorem C102_to_equator {alt az jd lat lon L : ℝ} (hL : lst (Dbl.fin jd) (.fin lon) = .fin L) (hlat : |lat| < 90)
    (hz : ((tiltBy (rad lat)).mulVec (horizonVector (rad alt) (rad az))).z ^ 2 ≠ 1) :
    ∃ ra dec : ℝ, azToEq (Dbl.fin alt) (.fin az) (.fin jd) (.fin lat) (.fin lon) = (.fin ra, .fin dec) ∧ |dec| < 90 ∧ -180 ≤ ra - L ∧ ra - L < 180 ∧
      starVector (rad (L - ra)) (rad dec) = (tiltBy (rad lat)).mulVec (horizonVector (rad alt) (rad az)) := by
  have hφ := (rad_lat hlat).ne'
  have hπ := Real.pi_ne_zero
  have ez : ((tiltBy (rad lat)).mulVec (horizonVector (rad alt) (rad az))).z =
      Real.sin (rad alt) * Real.sin (rad lat) + Real.cos (rad alt) * Real.cos (rad lat) * Real.cos (rad az) := by
    simp only [tiltBy, M3.mulVec, horizonVector]; ring
  rw [ez] at hz
  obtain ⟨hr, -, t, t1, t2, t3, t4, t5⟩ := turn_over (γ := rad az) (β := rad alt) hφ rfl hz
  have hsin := Real.sin_arcsin hr.1 hr.2
  have er : (rad L - t) * (180 / Real.pi) - L = -(t * (180 / Real.pi)) := by unfold rad; field_simp; ring
  have eh : rad (L - (rad L - t) * (180 / Real.pi)) = t := by unfold rad; field_simp; ring
  refine ⟨(rad L - t) * (180 / Real.pi), _, ?_, (arcsin_deg hr hz).1, ?_, ?_, ?_⟩
  · simp only [azToEq, hL, deg2rad_fin, Dbl.sub_fin, Dbl.sin_fin, Dbl.cos_fin, Dbl.mul_fin, Dbl.add_fin, Dbl.asin_fin hr, hsin, rad2deg_fin] at t1 ⊢
    rw [t1, Dbl.sub_fin, rad2deg_fin]
  · rw [er]; linarith [(turn_deg t2 t3).2]
  · rw [er]; linarith [(turn_deg t2 t3).1]
  · rw [rad_back, eh]
    ext
    · simp only [horizonVector, tiltBy, M3.mulVec, starVector]; rw [t4]; ring
    · simp only [horizonVector, tiltBy, M3.mulVec, starVector]; rw [t5]; ring
    · rw [ez]; exact hsin

/-- C102: a direction turned into sky coordinates and back is the same. -/
theorem C102_there_and_back {alt az jd lat lon L : ℝ} (hL : lst (Dbl.fin jd) (.fin lon) = .fin L) (hlat : |lat| < 90)
    (hz : ((tiltBy (rad lat)).mulVec (horizonVector (rad alt) (rad az))).z ^ 2 ≠ 1) (halt : |alt| < 90) (haz : -180 < az ∧ az ≤ 180) :
    eqToAz (azToEq (Dbl.fin alt) (.fin az) (.fin jd) (.fin lat) (.fin lon)).1 (azToEq (Dbl.fin alt) (.fin az) (.fin jd) (.fin lat) (.fin lon)).2
      (.fin jd) (.fin lat) (.fin lon) = (.fin alt, .fin az) := by
  obtain ⟨ra, dec, e1, -, -, -, e2⟩ := C102_to_equator hL hlat hz
  have e3 : (tiltBy (rad lat)).mulVec (starVector (rad (L - ra)) (rad dec)) = horizonVector (rad alt) (rad az) := by rw [e2, tilt_tilt]
  have hπ := Real.pi_pos
  have hs : ∀ x : ℝ, |x| < 90 → |rad x| < Real.pi / 2 := by
    intro x hx
    obtain ⟨h1, h2⟩ := abs_lt.1 hx
    unfold rad
    rw [abs_lt]; constructor <;> nlinarith
  have hs2 : ∀ x : ℝ, -180 < x → x ≤ 180 → -Real.pi < rad x ∧ rad x ≤ Real.pi := by
    intro x h1 h2
    unfold rad
    constructor <;> nlinarith
  have hne : ((tiltBy (rad lat)).mulVec (starVector (rad (L - ra)) (rad dec))).z ^ 2 ≠ 1 := by
    rw [e3]
    simp only [horizonVector]
    have hc : 0 < Real.cos (rad alt) := rad_lat halt
    nlinarith [Real.sin_sq_add_cos_sq (rad alt), mul_pos hc hc]
  obtain ⟨alt', az', f1, f2, f3, f4, f5⟩ := C102_to_horizon hL hlat hne
  rw [e1]
  show eqToAz (Dbl.fin ra) (.fin dec) _ _ _ = _
  rw [f1]
  obtain ⟨g1, g2⟩ := horizon_inj (hs _ f2) (hs _ halt) (hs2 _ f3 f4) (hs2 _ haz.1 haz.2) (f5.trans e3)
  have hinj : ∀ x y : ℝ, rad x = rad y → x = y := by
    intro x y hxy
    unfold rad at hxy
    exact mul_right_cancel₀ (div_pos hπ (by norm_num)).ne' hxy
  rw [hinj _ _ g1, hinj _ _ g2]

/-- C102: a star turned into horizontal coordinates and back has the same declination, and the same right ascension up to whole turns. -/
theorem C102_back_and_there {ra dec jd lat lon L : ℝ} (hL : lst (Dbl.fin jd) (.fin lon) = .fin L) (hlat : |lat| < 90)
    (hz : ((tiltBy (rad lat)).mulVec (starVector (rad (L - ra)) (rad dec))).z ^ 2 ≠ 1) (hdec : |dec| < 90) :
    ∃ k : ℤ, azToEq (eqToAz (Dbl.fin ra) (.fin dec) (.fin jd) (.fin lat) (.fin lon)).1 (eqToAz (Dbl.fin ra) (.fin dec) (.fin jd) (.fin lat) (.fin lon)).2
      (.fin jd) (.fin lat) (.fin lon) = (.fin (ra + 360 * k), .fin dec) := by
  obtain ⟨alt, az, e1, -, -, -, e2⟩ := C102_to_horizon hL hlat hz
  have e3 : (tiltBy (rad lat)).mulVec (horizonVector (rad alt) (rad az)) = starVector (rad (L - ra)) (rad dec) := by rw [e2, tilt_tilt]
  have hπ := Real.pi_pos
  have hs : ∀ x : ℝ, |x| < 90 → |rad x| < Real.pi / 2 := by
    intro x hx
    obtain ⟨h1, h2⟩ := abs_lt.1 hx
    unfold rad
    rw [abs_lt]; constructor <;> nlinarith
  have hc : 0 < Real.cos (rad dec) := rad_lat hdec
  have hne : ((tiltBy (rad lat)).mulVec (horizonVector (rad alt) (rad az))).z ^ 2 ≠ 1 := by
    rw [e3]
    simp only [starVector]
    nlinarith [Real.sin_sq_add_cos_sq (rad dec), mul_pos hc hc]
  obtain ⟨ra', dec', f1, f2, f3, f4, f5⟩ := C102_to_equator hL hlat hne
  rw [e1]
  show ∃ k : ℤ, azToEq (Dbl.fin alt) (.fin az) _ _ _ = _
  rw [f1]
  have g := f5.trans e3
  obtain ⟨b1, b2⟩ := abs_lt.1 (hs _ f2)
  obtain ⟨c1, c2⟩ := abs_lt.1 (hs _ hdec)
  have g1 : rad dec' = rad dec := Real.injOn_sin ⟨by linarith, b2.le⟩ ⟨by linarith, c2.le⟩ (congrArg V3.z g)
  have hinj : ∀ x y : ℝ, rad x = rad y → x = y := by
    intro x y hxy
    unfold rad at hxy
    exact mul_right_cancel₀ (div_pos hπ (by norm_num)).ne' hxy
  have gd := hinj _ _ g1
  subst gd
  have gc : Real.cos (rad (L - ra')) = Real.cos (rad (L - ra)) := mul_left_cancel₀ hc.ne' (congrArg V3.x g)
  have gs : Real.sin (rad (L - ra')) = Real.sin (rad (L - ra)) := mul_left_cancel₀ hc.ne' (neg_injective (congrArg V3.y g))
  obtain ⟨k, hk⟩ := (Real.Angle.angle_eq_iff_two_pi_dvd_sub).1 (Real.Angle.cos_sin_inj gc gs)
  refine ⟨-k, ?_⟩
  rw [Prod.mk.injEq, Dbl.fin_inj]
  refine ⟨?_, rfl⟩
  unfold rad at hk
  push_cast
  have : (ra - ra') * Real.pi = 360 * k * Real.pi := by linear_combination 180 * hk
  have := mul_right_cancel₀ hπ.ne' this
  linarith

/-! ## Where it does not hold -/

/-- A star in the zenith has no azimuth: NaN instead of any value. -/
theorem C102_zenith_violated {jd lat lon L : ℝ} (hL : lst (Dbl.fin jd) (.fin lon) = .fin L) :
    eqToAz (Dbl.fin L) (.fin lat) (.fin jd) (.fin lat) (.fin lon) = (.fin 90, .nan) := by
  have e0 : rad L - rad L = 0 := sub_self _
  have e1 : Real.sin (rad lat) * Real.sin (rad lat) + Real.cos (rad lat) * Real.cos (rad lat) * 1 = 1 := by
    linear_combination Real.sin_sq_add_cos_sq (rad lat)
  have e2 : Real.pi / 2 * (180 / Real.pi) = 90 := by have := Real.pi_ne_zero; field_simp; norm_num
  have hl : ∀ a : Dbl, Arith.lt (Dbl.fin 0) (.nan : Dbl) = false := fun _ => rfl
  simp only [eqToAz, hL, deg2rad_fin, Dbl.sub_fin, e0, Dbl.sin_fin, Dbl.cos_fin, Real.sin_zero, Real.cos_zero, Dbl.mul_fin, Dbl.add_fin, e1,
    Dbl.asin_fin (a := 1) ⟨by norm_num, le_rfl⟩, Real.arcsin_one, Real.cos_pi_div_two, rad2deg_fin, e2, Dbl.neg_fin, neg_zero, zero_mul, Dbl.zero_div_zero]
  simp [arctan2, rad2deg]

/-! ## Sidereal time -/

/-- The mean sidereal time of Greenwich (in degrees, before it is reduced to one turn), in days and centuries since J2000.0. -/
noncomputable def gmst (jd : ℝ) : ℝ :=
  28046061837 / 100000000 + 36098564736629 / 100000000000 * (jd - 2451545) + 387933 / 1000000000 * ((jd - 2451545) / 36525) ^ 2
    - ((jd - 2451545) / 36525) ^ 3 / 38710000

/-- What `lst` reduces to one turn. -/
noncomputable def lstRaw (jd lon : ℝ) : ℝ :=
  28046061837 / 100000000 + 36098564736629 / 100000000000 * (jd - 2451545) + 387933 / 1000000000 * (jd / 36525) ^ 2
    - (jd / 36525) ^ 3 / 38710000 + lon

theorem lst_fin (jd lon : ℝ) : lst (Dbl.fin jd) (.fin lon) = .fin (lstRaw jd lon - 360 * ⌊lstRaw jd lon / 360⌋) := by
  have e : ∀ q : ℚ, (Arith.const q : Dbl) = .fin (q : ℝ) := fun _ => rfl
  simp only [lst, fmod, e]
  rw [Dbl.div_fin (by norm_num)]
  simp only [Dbl.mul_fin, Dbl.sub_fin, Dbl.add_fin]
  rw [Dbl.div_fin (by norm_num)]
  simp only [Dbl.mul_fin, Dbl.sub_fin, Dbl.add_fin]
  rw [Dbl.div_fin (by norm_num)]
  simp only [Dbl.floor_fin, Dbl.mul_fin, Dbl.sub_fin, Dbl.fin_inj]
  have hraw : ((28046061837 / 100000000 : ℚ) : ℝ) + ((36098564736629 / 100000000000 : ℚ) : ℝ) * (jd - ((2451545 : ℚ) : ℝ)) +
      ((387933 / 1000000000 : ℚ) : ℝ) * (jd / ((36525 : ℚ) : ℝ)) * (jd / ((36525 : ℚ) : ℝ)) -
      jd / ((36525 : ℚ) : ℝ) * (jd / ((36525 : ℚ) : ℝ)) * (jd / ((36525 : ℚ) : ℝ)) / ((38710000 : ℚ) : ℝ) + lon = lstRaw jd lon := by
    unfold lstRaw; push_cast; ring
  rw [hraw]
  push_cast
  rfl

/-- C102: the local sidereal time is an angle within one turn, and grows with the longitude. -/
theorem C102_sidereal_partial (jd lon : ℝ) :
    ∃ L : ℝ, lst (Dbl.fin jd) (.fin lon) = .fin L ∧ 0 ≤ L ∧ L < 360 ∧
      (∀ lon' : ℝ, ∃ L' : ℝ, ∃ k : ℤ, lst (Dbl.fin jd) (.fin lon') = .fin L' ∧ L' - L = lon' - lon + 360 * k) := by
  refine ⟨_, lst_fin jd lon, ?_, ?_, fun lon' => ⟨_, ⌊lstRaw jd lon / 360⌋ - ⌊lstRaw jd lon' / 360⌋, lst_fin jd lon', ?_⟩⟩
  · have := Int.floor_le (lstRaw jd lon / 360)
    linarith
  · have := Int.lt_floor_add_one (lstRaw jd lon / 360)
    linarith
  · unfold lstRaw
    push_cast
    ring

/-- The centuries are counted from the beginning of the Julian period instead of J2000.0.  At J2000.0 the sidereal time is off by more than
1.7 degrees. -/
theorem C102_sidereal_violated : ∃ L : ℝ, lst (Dbl.fin 2451545) (.fin 0) = .fin L ∧ ∀ k : ℤ, 17 / 10 < |L - gmst 2451545 - 360 * k| := by
  refine ⟨_, lst_fin _ _, fun k => ?_⟩
  generalize ⌊lstRaw 2451545 0 / 360⌋ = j
  have e : lstRaw 2451545 0 - 360 * (j : ℝ) - gmst 2451545 - 360 * k =
      (387933 / 1000000000 * (2451545 / 36525 : ℝ) ^ 2 - (2451545 / 36525 : ℝ) ^ 3 / 38710000) - 360 * ((j + k : ℤ) : ℝ) := by
    unfold lstRaw gmst; push_cast; ring
  rw [e]
  generalize j + k = m
  rcases lt_trichotomy m 0 with h | h | h
  · have : (m : ℝ) ≤ -1 := by exact_mod_cast (by omega : m ≤ -1)
    rw [lt_abs]; left
    norm_num
    linarith
  · subst h
    rw [lt_abs]; left
    norm_num
  · have : (1 : ℝ) ≤ m := by exact_mod_cast (by omega : 1 ≤ m)
    rw [lt_abs]; right
    norm_num
    linarith

/-! ## Concrete cases -/

/-- A star in the equator, seen at latitude 30 when it passes the meridian. -/
example (jd lon : ℝ) : ∃ L alt az : ℝ, lst (Dbl.fin jd) (.fin lon) = .fin L ∧ eqToAz (Dbl.fin L) (.fin 0) (.fin jd) (.fin 30) (.fin lon) = (.fin alt, .fin az) ∧
    Real.sin (rad alt) = Real.cos (rad 30) := by
  have h30 : rad 30 = Real.pi / 6 := by unfold rad; ring
  obtain ⟨alt, az, e1, -, -, -, e2⟩ := C102_to_horizon (ra := lstRaw jd lon - 360 * ⌊lstRaw jd lon / 360⌋) (dec := 0) (lat := 30) (lst_fin jd lon)
    (by norm_num [abs_of_pos]) (by
      simp only [tiltBy, M3.mulVec, starVector, sub_self, h30]
      rw [show rad 0 = 0 by simp [rad]]
      simp only [Real.cos_zero, Real.sin_zero, Real.cos_pi_div_six, Real.sin_pi_div_six]
      have := Real.sq_sqrt (show (0 : ℝ) ≤ 3 by norm_num)
      nlinarith)
  refine ⟨_, alt, az, lst_fin jd lon, e1, ?_⟩
  have := congrArg V3.z e2
  simp only [horizonVector, tiltBy, M3.mulVec, starVector, sub_self] at this
  rw [this, show rad 0 = 0 by simp [rad]]
  simp

/-- A star in the east, seen from the equator, is found again. -/
example (jd lon : ℝ) : eqToAz (azToEq (Dbl.fin 30) (.fin 90) (.fin jd) (.fin 0) (.fin lon)).1 (azToEq (Dbl.fin 30) (.fin 90) (.fin jd) (.fin 0) (.fin lon)).2
    (.fin jd) (.fin 0) (.fin lon) = (.fin 30, .fin 90) := by
  have h90 : rad 90 = Real.pi / 2 := by unfold rad; ring
  refine C102_there_and_back (lst_fin jd lon) (by norm_num) ?_ (by norm_num [abs_of_pos]) (by norm_num)
  simp only [tiltBy, M3.mulVec, horizonVector, h90]
  rw [show rad 0 = 0 by simp [rad]]
  simp

/-- So is a star at 30° declination a quarter of a turn past the meridian of a place on the equator, up to full turns. -/
example (jd lon : ℝ) : ∃ k : ℤ, azToEq (eqToAz (Dbl.fin (lstRaw jd lon - 360 * ⌊lstRaw jd lon / 360⌋ - 90)) (.fin 30) (.fin jd) (.fin 0) (.fin lon)).1
    (eqToAz (Dbl.fin (lstRaw jd lon - 360 * ⌊lstRaw jd lon / 360⌋ - 90)) (.fin 30) (.fin jd) (.fin 0) (.fin lon)).2 (.fin jd) (.fin 0) (.fin lon) =
      (.fin (lstRaw jd lon - 360 * ⌊lstRaw jd lon / 360⌋ - 90 + 360 * k), .fin 30) := by
  have h90 : rad 90 = Real.pi / 2 := by unfold rad; ring
  refine C102_back_and_there (lst_fin jd lon) (by norm_num) ?_ (by norm_num [abs_of_pos])
  simp only [tiltBy, M3.mulVec, starVector, sub_sub_cancel, h90]
  rw [show rad 0 = 0 by simp [rad]]
  simp

end Batoid.Props
