import Verif.App
import Verif.Props.Sky

/-!
# Property C108: the controls of the viewer

The vocabulary: a state of the application is in order (`InOrder`) if right ascension and declination on the one hand and altitude and azimuth on the other describe the same direction
at the current time (vectors of C102), the controls show the attributes, and what is visible is drawn for the attributes.
-/

namespace Batoid.Props
open Batoid Arith Sky App App.Panel

/-- The direction with the given horizontal coordinates is that of the star with the given equatorial ones, at the sidereal time `L` and latitude `lat`. -/
def SameDirection (lat L ra dec alt az : ℝ) : Prop :=
  horizonVector (rad alt) (rad az) = (tiltBy (rad lat)).mulVec (starVector (rad (L - ra)) (rad dec))

/-- A direction is away from the zenith and the nadir, and from the poles of the sky. -/
def Plain (lat : ℝ) (v : V3 ℝ) : Prop := v.z ^ 2 ≠ 1 ∧ ((tiltBy (rad lat)).mulVec v).z ^ 2 ≠ 1

/-- The pairs of coordinates that the two conversions give for one direction. -/
structure Chart (lat lon jd L a z r d : ℝ) : Prop where
  there : eqToAz (Dbl.fin r) (.fin d) (.fin jd) (.fin lat) (.fin lon) = (.fin a, .fin z)
  back : azToEq (Dbl.fin a) (.fin z) (.fin jd) (.fin lat) (.fin lon) = (.fin r, .fin d)
  same : SameDirection lat L r d a z

/-- For a plain direction there are such pairs. -/
theorem chart_of_star {ra dec jd lat lon L : ℝ} (hL : lst (Dbl.fin jd) (.fin lon) = .fin L) (hlat : |lat| < 90)
    (hp : Plain lat ((tiltBy (rad lat)).mulVec (starVector (rad (L - ra)) (rad dec)))) :
    ∃ a z r d, Chart lat lon jd L a z r d ∧ eqToAz (Dbl.fin ra) (.fin dec) (.fin jd) (.fin lat) (.fin lon) = (.fin a, .fin z) ∧ SameDirection lat L ra dec a z := by
  obtain ⟨alt, az, e1, a1, a2, a3, e2⟩ := C102_to_horizon hL hlat hp.1
  have hne : ((tiltBy (rad lat)).mulVec (horizonVector (rad alt) (rad az))).z ^ 2 ≠ 1 := by rw [e2]; exact hp.2
  obtain ⟨ra', dec', f1, -, -, -, f2⟩ := C102_to_equator (alt := alt) (az := az) hL hlat hne
  have h := C102_there_and_back hL hlat hne a1 ⟨a2, a3⟩
  rw [f1] at h
  refine ⟨alt, az, ra', dec', ⟨?_, f1, ?_⟩, e1, e2⟩
  · exact h
  · rw [SameDirection, f2, tilt_tilt]

theorem chart_of_horizon {alt az jd lat lon L : ℝ} (hL : lst (Dbl.fin jd) (.fin lon) = .fin L) (hlat : |lat| < 90)
    (hp : Plain lat (horizonVector (rad alt) (rad az))) :
    ∃ a z r d, Chart lat lon jd L a z r d ∧ azToEq (Dbl.fin alt) (.fin az) (.fin jd) (.fin lat) (.fin lon) = (.fin r, .fin d) ∧ SameDirection lat L r d alt az := by
  obtain ⟨ra, dec, e1, d1, d2, d3, e2⟩ := C102_to_equator hL hlat hp.2
  have e3 : (tiltBy (rad lat)).mulVec (starVector (rad (L - ra)) (rad dec)) = horizonVector (rad alt) (rad az) := by rw [e2, tilt_tilt]
  obtain ⟨a, z, r, d, hc, hA, hs⟩ := chart_of_star (ra := ra) (dec := dec) hL hlat (by rw [e3]; exact hp)
  -- the pair found from the star is the one found before
  have hk := C102_back_and_there (ra := ra) (dec := dec) hL hlat (by rw [e3]; exact hp.1) d1
  rw [hA] at hk
  obtain ⟨k, hk⟩ := hk
  replace hk : azToEq (Dbl.fin a) (.fin z) (.fin jd) (.fin lat) (.fin lon) = (.fin (ra + 360 * k), .fin dec) := hk
  obtain ⟨r', d', g1, -, g2, g3, -⟩ := C102_to_equator (alt := a) (az := z) hL hlat (by
    have : horizonVector (rad a) (rad z) = horizonVector (rad alt) (rad az) := hs.trans e3
    rw [this]; exact hp.2)
  rw [g1, Prod.mk.injEq, Dbl.fin_inj, Dbl.fin_inj] at hk
  have hk0 : k = 0 := by
    have h1 : (-1 : ℝ) < k := by linarith
    have h2 : (k : ℝ) < 1 := by linarith
    have h1' : -1 < k := by exact_mod_cast h1
    have h2' : k < 1 := by exact_mod_cast h2
    omega
  rw [hk0] at hk
  have hr : r' = ra := by rw [hk.1]; simp
  rw [hr, hk.2] at g1
  exact ⟨a, z, ra, dec, ⟨hA, g1, hs⟩, e1, e3.symm⟩

/-! ## What is drawn -/

/-- The telescope and all that is drawn with it belong to the attributes; what is hidden may be of an earlier time. -/
structure Drawn {F : Type} (s : Panel F) : Prop where
  telescope : s.moving.telescope = ⟨⟨s.alt, s.az, s.set.rtp⟩, s.set.showTelescope⟩
  rays : s.moving.rays.visible = s.set.showRays ∧ (s.set.showRays = true → s.moving.rays.data = (⟨s.alt, s.az, s.set.rtp⟩, s.set.thx, s.set.thy))
  fp : s.moving.fp = ⟨s.alt, s.az, s.set.rtp⟩
  OCS : s.moving.OCS.visible = s.set.showOCS ∧ (s.set.showOCS = true → s.moving.OCS.data = ⟨s.alt, s.az, s.set.rtp⟩)
  ZCS : s.moving.ZCS.visible = s.set.showZCS ∧ (s.set.showZCS = true → s.moving.ZCS.data = ⟨s.alt, s.az, s.set.rtp⟩)
  EDCS : s.moving.EDCS.visible = s.set.showEDCS ∧ (s.set.showEDCS = true → s.moving.EDCS.data = ⟨s.alt, s.az, s.set.rtp⟩)
  DVCS : s.moving.DVCS.visible = s.set.showDVCS ∧ (s.set.showDVCS = true → s.moving.DVCS.data = ⟨s.alt, s.az, s.set.rtp⟩)

/-- The state after `update_telescope`, in one step. -/
theorem updateTelescope_eq {F : Type} (s : Panel F) : s.updateTelescope = { s with moving :=
    { telescope := ⟨⟨s.alt, s.az, s.set.rtp⟩, s.set.showTelescope⟩, bearings := s.moving.bearings,
      rays := ⟨if s.set.showRays then (⟨s.alt, s.az, s.set.rtp⟩, s.set.thx, s.set.thy) else s.moving.rays.data, s.set.showRays⟩,
      fp := ⟨s.alt, s.az, s.set.rtp⟩,
      OCS := ⟨if s.set.showOCS then ⟨s.alt, s.az, s.set.rtp⟩ else s.moving.OCS.data, s.set.showOCS⟩,
      ZCS := ⟨if s.set.showZCS then ⟨s.alt, s.az, s.set.rtp⟩ else s.moving.ZCS.data, s.set.showZCS⟩,
      EDCS := ⟨if s.set.showEDCS then ⟨s.alt, s.az, s.set.rtp⟩ else s.moving.EDCS.data, s.set.showEDCS⟩,
      DVCS := ⟨if s.set.showDVCS then ⟨s.alt, s.az, s.set.rtp⟩ else s.moving.DVCS.data, s.set.showDVCS⟩ } } := by
  obtain ⟨ra, dec, alt, az, cRa, cDec, cAlt, cAz, set, ⟨t, b, ra', fp, o, zc, e, dv⟩, still⟩ := s
  simp only [updateTelescope, updateRays, updateFp, updateEDCS, updateDVCS, updateOCS, updateZCS, actual]
  rfl

theorem updateTelescope_drawn {F : Type} (s : Panel F) : Drawn s.updateTelescope := by
  rw [updateTelescope_eq]
  refine ⟨rfl, ⟨rfl, fun h => ?_⟩, rfl, ⟨rfl, fun h => ?_⟩, ⟨rfl, fun h => ?_⟩, ⟨rfl, fun h => ?_⟩, ⟨rfl, fun h => ?_⟩⟩ <;> exact if_pos h

theorem updateBearings_drawn {F : Type} {s : Panel F} (h : Drawn s) : Drawn s.updateBearings :=
  ⟨h.telescope, h.rays, h.fp, h.OCS, h.ZCS, h.EDCS, h.DVCS⟩

/-! ## Handlers that call each other -/

section nested
variable {lat lon jd L a z r d : ℝ}

open Classical in
theorem eq_to_fin (x : Dbl) (v : ℝ) : Arith.eq x (.fin v) = decide (x = .fin v) := by
  cases x with
  | fin y => simp [Dbl.eq_fin]
  | nan => simp [Arith.eq, Dbl.eq]
  | pinf => simp [Arith.eq, Dbl.eq]
  | ninf => simp [Arith.eq, Dbl.eq]

/-- The value that the conversions give for a control. -/
def canon (a z r d : ℝ) : Angle → ℝ
  | .ra => r
  | .dec => d
  | .alt => a
  | .az => z

/-- Right ascension and declination are converted to the altitude and azimuth of the chart, and describe that direction. -/
def LeadsToA (lat lon jd L a z : ℝ) (ra dec : Dbl) : Prop :=
  eqToAz ra dec (.fin jd) (.fin lat) (.fin lon) = (.fin a, .fin z) ∧ ∃ x y, ra = .fin x ∧ dec = .fin y ∧ SameDirection lat L x y a z

def LeadsToE (lat lon jd L r d : ℝ) (alt az : Dbl) : Prop :=
  azToEq alt az (.fin jd) (.fin lat) (.fin lon) = (.fin r, .fin d) ∧ ∃ x y, alt = .fin x ∧ az = .fin y ∧ SameDirection lat L r d x y

theorem Chart.leadsA (h : Chart lat lon jd L a z r d) : LeadsToA lat lon jd L a z (.fin r) (.fin d) := ⟨h.there, r, d, rfl, rfl, h.same⟩

theorem Chart.leadsE (h : Chart lat lon jd L a z r d) : LeadsToE lat lon jd L r d (.fin a) (.fin z) := ⟨h.back, a, z, rfl, rfl, h.same⟩

/-- The attributes of the two kinds describe the direction of the chart. -/
structure Settled (lat lon jd L a z r d : ℝ) (s : Panel Dbl) : Prop where
  time : s.set.jd = .fin jd
  there : LeadsToA lat lon jd L a z s.ra s.dec
  back : LeadsToE lat lon jd L r d s.alt s.az

/-- Right ascension and declination (or altitude and azimuth) are those of the chart. -/
def AtE (r d : ℝ) (s : Panel Dbl) : Prop := s.ra = .fin r ∧ s.dec = .fin d
def AtA (a z : ℝ) (s : Panel Dbl) : Prop := s.alt = .fin a ∧ s.az = .fin z

/-- The controls show the attributes. -/
def ShowE {F : Type} (s : Panel F) : Prop := s.cRa = s.ra ∧ s.cDec = s.dec
def ShowA {F : Type} (s : Panel F) : Prop := s.cAlt = s.alt ∧ s.cAz = s.az

open Classical in
noncomputable def lack (x : Dbl) (v : ℝ) : ℕ := if x = .fin v then 0 else 1

theorem lack_self (v : ℝ) : lack (.fin v) v = 0 := if_pos rfl

theorem lack_ne {x : Dbl} {v : ℝ} (h : x ≠ .fin v) : lack x v = 1 := if_neg h

theorem lack_le {x y : Dbl} {v : ℝ} (h : x = .fin v → y = .fin v) : lack y v ≤ lack x v := by
  by_cases hx : x = .fin v
  · rw [h hx, lack_self]; exact Nat.zero_le _
  · rw [lack_ne hx]
    unfold lack
    split_ifs <;> omega

/-- The number of controls that do not yet show the values of the chart. -/
noncomputable def open' (a z r d : ℝ) (s : Panel Dbl) : ℕ := lack s.cRa r + lack s.cDec d + lack s.cAlt a + lack s.cAz z

/-- What nested handlers leave and reach. -/
structure Nest (lat lon jd L a z r d : ℝ) (s s' : Panel Dbl) : Prop where
  set : s'.set = s.set
  still : s'.still = s.still
  settled : Settled lat lon jd L a z r d s → Settled lat lon jd L a z r d s'
  atE : AtE r d s → AtE r d s'
  atA : AtA a z s → AtA a z s'
  content : ∀ c, s.content c = .fin (canon a z r d c) → s'.content c = .fin (canon a z r d c)

theorem Nest.refl (s : Panel Dbl) : Nest lat lon jd L a z r d s s := ⟨rfl, rfl, id, id, id, fun _ => id⟩

theorem Nest.trans {s s' s'' : Panel Dbl} (h : Nest lat lon jd L a z r d s s') (h' : Nest lat lon jd L a z r d s' s'') : Nest lat lon jd L a z r d s s'' :=
  ⟨h'.set.trans h.set, h'.still.trans h.still, h'.settled ∘ h.settled, h'.atE ∘ h.atE, h'.atA ∘ h.atA, fun c => h'.content c ∘ h.content c⟩

theorem Nest.open_le {s s' : Panel Dbl} (h : Nest lat lon jd L a z r d s s') : open' a z r d s' ≤ open' a z r d s := by
  have h1 := h.content .ra
  have h2 := h.content .dec
  have h3 := h.content .alt
  have h4 := h.content .az
  simp only [Panel.content, canon] at h1 h2 h3 h4
  exact Nat.add_le_add (Nat.add_le_add (Nat.add_le_add (lack_le h1) (lack_le h2)) (lack_le h3)) (lack_le h4)

/-- The effect of setting a control to the value of the chart. -/
structure Post (lat lon jd L a z r d : ℝ) (c : Angle) (s s' : Panel Dbl) : Prop where
  nest : Nest lat lon jd L a z r d s s'
  shows : s'.content c = .fin (canon a z r d c)
  showE : ShowE s → ShowE s'
  showA : ShowA s → ShowA s'
  drawn : Drawn s → Drawn s'
  bearings : s.moving.bearings = s.cAz → s'.moving.bearings = s'.cAz

/-- When a control is set to the value of the chart: the attributes are already there. -/
def Pre (a z r d : ℝ) : Angle → Panel Dbl → Prop
  | .ra, s => AtE r d s
  | .dec, s => AtE r d s
  | .alt, s => AtA a z s
  | .az, s => AtA a z s

/-- What `assign` is to do, with calls no deeper than `n`. -/
def Assigns (lat lon jd L a z r d : ℝ) (n : ℕ) : Prop :=
  ∀ s : Panel Dbl, Settled lat lon jd L a z r d s → open' a z r d s ≤ n → ∀ c, Pre a z r d c s →
    ∃ s', s.assign (.fin lat) (.fin lon) n c (.fin (canon a z r d c)) = some s' ∧ Post lat lon jd L a z r d c s s'

/-- `update_altaz` from an attribute state with the direction of the chart. -/
theorem round_altaz (hc : Chart lat lon jd L a z r d) {n : ℕ} (ih : Assigns lat lon jd L a z r d n) {s : Panel Dbl} (hjd : s.set.jd = .fin jd)
    (hth : LeadsToA lat lon jd L a z s.ra s.dec) (hn : open' a z r d s ≤ n) :
    ∃ s', s.updateAltaz (.fin lat) (.fin lon) n = some s' ∧ Nest lat lon jd L a z r d s s' ∧ Settled lat lon jd L a z r d s' ∧ AtA a z s' ∧ ShowA s' ∧
      (ShowE s → ShowE s') ∧ (s.moving.bearings = s.cAz → s'.moving.bearings = s'.cAz) := by
  have h3 : Settled lat lon jd L a z r d { s with alt := .fin a, az := .fin z } := ⟨hjd, hth, hc.leadsE⟩
  have n3 : Nest lat lon jd L a z r d s { s with alt := .fin a, az := .fin z } := ⟨rfl, rfl, fun _ => h3, id, fun _ => ⟨rfl, rfl⟩, fun _ => id⟩
  obtain ⟨s4, e4, p4⟩ := ih _ h3 (le_trans n3.open_le hn) .alt ⟨rfl, rfl⟩
  have a4 : AtA a z s4 := p4.nest.atA ⟨rfl, rfl⟩
  have set4 := p4.nest.settled h3
  obtain ⟨s5, e5, p5⟩ := ih s4 set4 (le_trans p4.nest.open_le (le_trans n3.open_le hn)) .az a4
  have a5 := p5.nest.atA a4
  refine ⟨s5, ?_, (n3.trans p4.nest).trans p5.nest, p5.nest.settled set4, a5, ?_, ?_, ?_⟩
  · rw [updateAltaz, hjd, hth.1]
    simp only [canon] at e4 e5
    simp only [bind, Option.bind, e4, a4.2, e5]
  · refine ⟨?_, ?_⟩
    · have := p5.nest.content .alt p4.shows
      simp only [Panel.content, canon] at this
      rw [this, a5.1]
    · have := p5.shows
      simp only [Panel.content, canon] at this
      rw [this, a5.2]
  · intro h
    exact p5.showE (p4.showE h)
  · intro h
    exact p5.bearings (p4.bearings h)

/-- `update_eq` from an attribute state with the direction of the chart. -/
theorem round_eq (hc : Chart lat lon jd L a z r d) {n : ℕ} (ih : Assigns lat lon jd L a z r d n) {s : Panel Dbl} (hjd : s.set.jd = .fin jd)
    (hth : LeadsToE lat lon jd L r d s.alt s.az) (hn : open' a z r d s ≤ n) :
    ∃ s', s.updateEq (.fin lat) (.fin lon) n = some s' ∧ Nest lat lon jd L a z r d s s' ∧ Settled lat lon jd L a z r d s' ∧ AtE r d s' ∧ ShowE s' ∧
      (ShowA s → ShowA s') ∧ (s.moving.bearings = s.cAz → s'.moving.bearings = s'.cAz) ∧ (Drawn s → Drawn s') := by
  have h3 : Settled lat lon jd L a z r d { s with ra := .fin r, dec := .fin d } := ⟨hjd, hc.leadsA, hth⟩
  have n3 : Nest lat lon jd L a z r d s { s with ra := .fin r, dec := .fin d } := ⟨rfl, rfl, fun _ => h3, fun _ => ⟨rfl, rfl⟩, id, fun _ => id⟩
  obtain ⟨s4, e4, p4⟩ := ih _ h3 (le_trans n3.open_le hn) .ra ⟨rfl, rfl⟩
  have a4 : AtE r d s4 := p4.nest.atE ⟨rfl, rfl⟩
  have set4 := p4.nest.settled h3
  obtain ⟨s5, e5, p5⟩ := ih s4 set4 (le_trans p4.nest.open_le (le_trans n3.open_le hn)) .dec a4
  have a5 := p5.nest.atE a4
  refine ⟨s5, ?_, (n3.trans p4.nest).trans p5.nest, p5.nest.settled set4, a5, ?_, ?_, ?_, ?_⟩
  · rw [updateEq, hjd, hth.1]
    simp only [canon] at e4 e5
    simp only [bind, Option.bind, e4, a4.2, e5]
  · refine ⟨?_, ?_⟩
    · have := p5.nest.content .ra p4.shows
      simp only [Panel.content, canon] at this
      rw [this, a5.1]
    · have := p5.shows
      simp only [Panel.content, canon] at this
      rw [this, a5.2]
  · intro h
    exact p5.showA (p4.showA h)
  · intro h
    exact p5.bearings (p4.bearings h)
  · intro h
    exact p5.drawn (p4.drawn ⟨h.telescope, h.rays, h.fp, h.OCS, h.ZCS, h.EDCS, h.DVCS⟩)

theorem nest_telescope (s : Panel Dbl) : Nest lat lon jd L a z r d s s.updateTelescope := by
  rw [updateTelescope_eq]
  exact ⟨rfl, rfl, fun h => ⟨h.time, h.there, h.back⟩, id, id, fun c h => by cases c <;> exact h⟩

theorem telescope_show {F : Type} {s : Panel F} : (ShowA s.updateTelescope ↔ ShowA s) ∧ (ShowE s.updateTelescope ↔ ShowE s) ∧
    (s.updateTelescope.moving.bearings = s.updateTelescope.cAz ↔ s.moving.bearings = s.cAz) := by
  rw [updateTelescope_eq]
  exact ⟨Iff.rfl, Iff.rfl, Iff.rfl⟩

theorem nest_bearings (s : Panel Dbl) : Nest lat lon jd L a z r d s s.updateBearings :=
  ⟨rfl, rfl, fun h => ⟨h.time, h.there, h.back⟩, id, id, fun c h => by cases c <;> exact h⟩

theorem nest_content {s : Panel Dbl} {c : Angle} : Nest lat lon jd L a z r d s (s.setContent c (.fin (canon a z r d c))) := by
  cases c <;> exact ⟨rfl, rfl, fun h => ⟨h.time, h.there, h.back⟩, id, id, fun c h => by cases c <;> first | rfl | exact h⟩

theorem open_content {s : Panel Dbl} {c : Angle} (h : s.content c ≠ .fin (canon a z r d c)) :
    open' a z r d (s.setContent c (.fin (canon a z r d c))) + 1 = open' a z r d s := by
  classical
  cases c <;> simp only [Panel.content, canon] at h <;> simp only [open', setContent, canon, lack_ne h, lack_self] <;> omega

/-- Handlers end, however the controls call each other: every call sets a control to its final value. -/
theorem assigns (hc : Chart lat lon jd L a z r d) : ∀ n, Assigns lat lon jd L a z r d n
  | n, s, hs, hn, c, hp => by
    classical
    by_cases hcon : s.content c = .fin (canon a z r d c)
    · -- the control shows the value already
      refine ⟨s, ?_, ⟨Nest.refl s, hcon, id, id, id, id⟩⟩
      rw [assign, eq_to_fin, decide_eq_true hcon, if_pos rfl, ← hcon]
      cases c <;> rfl
    · have ho := open_content hcon
      obtain ⟨m, rfl⟩ : ∃ m, n = m + 1 := ⟨n - 1, by omega⟩
      have ih := assigns hc m
      rw [assign, eq_to_fin, decide_eq_false hcon]
      simp only [Bool.false_eq_true, if_false]
      have nc : Nest lat lon jd L a z r d s (s.setContent c (.fin (canon a z r d c))) := nest_content
      cases c with
      | ra =>
        simp only [setContent, canon] at ho nc ⊢
        have hra : ({ s with cRa := .fin r } : Panel Dbl) = { s with cRa := .fin r, ra := .fin r } := by rw [← hp.1]
        rw [handle]
        obtain ⟨s', e, hN, hS, hA, hSA, hSE, hB⟩ := round_altaz hc ih (s := { s with cRa := .fin r, ra := .fin r }) hs.time (by
          have := hs.there
          rw [hp.1] at this
          exact this) (by rw [← hra]; omega)
        rw [e]
        rw [← hra] at hN hSE hB
        refine ⟨_, rfl, ⟨(nc.trans hN).trans (nest_telescope _), ?_, ?_, fun _ => telescope_show.1.2 hSA, fun _ => updateTelescope_drawn _, fun h => telescope_show.2.2.2 (hB h)⟩⟩
        · exact (nest_telescope (lat := lat) (lon := lon) (jd := jd) (L := L) s').content .ra (hN.content .ra rfl)
        · intro hE
          exact telescope_show.2.1.2 (hSE ⟨hp.1.symm, hE.2⟩)
      | dec =>
        simp only [setContent, canon] at ho nc ⊢
        have hra : ({ s with cDec := .fin d } : Panel Dbl) = { s with cDec := .fin d, dec := .fin d } := by rw [← hp.2]
        rw [handle]
        obtain ⟨s', e, hN, hS, hA, hSA, hSE, hB⟩ := round_altaz hc ih (s := { s with cDec := .fin d, dec := .fin d }) hs.time (by
          have := hs.there
          rw [hp.2] at this
          exact this) (by rw [← hra]; omega)
        rw [e]
        rw [← hra] at hN hSE hB
        refine ⟨_, rfl, ⟨(nc.trans hN).trans (nest_telescope _), ?_, ?_, fun _ => telescope_show.1.2 hSA, fun _ => updateTelescope_drawn _, fun h => telescope_show.2.2.2 (hB h)⟩⟩
        · exact (nest_telescope (lat := lat) (lon := lon) (jd := jd) (L := L) s').content .dec (hN.content .dec rfl)
        · intro hE
          exact telescope_show.2.1.2 (hSE ⟨hE.1, hp.2.symm⟩)
      | alt =>
        simp only [setContent, canon] at ho nc ⊢
        have hra : ({ s with cAlt := .fin a } : Panel Dbl) = { s with cAlt := .fin a, alt := .fin a } := by rw [← hp.1]
        rw [handle]
        obtain ⟨s', e, hN, hS, hA, hSA, hSE, hB, -⟩ := round_eq hc ih (s := { s with cAlt := .fin a, alt := .fin a }) hs.time (by
          have := hs.back
          rw [hp.1] at this
          exact this) (by rw [← hra]; omega)
        rw [e]
        rw [← hra] at hN hSE hB
        refine ⟨_, rfl, ⟨(nc.trans hN).trans (nest_telescope _), ?_, fun _ => telescope_show.2.1.2 hSA, ?_, fun _ => updateTelescope_drawn _, fun h => telescope_show.2.2.2 (hB h)⟩⟩
        · exact (nest_telescope (lat := lat) (lon := lon) (jd := jd) (L := L) s').content .alt (hN.content .alt rfl)
        · intro hE
          exact telescope_show.1.2 (hSE ⟨hp.1.symm, hE.2⟩)
      | az =>
        simp only [setContent, canon] at ho nc ⊢
        have hra : ({ s with cAz := .fin z } : Panel Dbl) = { s with cAz := .fin z, az := .fin z } := by rw [← hp.2]
        rw [handle]
        obtain ⟨s', e, hN, hS, hA, hSA, hSE, hB, -⟩ := round_eq hc ih (s := { s with cAz := .fin z, az := .fin z }) hs.time (by
          have := hs.back
          rw [hp.2] at this
          exact this) (by rw [← hra]; omega)
        rw [e]
        rw [← hra] at hN hSE hB
        refine ⟨_, rfl, ⟨((nc.trans hN).trans (nest_telescope _)).trans (nest_bearings _), ?_, fun _ => telescope_show.2.1.2 hSA, ?_, fun _ => updateBearings_drawn (updateTelescope_drawn _), ?_⟩⟩
        · exact (nest_telescope (lat := lat) (lon := lon) (jd := jd) (L := L) s').content .az (hN.content .az rfl)
        · intro hE
          exact telescope_show.1.2 (hSE ⟨hE.1, hp.2.symm⟩)
        · intro _
          have h1 : s'.cAz = .fin z := hN.content .az rfl
          have h2 : AtA a z s' := hN.atA hp
          rw [updateTelescope_eq]
          show s'.az = s'.cAz
          rw [h1, h2.2]

end nested

/-! ## States in order -/

/-- A state in order. -/
structure InOrder (lat lon : ℝ) (s : Panel Dbl) : Prop where
  angles : ∃ jd L ra dec alt az : ℝ, s.set.jd = .fin jd ∧ s.set.lst = .fin L ∧ lst (Dbl.fin jd) (.fin lon) = .fin L ∧ s.ra = .fin ra ∧ s.dec = .fin dec ∧
    s.alt = .fin alt ∧ s.az = .fin az ∧ SameDirection lat L ra dec alt az
  showE : ShowE s
  showA : ShowA s
  drawn : Drawn s
  bearings : s.moving.bearings = s.az
  stars : s.still.stars = (s.set.lst, s.set.clipHorizon)
  constellations : s.still.constellations = (s.set.lst, s.set.clipHorizon)
  spot : s.still.spot.1.rtp = s.set.rtp ∧ s.still.spot.2 = (s.set.thx, s.set.thy, s.set.z, s.set.noll, s.set.perturb)
  wf : s.still.wf.1.rtp = s.set.rtp ∧ s.still.wf.2 = (s.set.thx, s.set.thy, s.set.noll, s.set.perturb)
  ccs : s.still.CCS.visible = s.set.showCCS
  boxes : s.set.cTelescope = s.set.showTelescope ∧ s.set.cHorizon = s.set.clipHorizon ∧ s.set.cRays = s.set.showRays ∧ s.set.cCCS = s.set.showCCS ∧
    s.set.cEDCS = s.set.showEDCS ∧ s.set.cDVCS = s.set.showDVCS ∧ s.set.cOCS = s.set.showOCS ∧ s.set.cZCS = s.set.showZCS

/-- The number that a finite double stands for. -/
def num : Dbl → ℝ
  | .fin x => x
  | _ => 0

/-- The direction of the telescope, in the horizontal frame. -/
noncomputable def heading (s : Panel Dbl) : V3 ℝ := horizonVector (rad (num s.alt)) (rad (num s.az))

/-- The direction that a user asks for: an equatorial coordinate moves the telescope to the star with that coordinate and the other one as before, a horizontal
coordinate likewise, and all else leaves the telescope as it is. -/
noncomputable def asked (lat : ℝ) (s : Panel Dbl) : Event Dbl → V3 ℝ
  | .angle .ra v => (tiltBy (rad lat)).mulVec (starVector (rad (num s.set.lst - num v)) (rad (num s.dec)))
  | .angle .dec v => (tiltBy (rad lat)).mulVec (starVector (rad (num s.set.lst - num s.ra)) (rad (num v)))
  | .angle .alt v => horizonVector (rad (num v)) (rad (num s.az))
  | .angle .az v => horizonVector (rad (num s.alt)) (rad (num v))
  | _ => heading s

/-- The settings that a user asks for. -/
noncomputable def told (lon : ℝ) (t : Settings Dbl) : Event Dbl → Settings Dbl
  | .angle _ _ => t
  | .jd v => { t with jd := v, lst := lst v (.fin lon) }
  | .rtp v => { t with rtp := v }
  | .thx v => { t with thx := v }
  | .thy v => { t with thy := v }
  | .z v => { t with z := v }
  | .noll k => { t with noll := k }
  | .perturb v => { t with perturb := v }
  | .telescope b => { t with cTelescope := b, showTelescope := b }
  | .horizon b => { t with cHorizon := b, clipHorizon := b }
  | .rays b => { t with cRays := b, showRays := b }
  | .CCS b => { t with cCCS := b, showCCS := b }
  | .EDCS b => { t with cEDCS := b, showEDCS := b }
  | .DVCS b => { t with cDVCS := b, showDVCS := b }
  | .OCS b => { t with cOCS := b, showOCS := b }
  | .ZCS b => { t with cZCS := b, showZCS := b }

/-- The angles and the time that a user enters are numbers. -/
def Sound : Event Dbl → Prop
  | .angle _ v => ∃ x, v = .fin x
  | .jd v => ∃ x, v = .fin x
  | _ => True

/-- What is to be shown of an action. -/
def Done (lat lon : ℝ) (n : ℕ) (s : Panel Dbl) (e : Event Dbl) : Prop :=
  ∃ s', s.act (.fin lat) (.fin lon) n e = some s' ∧ InOrder lat lon s' ∧ s'.set = told lon s.set e ∧ heading s' = asked lat s e

theorem eq_true_dbl {x y : Dbl} (h : Arith.eq x y = true) : x = y := by
  cases x <;> cases y <;> simp_all [Arith.eq, Dbl.eq]

theorem open_le_four (a z r d : ℝ) (s : Panel Dbl) : open' a z r d s ≤ 4 := by
  have h : ∀ x v, lack x v ≤ 1 := fun x v => by unfold lack; split_ifs <;> omega
  have h1 := h s.cRa r
  have h2 := h s.cDec d
  have h3 := h s.cAlt a
  have h4 := h s.cAz z
  unfold open'
  omega

/-- The part of a state that no angle touches. -/
theorem InOrder.of_same {lat lon : ℝ} {s s' : Panel Dbl} (h : InOrder lat lon s) (hset : s'.set = s.set) (hstill : s'.still = s.still)
    (hang : ∀ L, s.set.lst = .fin L → ∃ ra dec alt az : ℝ, s'.ra = .fin ra ∧ s'.dec = .fin dec ∧ s'.alt = .fin alt ∧ s'.az = .fin az ∧ SameDirection lat L ra dec alt az)
    (hE : ShowE s') (hA : ShowA s') (hD : Drawn s') (hB : s'.moving.bearings = s'.az) : InOrder lat lon s' := by
  obtain ⟨jd, L, -, -, -, -, h1, h2, h3, -⟩ := h.angles
  obtain ⟨ra, dec, alt, az, e1, e2, e3, e4, e5⟩ := hang L h2
  refine ⟨⟨jd, L, ra, dec, alt, az, ?_, ?_, h3, e1, e2, e3, e4, e5⟩, hE, hA, hD, hB, ?_, ?_, ?_, ?_, ?_, ?_⟩ <;> rw [hset] <;> try rw [hstill]
  exacts [h1, h2, h.stars, h.constellations, h.spot, h.wf, h.ccs, h.boxes]

/-- The ends of the two rounds. -/
theorem heading_A {a z : ℝ} {s : Panel Dbl} (h : AtA a z s) : heading s = horizonVector (rad a) (rad z) := by
  rw [heading, h.1, h.2]; rfl

theorem setContent_self {F : Type} (s : Panel F) (c : Angle) : s.setContent c (s.content c) = s := by cases c <;> rfl

/-- Entering a coordinate. -/
theorem angle_done' {lat lon : ℝ} (hlat : |lat| < 90) {n : ℕ} (hn : 5 ≤ n) {s : Panel Dbl} (h : InOrder lat lon s) (c : Angle) (x : ℝ)
    (hp : Plain lat (asked lat s (.angle c (.fin x)))) :
    ∃ s', s.act (.fin lat) (.fin lon) n (.angle c (.fin x)) = some s' ∧ InOrder lat lon s' ∧ s'.set = told lon s.set (.angle c (.fin x)) ∧
      heading s' = asked lat s (.angle c (.fin x)) ∧ s'.still = s.still := by
  classical
  obtain ⟨jd, L, ra, dec, alt, az, hjd, hl, hL, hra, hdec, halt, haz, hsame⟩ := h.angles
  have hhead : heading s = (tiltBy (rad lat)).mulVec (starVector (rad (L - ra)) (rad dec)) := (heading_A ⟨halt, haz⟩).trans hsame
  rw [act, assign, eq_to_fin]
  by_cases hcon : s.content c = .fin x
  · rw [decide_eq_true hcon, if_pos rfl, ← hcon, setContent_self]
    refine ⟨s, rfl, h, rfl, ?_, rfl⟩
    have hE := h.showE
    have hA := h.showA
    cases c <;> simp only [Panel.content] at hcon ⊢ <;> simp only [asked]
    · rw [hhead, hE.1, hl, hra, hdec]; rfl
    · rw [hhead, hE.2, hl, hra, hdec]; rfl
    · rw [hA.1]; rfl
    · rw [hA.2]; rfl
  · rw [decide_eq_false hcon]
    simp only [Bool.false_eq_true, if_false]
    obtain ⟨m, rfl⟩ : ∃ m, n = m + 1 := ⟨n - 1, by omega⟩
    have hm : 4 ≤ m := by omega
    have hbear : s.moving.bearings = s.cAz := h.bearings.trans h.showA.2.symm
    cases c with
    | ra =>
      simp only [asked, hl, hdec, num] at hp
      obtain ⟨a, z, r, d, hc, hth, hs1⟩ := chart_of_star (ra := x) (dec := dec) hL hlat hp
      obtain ⟨s', e, hN, hS, hA, hSA, hSE, hB⟩ := round_altaz hc (assigns hc m) (s := { s with cRa := .fin x, ra := .fin x }) hjd
        ⟨by rw [← hth, ← hdec], x, dec, rfl, hdec, hs1⟩ (le_trans (open_le_four _ _ _ _ _) hm)
      have hbe := hB hbear
      rw [setContent, handle, e]
      refine ⟨_, rfl, ?_, ?_, ?_, ?_⟩
      · refine h.of_same ?_ ?_ ?_ (telescope_show.2.1.2 (hSE ⟨rfl, h.showE.2⟩)) (telescope_show.1.2 hSA) (updateTelescope_drawn _) ?_
        all_goals rw [updateTelescope_eq]
        · exact hN.set
        · exact hN.still
        · intro L' hL'
          rw [hl, Dbl.fin_inj] at hL'
          rw [← hL']
          obtain ⟨-, x', y', e1, e2, e3⟩ := hS.there
          exact ⟨x', y', a, z, e1, e2, hA.1, hA.2, e3⟩
        · exact hbe.trans hSA.2
      · rw [updateTelescope_eq]; exact hN.set
      · have : heading s'.updateTelescope = heading s' := by rw [updateTelescope_eq]; rfl
        rw [this, heading_A hA, asked, hl, hdec]
        exact hs1
      · rw [updateTelescope_eq]; exact hN.still
    | dec =>
      simp only [asked, hl, hra, num] at hp
      obtain ⟨a, z, r, d, hc, hth, hs1⟩ := chart_of_star (ra := ra) (dec := x) hL hlat hp
      obtain ⟨s', e, hN, hS, hA, hSA, hSE, hB⟩ := round_altaz hc (assigns hc m) (s := { s with cDec := .fin x, dec := .fin x }) hjd
        ⟨by rw [← hth, ← hra], ra, x, hra, rfl, hs1⟩ (le_trans (open_le_four _ _ _ _ _) hm)
      have hbe := hB hbear
      rw [setContent, handle, e]
      refine ⟨_, rfl, ?_, ?_, ?_, ?_⟩
      · refine h.of_same ?_ ?_ ?_ (telescope_show.2.1.2 (hSE ⟨h.showE.1, rfl⟩)) (telescope_show.1.2 hSA) (updateTelescope_drawn _) ?_
        all_goals rw [updateTelescope_eq]
        · exact hN.set
        · exact hN.still
        · intro L' hL'
          rw [hl, Dbl.fin_inj] at hL'
          rw [← hL']
          obtain ⟨-, x', y', e1, e2, e3⟩ := hS.there
          exact ⟨x', y', a, z, e1, e2, hA.1, hA.2, e3⟩
        · exact hbe.trans hSA.2
      · rw [updateTelescope_eq]; exact hN.set
      · have : heading s'.updateTelescope = heading s' := by rw [updateTelescope_eq]; rfl
        rw [this, heading_A hA, asked, hl, hra]
        exact hs1
      · rw [updateTelescope_eq]; exact hN.still
    | alt =>
      simp only [asked, haz, num] at hp
      obtain ⟨a, z, r, d, hc, hth, hs1⟩ := chart_of_horizon (alt := x) (az := az) hL hlat hp
      obtain ⟨s', e, hN, hS, hE, hSE, hSA, hB, -⟩ := round_eq hc (assigns hc m) (s := { s with cAlt := .fin x, alt := .fin x }) hjd
        ⟨by rw [← hth, ← haz], x, az, rfl, haz, hs1⟩ (le_trans (open_le_four _ _ _ _ _) hm)
      have hbe := hB hbear
      have hSA' := hSA ⟨rfl, h.showA.2⟩
      rw [setContent, handle, e]
      obtain ⟨-, x', y', e1, e2, e3⟩ := hS.back
      refine ⟨_, rfl, ?_, ?_, ?_, ?_⟩
      · refine h.of_same ?_ ?_ ?_ (telescope_show.2.1.2 hSE) (telescope_show.1.2 hSA') (updateTelescope_drawn _) ?_
        all_goals rw [updateTelescope_eq]
        · exact hN.set
        · exact hN.still
        · intro L' hL'
          rw [hl, Dbl.fin_inj] at hL'
          rw [← hL']
          exact ⟨r, d, x', y', hE.1, hE.2, e1, e2, e3⟩
        · exact hbe.trans hSA'.2
      · rw [updateTelescope_eq]; exact hN.set
      · have : heading s'.updateTelescope = heading s' := by rw [updateTelescope_eq]; rfl
        rw [this, heading_A ⟨e1, e2⟩, asked, haz]
        exact e3.trans hs1.symm
      · rw [updateTelescope_eq]; exact hN.still
    | az =>
      simp only [asked, halt, num] at hp
      obtain ⟨a, z, r, d, hc, hth, hs1⟩ := chart_of_horizon (alt := alt) (az := x) hL hlat hp
      obtain ⟨s', e, hN, hS, hE, hSE, hSA, hB, -⟩ := round_eq hc (assigns hc m) (s := { s with cAz := .fin x, az := .fin x }) hjd
        ⟨by rw [← hth, ← halt], alt, x, halt, rfl, hs1⟩ (le_trans (open_le_four _ _ _ _ _) hm)
      have hSA' := hSA ⟨h.showA.1, rfl⟩
      rw [setContent, handle, e]
      obtain ⟨-, x', y', e1, e2, e3⟩ := hS.back
      refine ⟨_, rfl, ?_, ?_, ?_, ?_⟩
      · refine h.of_same ?_ ?_ ?_ (telescope_show.2.1.2 hSE) (telescope_show.1.2 hSA') (updateBearings_drawn (updateTelescope_drawn _)) ?_
        all_goals rw [updateTelescope_eq]
        · exact hN.set
        · exact hN.still
        · intro L' hL'
          rw [hl, Dbl.fin_inj] at hL'
          rw [← hL']
          exact ⟨r, d, x', y', hE.1, hE.2, e1, e2, e3⟩
        · rfl
      · rw [updateTelescope_eq]; exact hN.set
      · have : heading s'.updateTelescope.updateBearings = heading s' := by rw [updateTelescope_eq]; rfl
        rw [this, heading_A ⟨e1, e2⟩, asked, halt]
        exact e3.trans hs1.symm
      · rw [updateTelescope_eq]; exact hN.still

theorem angle_done {lat lon : ℝ} (hlat : |lat| < 90) {n : ℕ} (hn : 5 ≤ n) {s : Panel Dbl} (h : InOrder lat lon s) (c : Angle) (x : ℝ)
    (hp : Plain lat (asked lat s (.angle c (.fin x)))) : Done lat lon n s (.angle c (.fin x)) := by
  obtain ⟨s', h1, h2, h3, h4, -⟩ := angle_done' hlat hn h c x hp
  exact ⟨s', h1, h2, h3, h4⟩

/-- Entering a time. -/
theorem jd_done {lat lon : ℝ} (hlat : |lat| < 90) {n : ℕ} (hn : 5 ≤ n) {s : Panel Dbl} (h : InOrder lat lon s) (x : ℝ)
    (hp : Plain lat (heading s)) : Done lat lon n s (.jd (.fin x)) := by
  classical
  obtain ⟨jd, L, ra, dec, alt, az, hjd, hl, hL, hra, hdec, halt, haz, hsame⟩ := h.angles
  have hhead := heading_A ⟨halt, haz⟩
  unfold Done
  rw [act, eq_to_fin]
  by_cases hcon : s.set.jd = .fin x
  · rw [decide_eq_true hcon, if_pos rfl]
    refine ⟨s, rfl, h, ?_, rfl⟩
    have hx : jd = x := by rw [hjd, Dbl.fin_inj] at hcon; exact hcon
    simp only [told]
    rw [← hx, hL, ← hl, ← hjd]
  · rw [decide_eq_false hcon]
    simp only [Bool.false_eq_true, if_false]
    have hL' := lst_fin x lon
    generalize lstRaw x lon - 360 * (⌊lstRaw x lon / 360⌋ : ℝ) = M at hL'
    rw [hhead] at hp
    obtain ⟨a, z, r, d, hc, hth, hs1⟩ := chart_of_horizon (alt := alt) (az := az) hL' hlat hp
    obtain ⟨s', e, hN, hS, hE, hSE, hSA, hB, hD⟩ := round_eq hc (assigns hc n)
      (s := { s with set := { s.set with jd := .fin x, lst := lst (.fin x) (.fin lon) } }) rfl
      ⟨by rw [← hth, ← halt, ← haz], alt, az, halt, haz, hs1⟩ (le_trans (open_le_four _ _ _ _ _) (by omega))
    have hSA' := hSA h.showA
    have hD' := hD ⟨h.drawn.telescope, h.drawn.rays, h.drawn.fp, h.drawn.OCS, h.drawn.ZCS, h.drawn.EDCS, h.drawn.DVCS⟩
    have hbe := hB (h.bearings.trans h.showA.2.symm)
    rw [e]
    obtain ⟨-, x', y', e1, e2, e3⟩ := hS.back
    have hset := hN.set
    have hstill := hN.still
    simp only at hset hstill
    refine ⟨_, rfl, ?_, hset, ?_⟩
    · refine ⟨⟨x, M, r, d, x', y', ?_, ?_, hL', hE.1, hE.2, e1, e2, e3⟩, hSE, hSA', ⟨hD'.telescope, hD'.rays, hD'.fp, hD'.OCS, hD'.ZCS, hD'.EDCS, hD'.DVCS⟩,
        hbe.trans hSA'.2, rfl, rfl, ?_, ?_, ?_, ?_⟩
      · show s'.set.jd = _
        rw [hset]
      · show s'.set.lst = _
        rw [hset]; exact hL'
      · show s'.still.spot.1.rtp = s'.set.rtp ∧ s'.still.spot.2 = _
        simp only [updateStars, updateConstellations]
        rw [hset, hstill]; exact h.spot
      · show s'.still.wf.1.rtp = s'.set.rtp ∧ s'.still.wf.2 = _
        simp only [updateStars, updateConstellations]
        rw [hset, hstill]; exact h.wf
      · show s'.still.CCS.visible = s'.set.showCCS
        rw [hset, hstill]; exact h.ccs
      · simp only [updateStars, updateConstellations]
        rw [hset]; exact h.boxes
    · show heading s' = heading s
      rw [heading_A ⟨e1, e2⟩, hhead]
      exact e3.trans hs1.symm

/-! The other controls. -/

theorem rtp_done {lat lon : ℝ} {n : ℕ} {s : Panel Dbl} (h : InOrder lat lon s) (v : Dbl) : Done lat lon n s (.rtp v) := by
  have hD := h.drawn
  have ht := h.drawn.telescope
  unfold Done
  rw [act]
  by_cases hv : Arith.eq s.set.rtp v = true
  · rw [if_pos hv]
    refine ⟨s, rfl, h, ?_, rfl⟩
    rw [← eq_true_dbl hv]
    rfl
  · rw [if_neg hv]
    rw [updateTelescope_eq]
    simp only [updateSpot, updateWf, updateCCS, updateEDCS, updateDVCS, actual]
    refine ⟨_, rfl, ?_, rfl, rfl⟩
    refine ⟨h.angles, h.showE, h.showA, ⟨rfl, ⟨rfl, fun hh => if_pos hh⟩, rfl, ⟨rfl, fun hh => if_pos hh⟩, ⟨rfl, fun hh => if_pos hh⟩, ⟨rfl, fun hh => if_pos hh⟩, ⟨rfl, fun hh => if_pos hh⟩⟩,
      h.bearings, h.stars, h.constellations, ⟨rfl, rfl⟩, ⟨rfl, rfl⟩, rfl, h.boxes⟩

theorem thx_done {lat lon : ℝ} {n : ℕ} {s : Panel Dbl} (h : InOrder lat lon s) (v : Dbl) : Done lat lon n s (.thx v) := by
  have hD := h.drawn
  have ht := h.drawn.telescope
  unfold Done
  rw [act]
  by_cases hv : Arith.eq s.set.thx v = true
  · rw [if_pos hv]
    refine ⟨s, rfl, h, ?_, rfl⟩
    rw [← eq_true_dbl hv]
    rfl
  · rw [if_neg hv]
    refine ⟨_, rfl, ?_, rfl, rfl⟩
    refine ⟨h.angles, h.showE, h.showA, ⟨ht, ⟨rfl, fun hh => ?_⟩, hD.fp, hD.OCS, hD.ZCS, hD.EDCS, hD.DVCS⟩, h.bearings, h.stars, h.constellations, ⟨?_, rfl⟩, ⟨?_, rfl⟩, h.ccs, h.boxes⟩
    · simp only [updateRays, updateSpot, updateWf, actual] at hh ⊢
      rw [if_pos hh, ht]
    · simp only [updateRays, updateSpot, updateWf, actual]
      rw [ht]
    · simp only [updateRays, updateSpot, updateWf, actual]
      rw [ht]

theorem thy_done {lat lon : ℝ} {n : ℕ} {s : Panel Dbl} (h : InOrder lat lon s) (v : Dbl) : Done lat lon n s (.thy v) := by
  have hD := h.drawn
  have ht := h.drawn.telescope
  unfold Done
  rw [act]
  by_cases hv : Arith.eq s.set.thy v = true
  · rw [if_pos hv]
    refine ⟨s, rfl, h, ?_, rfl⟩
    rw [← eq_true_dbl hv]
    rfl
  · rw [if_neg hv]
    refine ⟨_, rfl, ?_, rfl, rfl⟩
    refine ⟨h.angles, h.showE, h.showA, ⟨ht, ⟨rfl, fun hh => ?_⟩, hD.fp, hD.OCS, hD.ZCS, hD.EDCS, hD.DVCS⟩, h.bearings, h.stars, h.constellations, ⟨?_, rfl⟩, ⟨?_, rfl⟩, h.ccs, h.boxes⟩
    · simp only [updateRays, updateSpot, updateWf, actual] at hh ⊢
      rw [if_pos hh, ht]
    · simp only [updateRays, updateSpot, updateWf, actual]
      rw [ht]
    · simp only [updateRays, updateSpot, updateWf, actual]
      rw [ht]

theorem z_done {lat lon : ℝ} {n : ℕ} {s : Panel Dbl} (h : InOrder lat lon s) (v : Dbl) : Done lat lon n s (.z v) := by
  have hD := h.drawn
  have ht := h.drawn.telescope
  unfold Done
  rw [act]
  by_cases hv : Arith.eq s.set.z v = true
  · rw [if_pos hv]
    refine ⟨s, rfl, h, ?_, rfl⟩
    rw [← eq_true_dbl hv]
    rfl
  · rw [if_neg hv]
    refine ⟨_, rfl, ?_, rfl, rfl⟩
    refine ⟨h.angles, h.showE, h.showA, ⟨ht, hD.rays, hD.fp, hD.OCS, hD.ZCS, hD.EDCS, hD.DVCS⟩, h.bearings, h.stars, h.constellations, ⟨?_, rfl⟩, h.wf, h.ccs, h.boxes⟩
    simp only [updateSpot, actual]
    rw [ht]

theorem perturb_done {lat lon : ℝ} {n : ℕ} {s : Panel Dbl} (h : InOrder lat lon s) (v : Dbl) : Done lat lon n s (.perturb v) := by
  have hD := h.drawn
  have ht := h.drawn.telescope
  unfold Done
  rw [act]
  by_cases hv : Arith.eq s.set.perturb v = true
  · rw [if_pos hv]
    refine ⟨s, rfl, h, ?_, rfl⟩
    rw [← eq_true_dbl hv]
    rfl
  · rw [if_neg hv]
    refine ⟨_, rfl, ?_, rfl, rfl⟩
    refine ⟨h.angles, h.showE, h.showA, ⟨ht, hD.rays, hD.fp, hD.OCS, hD.ZCS, hD.EDCS, hD.DVCS⟩, h.bearings, h.stars, h.constellations, ⟨?_, rfl⟩, ⟨?_, rfl⟩, h.ccs, h.boxes⟩
    · simp only [updateSpot, updateWf, actual]
      rw [ht]
    · simp only [updateSpot, updateWf, actual]
      rw [ht]

theorem noll_done {lat lon : ℝ} {n : ℕ} {s : Panel Dbl} (h : InOrder lat lon s) (v : ℤ) : Done lat lon n s (.noll v) := by
  have hD := h.drawn
  have ht := h.drawn.telescope
  unfold Done
  rw [act]
  by_cases hv : s.set.noll = v
  · rw [if_pos hv]
    refine ⟨s, rfl, h, ?_, rfl⟩
    rw [← hv]
    rfl
  · rw [if_neg hv]
    refine ⟨_, rfl, ?_, rfl, rfl⟩
    refine ⟨h.angles, h.showE, h.showA, ⟨ht, hD.rays, hD.fp, hD.OCS, hD.ZCS, hD.EDCS, hD.DVCS⟩, h.bearings, h.stars, h.constellations, ⟨?_, rfl⟩, ⟨?_, rfl⟩, h.ccs, h.boxes⟩
    · simp only [updateSpot, updateWf, actual]
      rw [ht]
    · simp only [updateSpot, updateWf, actual]
      rw [ht]

theorem telescope_done {lat lon : ℝ} {n : ℕ} {s : Panel Dbl} (h : InOrder lat lon s) (b : Bool) : Done lat lon n s (.telescope b) := by
  have hD := h.drawn
  have ht := h.drawn.telescope
  have hb := h.boxes
  have hc : s.set.cTelescope = s.set.showTelescope := hb.1
  unfold Done
  rw [act, check]
  by_cases hv : s.set.cTelescope = b
  · rw [if_pos hv]
    refine ⟨s, rfl, h, ?_, rfl⟩
    have h2 : s.set.showTelescope = b := hc.symm.trans hv
    simp only [told]
    exact congrArg₂ (fun x y => { s.set with cTelescope := x, showTelescope := y }) hv h2
  · rw [if_neg hv]
    have hbn : b = !s.set.showTelescope := by
      rw [← hc]
      revert hv
      cases s.set.cTelescope <;> cases b <;> simp
    rw [updateTelescope_eq]
    refine ⟨_, rfl, ?_, ?_, rfl⟩
    swap
    · simp only [told]
      rw [hbn]
    refine ⟨h.angles, h.showE, h.showA, ⟨rfl, ⟨rfl, fun hh => if_pos hh⟩, rfl, ⟨rfl, fun hh => if_pos hh⟩, ⟨rfl, fun hh => if_pos hh⟩, ⟨rfl, fun hh => if_pos hh⟩, ⟨rfl, fun hh => if_pos hh⟩⟩, h.bearings, h.stars, h.constellations, h.spot, h.wf, h.ccs, ⟨hbn, hb.2.1, hb.2.2.1, hb.2.2.2.1, hb.2.2.2.2.1, hb.2.2.2.2.2.1, hb.2.2.2.2.2.2.1, hb.2.2.2.2.2.2.2⟩⟩

theorem horizon_done {lat lon : ℝ} {n : ℕ} {s : Panel Dbl} (h : InOrder lat lon s) (b : Bool) : Done lat lon n s (.horizon b) := by
  have hD := h.drawn
  have ht := h.drawn.telescope
  have hb := h.boxes
  have hc : s.set.cHorizon = s.set.clipHorizon := hb.2.1
  unfold Done
  rw [act, check]
  by_cases hv : s.set.cHorizon = b
  · rw [if_pos hv]
    refine ⟨s, rfl, h, ?_, rfl⟩
    have h2 : s.set.clipHorizon = b := hc.symm.trans hv
    simp only [told]
    exact congrArg₂ (fun x y => { s.set with cHorizon := x, clipHorizon := y }) hv h2
  · rw [if_neg hv]
    have hbn : b = !s.set.clipHorizon := by
      rw [← hc]
      revert hv
      cases s.set.cHorizon <;> cases b <;> simp
    refine ⟨_, rfl, ?_, ?_, rfl⟩
    swap
    · simp only [told]
      rw [hbn]
      rfl
    refine ⟨h.angles, h.showE, h.showA, ⟨ht, hD.rays, hD.fp, hD.OCS, hD.ZCS, hD.EDCS, hD.DVCS⟩, h.bearings, rfl, rfl, h.spot, h.wf, h.ccs, ⟨hb.1, hbn, hb.2.2.1, hb.2.2.2.1, hb.2.2.2.2.1, hb.2.2.2.2.2.1, hb.2.2.2.2.2.2.1, hb.2.2.2.2.2.2.2⟩⟩

theorem rays_done {lat lon : ℝ} {n : ℕ} {s : Panel Dbl} (h : InOrder lat lon s) (b : Bool) : Done lat lon n s (.rays b) := by
  have hD := h.drawn
  have ht := h.drawn.telescope
  have hb := h.boxes
  have hc : s.set.cRays = s.set.showRays := hb.2.2.1
  unfold Done
  rw [act, check]
  by_cases hv : s.set.cRays = b
  · rw [if_pos hv]
    refine ⟨s, rfl, h, ?_, rfl⟩
    have h2 : s.set.showRays = b := hc.symm.trans hv
    simp only [told]
    exact congrArg₂ (fun x y => { s.set with cRays := x, showRays := y }) hv h2
  · rw [if_neg hv]
    have hbn : b = !s.set.showRays := by
      rw [← hc]
      revert hv
      cases s.set.cRays <;> cases b <;> simp
    refine ⟨_, rfl, ?_, ?_, rfl⟩
    swap
    · simp only [told]
      rw [hbn]
      rfl
    refine ⟨h.angles, h.showE, h.showA, ⟨ht, ⟨rfl, fun hh => ?_⟩, hD.fp, hD.OCS, hD.ZCS, hD.EDCS, hD.DVCS⟩, h.bearings, h.stars, h.constellations, h.spot, h.wf, h.ccs, ⟨hb.1, hb.2.1, hbn, hb.2.2.2.1, hb.2.2.2.2.1, hb.2.2.2.2.2.1, hb.2.2.2.2.2.2.1, hb.2.2.2.2.2.2.2⟩⟩
    simp only [updateRays, actual] at hh ⊢
    rw [if_pos hh, ht]

theorem CCS_done {lat lon : ℝ} {n : ℕ} {s : Panel Dbl} (h : InOrder lat lon s) (b : Bool) : Done lat lon n s (.CCS b) := by
  have hD := h.drawn
  have ht := h.drawn.telescope
  have hb := h.boxes
  have hc : s.set.cCCS = s.set.showCCS := hb.2.2.2.1
  unfold Done
  rw [act, check]
  by_cases hv : s.set.cCCS = b
  · rw [if_pos hv]
    refine ⟨s, rfl, h, ?_, rfl⟩
    have h2 : s.set.showCCS = b := hc.symm.trans hv
    simp only [told]
    exact congrArg₂ (fun x y => { s.set with cCCS := x, showCCS := y }) hv h2
  · rw [if_neg hv]
    have hbn : b = !s.set.showCCS := by
      rw [← hc]
      revert hv
      cases s.set.cCCS <;> cases b <;> simp
    refine ⟨_, rfl, ?_, ?_, rfl⟩
    swap
    · simp only [told]
      rw [hbn]
      rfl
    refine ⟨h.angles, h.showE, h.showA, ⟨ht, hD.rays, hD.fp, hD.OCS, hD.ZCS, hD.EDCS, hD.DVCS⟩, h.bearings, h.stars, h.constellations, h.spot, h.wf, rfl, ⟨hb.1, hb.2.1, hb.2.2.1, hbn, hb.2.2.2.2.1, hb.2.2.2.2.2.1, hb.2.2.2.2.2.2.1, hb.2.2.2.2.2.2.2⟩⟩

theorem EDCS_done {lat lon : ℝ} {n : ℕ} {s : Panel Dbl} (h : InOrder lat lon s) (b : Bool) : Done lat lon n s (.EDCS b) := by
  have hD := h.drawn
  have ht := h.drawn.telescope
  have hb := h.boxes
  have hc : s.set.cEDCS = s.set.showEDCS := hb.2.2.2.2.1
  unfold Done
  rw [act, check]
  by_cases hv : s.set.cEDCS = b
  · rw [if_pos hv]
    refine ⟨s, rfl, h, ?_, rfl⟩
    have h2 : s.set.showEDCS = b := hc.symm.trans hv
    simp only [told]
    exact congrArg₂ (fun x y => { s.set with cEDCS := x, showEDCS := y }) hv h2
  · rw [if_neg hv]
    have hbn : b = !s.set.showEDCS := by
      rw [← hc]
      revert hv
      cases s.set.cEDCS <;> cases b <;> simp
    refine ⟨_, rfl, ?_, ?_, rfl⟩
    swap
    · simp only [told]
      rw [hbn]
      rfl
    refine ⟨h.angles, h.showE, h.showA, ⟨ht, hD.rays, hD.fp, hD.OCS, hD.ZCS, ⟨rfl, fun hh => ?_⟩, hD.DVCS⟩, h.bearings, h.stars, h.constellations, h.spot, h.wf, h.ccs, ⟨hb.1, hb.2.1, hb.2.2.1, hb.2.2.2.1, hbn, hb.2.2.2.2.2.1, hb.2.2.2.2.2.2.1, hb.2.2.2.2.2.2.2⟩⟩
    simp only [updateEDCS, actual] at hh ⊢
    rw [if_pos hh, ht]

theorem DVCS_done {lat lon : ℝ} {n : ℕ} {s : Panel Dbl} (h : InOrder lat lon s) (b : Bool) : Done lat lon n s (.DVCS b) := by
  have hD := h.drawn
  have ht := h.drawn.telescope
  have hb := h.boxes
  have hc : s.set.cDVCS = s.set.showDVCS := hb.2.2.2.2.2.1
  unfold Done
  rw [act, check]
  by_cases hv : s.set.cDVCS = b
  · rw [if_pos hv]
    refine ⟨s, rfl, h, ?_, rfl⟩
    have h2 : s.set.showDVCS = b := hc.symm.trans hv
    simp only [told]
    exact congrArg₂ (fun x y => { s.set with cDVCS := x, showDVCS := y }) hv h2
  · rw [if_neg hv]
    have hbn : b = !s.set.showDVCS := by
      rw [← hc]
      revert hv
      cases s.set.cDVCS <;> cases b <;> simp
    refine ⟨_, rfl, ?_, ?_, rfl⟩
    swap
    · simp only [told]
      rw [hbn]
      rfl
    refine ⟨h.angles, h.showE, h.showA, ⟨ht, hD.rays, hD.fp, hD.OCS, hD.ZCS, hD.EDCS, ⟨rfl, fun hh => ?_⟩⟩, h.bearings, h.stars, h.constellations, h.spot, h.wf, h.ccs, ⟨hb.1, hb.2.1, hb.2.2.1, hb.2.2.2.1, hb.2.2.2.2.1, hbn, hb.2.2.2.2.2.2.1, hb.2.2.2.2.2.2.2⟩⟩
    simp only [updateDVCS, actual] at hh ⊢
    rw [if_pos hh, ht]

theorem OCS_done {lat lon : ℝ} {n : ℕ} {s : Panel Dbl} (h : InOrder lat lon s) (b : Bool) : Done lat lon n s (.OCS b) := by
  have hD := h.drawn
  have ht := h.drawn.telescope
  have hb := h.boxes
  have hc : s.set.cOCS = s.set.showOCS := hb.2.2.2.2.2.2.1
  unfold Done
  rw [act, check]
  by_cases hv : s.set.cOCS = b
  · rw [if_pos hv]
    refine ⟨s, rfl, h, ?_, rfl⟩
    have h2 : s.set.showOCS = b := hc.symm.trans hv
    simp only [told]
    exact congrArg₂ (fun x y => { s.set with cOCS := x, showOCS := y }) hv h2
  · rw [if_neg hv]
    have hbn : b = !s.set.showOCS := by
      rw [← hc]
      revert hv
      cases s.set.cOCS <;> cases b <;> simp
    refine ⟨_, rfl, ?_, ?_, rfl⟩
    swap
    · simp only [told]
      rw [hbn]
      rfl
    refine ⟨h.angles, h.showE, h.showA, ⟨ht, hD.rays, hD.fp, ⟨rfl, fun hh => ?_⟩, hD.ZCS, hD.EDCS, hD.DVCS⟩, h.bearings, h.stars, h.constellations, h.spot, h.wf, h.ccs, ⟨hb.1, hb.2.1, hb.2.2.1, hb.2.2.2.1, hb.2.2.2.2.1, hb.2.2.2.2.2.1, hbn, hb.2.2.2.2.2.2.2⟩⟩
    simp only [updateOCS, actual] at hh ⊢
    rw [if_pos hh, ht]

theorem ZCS_done {lat lon : ℝ} {n : ℕ} {s : Panel Dbl} (h : InOrder lat lon s) (b : Bool) : Done lat lon n s (.ZCS b) := by
  have hD := h.drawn
  have ht := h.drawn.telescope
  have hb := h.boxes
  have hc : s.set.cZCS = s.set.showZCS := hb.2.2.2.2.2.2.2
  unfold Done
  rw [act, check]
  by_cases hv : s.set.cZCS = b
  · rw [if_pos hv]
    refine ⟨s, rfl, h, ?_, rfl⟩
    have h2 : s.set.showZCS = b := hc.symm.trans hv
    simp only [told]
    exact congrArg₂ (fun x y => { s.set with cZCS := x, showZCS := y }) hv h2
  · rw [if_neg hv]
    have hbn : b = !s.set.showZCS := by
      rw [← hc]
      revert hv
      cases s.set.cZCS <;> cases b <;> simp
    refine ⟨_, rfl, ?_, ?_, rfl⟩
    swap
    · simp only [told]
      rw [hbn]
      rfl
    refine ⟨h.angles, h.showE, h.showA, ⟨ht, hD.rays, hD.fp, hD.OCS, ⟨rfl, fun hh => ?_⟩, hD.EDCS, hD.DVCS⟩, h.bearings, h.stars, h.constellations, h.spot, h.wf, h.ccs, ⟨hb.1, hb.2.1, hb.2.2.1, hb.2.2.2.1, hb.2.2.2.2.1, hb.2.2.2.2.2.1, hb.2.2.2.2.2.2.1, hbn⟩⟩
    simp only [updateZCS, actual] at hh ⊢
    rw [if_pos hh, ht]

/-! ## C108 -/

/-- C108, one action: it ends (no handler is more than five calls deep), the state is in order again, and it is the one the user asked for. -/
theorem C108_event_partial {lat lon : ℝ} (hlat : |lat| < 90) {n : ℕ} (hn : 5 ≤ n) {s : Panel Dbl} (h : InOrder lat lon s) (e : Event Dbl) (he : Sound e)
    (hp : Plain lat (asked lat s e)) :
    ∃ s', s.act (.fin lat) (.fin lon) n e = some s' ∧ InOrder lat lon s' ∧ s'.set = told lon s.set e ∧ heading s' = asked lat s e := by
  cases e with
  | angle c v =>
    obtain ⟨x, rfl⟩ := he
    exact angle_done hlat hn h c x hp
  | jd v =>
    obtain ⟨x, rfl⟩ := he
    exact jd_done hlat hn h x hp
  | rtp v => exact rtp_done h v
  | thx v => exact thx_done h v
  | thy v => exact thy_done h v
  | z v => exact z_done h v
  | noll k => exact noll_done h k
  | perturb v => exact perturb_done h v
  | telescope b => exact telescope_done h b
  | horizon b => exact horizon_done h b
  | rays b => exact rays_done h b
  | CCS b => exact CCS_done h b
  | EDCS b => exact EDCS_done h b
  | DVCS b => exact DVCS_done h b
  | OCS b => exact OCS_done h b
  | ZCS b => exact ZCS_done h b

/-- Every action of a session leads to a plain direction. -/
def Feasible (lat lon : ℝ) (n : ℕ) (s : Panel Dbl) : List (Event Dbl) → Prop
  | [] => True
  | e :: es => Sound e ∧ Plain lat (asked lat s e) ∧ ∀ s', s.act (.fin lat) (.fin lon) n e = some s' → Feasible lat lon n s' es

/-- C108, a session: it comes to its end in order, with the settings last asked for. -/
theorem C108_session_partial {lat lon : ℝ} (hlat : |lat| < 90) {n : ℕ} (hn : 5 ≤ n) : ∀ (es : List (Event Dbl)) {s : Panel Dbl}, InOrder lat lon s →
    Feasible lat lon n s es → ∃ s', s.session (.fin lat) (.fin lon) n es = some s' ∧ InOrder lat lon s' ∧ s'.set = es.foldl (told lon) s.set
  | [], s, h, _ => ⟨s, rfl, h, rfl⟩
  | e :: es, s, h, hf => by
    obtain ⟨s1, e1, h1, g1, -⟩ := C108_event_partial hlat hn h e hf.1 hf.2.1
    obtain ⟨s2, e2, h2, g2⟩ := C108_session_partial hlat hn es h1 (hf.2.2 s1 e1)
    refine ⟨s2, ?_, h2, ?_⟩
    · simp only [session, e1, bind, Option.bind]
      exact e2
    · rw [g2, g1]; rfl

/-- Directions at a distance from the pole of one frame other than the latitude are not at the poles of the other frame. -/
theorem tilt_plain {δ lat c : ℝ} (hd : |δ| < 90) (hlat : |lat| < 90) (h1 : δ ≠ lat) (h2 : δ ≠ -lat) (hc : |c| ≤ 1) :
    (Real.sin (rad δ) * Real.sin (rad lat) + Real.cos (rad δ) * Real.cos (rad lat) * c) ^ 2 ≠ 1 := by
  have hπ := Real.pi_pos
  rw [abs_lt] at hd hlat
  obtain ⟨c1, c2⟩ := abs_le.1 hc
  have pos : ∀ x : ℝ, -90 < x → x < 90 → 0 < Real.cos (rad x) := by
    intro x h h'
    apply Real.cos_pos_of_mem_Ioo
    unfold rad
    constructor <;> nlinarith
  have p := mul_pos (pos δ hd.1 hd.2) (pos lat hlat.1 hlat.2)
  have q : ∀ x : ℝ, -180 < x → x < 180 → x ≠ 0 → Real.cos (rad x) < 1 := by
    intro x h h' h0
    refine lt_of_le_of_ne (Real.cos_le_one _) fun hh => h0 ?_
    have := (Real.cos_eq_one_iff_of_lt_of_lt (x := rad x) (by unfold rad; nlinarith) (by unfold rad; nlinarith)).1 hh
    unfold rad at this
    rcases mul_eq_zero.1 this with h | h
    · exact h
    · exact absurd h (by positivity)
  have q1 := q (δ - lat) (by linarith) (by linarith) (sub_ne_zero.2 h1)
  have q2 := q (δ + lat) (by linarith) (by linarith) (fun h => h2 (by linarith))
  have r1 : rad (δ - lat) = rad δ - rad lat := by unfold rad; ring
  have r2 : rad (δ + lat) = rad δ + rad lat := by unfold rad; ring
  rw [r1, Real.cos_sub] at q1
  rw [r2, Real.cos_add] at q2
  intro h
  have hcc := mul_le_mul_of_nonneg_left c2 p.le
  have hcc' := mul_le_mul_of_nonneg_left c1 p.le
  rw [pow_two, mul_self_eq_one_iff] at h
  rcases h with h | h <;> nlinarith

theorem sin_sq_ne_one {x : ℝ} (h : |x| < 90) : Real.sin (rad x) ^ 2 ≠ 1 := by
  have hπ := Real.pi_pos
  rw [abs_lt] at h
  have : 0 < Real.cos (rad x) := by
    apply Real.cos_pos_of_mem_Ioo
    unfold rad
    constructor <;> nlinarith
  intro hh
  nlinarith [Real.sin_sq_add_cos_sq (rad x)]

theorem plain_star {lat dec ha : ℝ} (hd : |dec| < 90) (hlat : |lat| < 90) (h1 : dec ≠ lat) (h2 : dec ≠ -lat) :
    Plain lat ((tiltBy (rad lat)).mulVec (starVector ha (rad dec))) := by
  refine ⟨?_, ?_⟩
  · have h := tilt_plain hd hlat h1 h2 (Real.abs_cos_le_one ha)
    simp only [tiltBy, M3.mulVec, starVector]
    convert h using 2
    ring
  · rw [tilt_tilt]
    exact sin_sq_ne_one hd

theorem plain_horizon {lat alt az : ℝ} (hd : |alt| < 90) (hlat : |lat| < 90) (h1 : alt ≠ lat) (h2 : alt ≠ -lat) :
    Plain lat (horizonVector (rad alt) az) := by
  refine ⟨sin_sq_ne_one hd, ?_⟩
  have h := tilt_plain hd hlat h1 h2 (Real.abs_cos_le_one az)
  simp only [tiltBy, M3.mulVec, horizonVector]
  convert h using 2
  ring

/-- C108, the beginning: the application starts in order, with the direction of the star in its program. -/
theorem C108_initial {lat lon : ℝ} (hlat : |lat| < 90) (h1 : lat ≠ -631 / 10) (h2 : lat ≠ 631 / 10) :
    InOrder lat lon (Panel.initial (.fin lat) (.fin lon)) ∧ Plain lat (heading (Panel.initial (.fin lat) (.fin lon))) := by
  obtain ⟨L, hL⟩ : ∃ L, lst (Dbl.fin (246067625 / 100)) (.fin lon) = .fin L := ⟨_, lst_fin _ _⟩
  have hp := plain_star (lat := lat) (dec := -631 / 10) (ha := rad (L - 18665 / 100)) (by rw [abs_lt]; norm_num) hlat (Ne.symm h1) (fun h => h2 (by linarith))
  obtain ⟨alt, az, e1, -, -, -, e2⟩ := C102_to_horizon (ra := 18665 / 100) (dec := -631 / 10) hL hlat hp.1
  have c1 : (const (18665 / 100) : Dbl) = .fin (18665 / 100) := by rw [Dbl.const_dbl]; norm_num
  have c2 : (const (-631 / 10) : Dbl) = .fin (-631 / 10) := by rw [Dbl.const_dbl]; norm_num
  have c3 : (const (246067625 / 100) : Dbl) = .fin (246067625 / 100) := by rw [Dbl.const_dbl]; norm_num
  have hi : Panel.initial (Dbl.fin lat) (.fin lon) =
    { ra := .fin (18665 / 100), dec := .fin (-631 / 10), alt := .fin alt, az := .fin az, cRa := .fin (18665 / 100), cDec := .fin (-631 / 10), cAlt := .fin alt,
      cAz := .fin az,
      set := ⟨.fin (246067625 / 100), .fin L, 0, 0, 0, 0, 4, 0, false, true, true, false, false, false, true, false, false, true, true, false, false, false, true, false⟩,
      moving := ⟨⟨⟨.fin alt, .fin az, 0⟩, true⟩, .fin az, ⟨(⟨.fin alt, .fin az, 0⟩, 0, 0), true⟩, ⟨.fin alt, .fin az, 0⟩, ⟨⟨.fin alt, .fin az, 0⟩, false⟩,
        ⟨⟨.fin alt, .fin az, 0⟩, false⟩, ⟨⟨.fin alt, .fin az, 0⟩, true⟩, ⟨⟨.fin alt, .fin az, 0⟩, false⟩⟩,
      still := ⟨(.fin L, false), (.fin L, false), ⟨⟨.fin alt, .fin az, 0⟩, false⟩, (⟨.fin alt, .fin az, 0⟩, 0, 0, 0, 4, 0), (⟨.fin alt, .fin az, 0⟩, 0, 0, 4, 0)⟩ } := by
    unfold Panel.initial
    simp only [c1, c2, c3, e1, hL]
  rw [hi]
  refine ⟨⟨⟨_, L, _, _, alt, az, rfl, rfl, hL, rfl, rfl, rfl, rfl, e2⟩, ⟨rfl, rfl⟩, ⟨rfl, rfl⟩, ⟨rfl, ⟨rfl, fun _ => rfl⟩, rfl, ⟨rfl, fun _ => rfl⟩, ⟨rfl, fun _ => rfl⟩,
    ⟨rfl, fun _ => rfl⟩, ⟨rfl, fun _ => rfl⟩⟩, rfl, rfl, rfl, ⟨rfl, rfl⟩, ⟨rfl, rfl⟩, rfl, rfl, rfl, rfl, rfl, rfl, rfl, rfl, rfl⟩, ?_⟩
  rw [heading]
  show Plain lat (horizonVector (rad alt) (rad az))
  rw [e2]
  exact hp

/-! ## Where it does not hold -/

/-- `update_telescope` forgets the frame of the camera: a frame that is visible stays where the telescope was. -/
theorem C108_camera_frame_violated {lat lon : ℝ} (hlat : |lat| < 90) {n : ℕ} (hn : 5 ≤ n) {s : Panel Dbl} (h : InOrder lat lon s) (hv : s.still.CCS.visible = true)
    (hd : s.still.CCS.data = ⟨s.alt, s.az, s.set.rtp⟩) (c : Angle) (x : ℝ) (hp : Plain lat (asked lat s (.angle c (.fin x))))
    (hne : asked lat s (.angle c (.fin x)) ≠ heading s) :
    ∃ s', s.act (.fin lat) (.fin lon) n (.angle c (.fin x)) = some s' ∧ s'.still.CCS.visible = true ∧ s'.still.CCS.data ≠ ⟨s'.alt, s'.az, s'.set.rtp⟩ := by
  obtain ⟨s', e, hi, hs, hh, hst⟩ := angle_done' hlat hn h c x hp
  refine ⟨s', e, by rw [hst]; exact hv, ?_⟩
  rw [hst, hd]
  intro hc
  injection hc with c1 c2 c3
  apply hne
  rw [← hh, heading, heading, c1, c2]

/-- A control that is given NaN never stops: it differs from itself, so that the handlers call each other for ever. -/
theorem assign_nan {lat lon : ℝ} : ∀ (n : ℕ) (c : Angle) (s : Panel Dbl), s.assign (.fin lat) (.fin lon) n c .nan = none
  | n, c, s => by
    have hnan : ∀ x : Dbl, Arith.eq x Dbl.nan = false := fun x => by cases x <;> rfl
    have hsin : Arith.sin Dbl.nan = .nan := rfl
    have hcos : Arith.cos Dbl.nan = .nan := rfl
    have hasin : Arith.asin Dbl.nan = .nan := rfl
    rw [assign, hnan]
    simp only [Bool.false_eq_true, if_false]
    match n, c with
    | 0, c => cases c <;> rw [handle]
    | n + 1, .ra =>
      rw [setContent, handle, updateAltaz]
      have e : eqToAz Dbl.nan s.dec s.set.jd (.fin lat) (.fin lon) = (.nan, .nan) := by
        generalize s.set.jd = j
        simp [eqToAz, azToEq, deg2rad, rad2deg, arctan2, hsin, hcos, hasin]
      simp only [e, bind, Option.bind]
      simp only [assign_nan n .alt]
    | n + 1, .dec =>
      rw [setContent, handle, updateAltaz]
      have e : eqToAz s.ra Dbl.nan s.set.jd (.fin lat) (.fin lon) = (.nan, .nan) := by
        generalize s.set.jd = j
        simp [eqToAz, azToEq, deg2rad, rad2deg, arctan2, hsin, hcos, hasin]
      simp only [e, bind, Option.bind]
      simp only [assign_nan n .alt]
    | n + 1, .alt =>
      rw [setContent, handle, updateEq]
      have e : azToEq Dbl.nan s.az s.set.jd (.fin lat) (.fin lon) = (.nan, .nan) := by
        generalize s.set.jd = j
        simp [eqToAz, azToEq, deg2rad, rad2deg, arctan2, hsin, hcos, hasin]
      simp only [e, bind, Option.bind]
      simp only [assign_nan n .ra]
    | n + 1, .az =>
      rw [setContent, handle, updateEq]
      have e : azToEq s.alt Dbl.nan s.set.jd (.fin lat) (.fin lon) = (.nan, .nan) := by
        generalize s.set.jd = j
        simp [eqToAz, azToEq, deg2rad, rad2deg, arctan2, hsin, hcos, hasin]
      simp only [e, bind, Option.bind]
      simp only [assign_nan n .ra]

/-- A star in the zenith has no azimuth (C102), so that the application does not come back from pointing there. -/
theorem C108_zenith_violated {lat lon jd L : ℝ} (hL : lst (Dbl.fin jd) (.fin lon) = .fin L) {s : Panel Dbl} (hjd : s.set.jd = .fin jd) (hra : s.ra = .fin L)
    (hne : s.cDec ≠ .fin lat) (n : ℕ) : s.act (.fin lat) (.fin lon) n (.angle .dec (.fin lat)) = none := by
  classical
  have e : eqToAz s.ra (.fin lat) s.set.jd (.fin lat) (.fin lon) = (.fin 90, .nan) := by rw [hra, hjd]; exact C102_zenith_violated hL
  rw [act, assign, eq_to_fin, decide_eq_false (show ¬s.content .dec = .fin lat from hne)]
  simp only [Bool.false_eq_true, if_false]
  cases n with
  | zero => rw [handle]
  | succ n =>
    rw [setContent, handle, updateAltaz]
    simp only [e, bind, Option.bind]
    rw [assign, eq_to_fin]
    by_cases hc : s.cAlt = .fin 90
    · rw [decide_eq_true (by exact hc), if_pos rfl]
      simp only [setContent, assign_nan]
    · rw [decide_eq_false (by exact hc)]
      simp only [Bool.false_eq_true, if_false]
      cases n with
      | zero => simp only [handle]
      | succ n =>
        have e' : azToEq (Dbl.fin 90) .nan s.set.jd (.fin lat) (.fin lon) = (.nan, .nan) := by
          have hsin : Arith.sin Dbl.nan = .nan := rfl
          have hcos : Arith.cos Dbl.nan = .nan := rfl
          have hasin : Arith.asin Dbl.nan = .nan := rfl
          generalize s.set.jd = j
          simp [azToEq, deg2rad, rad2deg, arctan2, hsin, hcos, hasin]
        rw [setContent, handle, updateEq]
        simp only [e', bind, Option.bind, assign_nan]

/-! ## Cases that meet the hypotheses -/

/-- The site of the observatory. -/
theorem site_lat : |(-302446 / 10000 : ℝ)| < 90 := by rw [abs_lt]; norm_num

/-- At the site: show the frame of the camera, point to an altitude of 60 degrees, go on by one day, hide the rays. -/
example : ∃ s', (Panel.initial (.fin (-302446 / 10000)) (.fin (-707494 / 10000))).session (Dbl.fin (-302446 / 10000)) (.fin (-707494 / 10000)) 5
    [.CCS true, .angle .alt (.fin 60), .jd (.fin 2460677), .rays false] = some s' ∧ InOrder (-302446 / 10000) (-707494 / 10000) s' ∧ s'.set.showRays = false ∧
      s'.set.showCCS = true ∧ s'.set.jd = .fin 2460677 := by
  obtain ⟨h0, p0⟩ := C108_initial (lon := -707494 / 10000) site_lat (by norm_num) (by norm_num)
  have h60 : ∀ az, Plain (-302446 / 10000) (horizonVector (rad 60) az) := fun az => plain_horizon (by norm_num [abs_of_pos]) site_lat (by norm_num) (by norm_num)
  obtain ⟨s', e, h, g⟩ := C108_session_partial site_lat (le_refl 5) [.CCS true, .angle .alt (.fin 60), .jd (.fin 2460677), .rays false] h0 ⟨trivial, p0, fun s1 e1 => by
    obtain ⟨s1', e1', i1, -, -⟩ := C108_event_partial (lon := -707494 / 10000) site_lat (le_refl 5) h0 (.CCS true) trivial p0
    rw [e1, Option.some_inj] at e1'
    subst e1'
    refine ⟨⟨60, rfl⟩, h60 _, fun s2 e2 => ?_⟩
    obtain ⟨s2', e2', i2, -, g2⟩ := C108_event_partial (lon := -707494 / 10000) site_lat (le_refl 5) i1 (.angle .alt (.fin 60)) ⟨60, rfl⟩ (h60 _)
    rw [e2, Option.some_inj] at e2'
    subst e2'
    have p2 : Plain (-302446 / 10000) (heading s2) := by rw [g2]; exact h60 _
    refine ⟨⟨2460677, rfl⟩, p2, fun s3 e3 => ?_⟩
    obtain ⟨s3', e3', i3, -, g3⟩ := C108_event_partial (lon := -707494 / 10000) site_lat (le_refl 5) i2 (.jd (.fin 2460677)) ⟨_, rfl⟩ p2
    rw [e3, Option.some_inj] at e3'
    subst e3'
    refine ⟨trivial, ?_, fun _ _ => trivial⟩
    show Plain _ (heading s3)
    rw [g3]
    exact p2⟩
  refine ⟨s', e, h, ?_, ?_, ?_⟩ <;> rw [g] <;> rfl

/-- At the site: the frame of the camera is left behind when the telescope moves. -/
example : ∃ x : ℝ, ∃ s', (Panel.initial (.fin (-302446 / 10000)) (.fin (-707494 / 10000))).session (Dbl.fin (-302446 / 10000)) (.fin (-707494 / 10000)) 5
    [.CCS true, .angle .alt (.fin x)] = some s' ∧ s'.still.CCS.visible = true ∧ s'.still.CCS.data ≠ ⟨s'.alt, s'.az, s'.set.rtp⟩ := by
  obtain ⟨h0, p0⟩ := C108_initial (lon := -707494 / 10000) site_lat (by norm_num) (by norm_num)
  generalize hs : Panel.initial (Dbl.fin (-302446 / 10000)) (.fin (-707494 / 10000)) = s at h0 p0 ⊢
  have hb : s.set.cCCS = false := by rw [← hs]; rfl
  have hsh : s.set.showCCS = false := by rw [← hs]; rfl
  obtain ⟨s1, e1, i1, -, -⟩ := CCS_done (n := 5) h0 true
  have e1' := e1
  simp only [act, check, hb, Bool.false_eq_true, if_false, Option.some_inj] at e1'
  have hv : s1.still.CCS.visible = true := by rw [← e1']; simp [updateCCS, hsh]
  have hd : s1.still.CCS.data = ⟨s1.alt, s1.az, s1.set.rtp⟩ := by
    rw [← e1']
    simp only [updateCCS, hsh, actual, h0.drawn.telescope, Bool.not_false, if_true]
  have key : ∀ x : ℝ, |x| < 90 → x ≠ -302446 / 10000 → x ≠ -(-302446 / 10000) → Real.sin (rad x) ≠ (heading s1).z →
      ∃ x : ℝ, ∃ s', s.session (Dbl.fin (-302446 / 10000)) (.fin (-707494 / 10000)) 5 [.CCS true, .angle .alt (.fin x)] = some s' ∧ s'.still.CCS.visible = true ∧
        s'.still.CCS.data ≠ ⟨s'.alt, s'.az, s'.set.rtp⟩ := by
    intro x hx h1 h2 hz
    obtain ⟨s2, e2, v2, d2⟩ := C108_camera_frame_violated site_lat (le_refl 5) i1 hv hd .alt x (plain_horizon hx site_lat h1 h2) (fun h => hz (by
      rw [← h]; rfl))
    refine ⟨x, s2, ?_, v2, d2⟩
    simp only [session, e1, e2, bind, Option.bind]
  by_cases h : Real.sin (rad 0) = (heading s1).z
  · refine key 60 (by norm_num [abs_of_pos]) (by norm_num) (by norm_num) ?_
    rw [← h]
    have e : rad 60 = Real.pi / 3 := by unfold rad; ring
    have e' : rad 0 = 0 := by unfold rad; ring
    rw [e, e', Real.sin_pi_div_three, Real.sin_zero]
    positivity
  · exact key 0 (by norm_num) (by norm_num) (by norm_num) h

/-- A state from which a user can ask for the zenith: the star of the program, with the right ascension of the meridian. -/
example : ∃ L : ℝ, ∀ n, ({ Panel.initial (.fin (-302446 / 10000)) (.fin (-707494 / 10000)) with ra := .fin L, cRa := .fin L } : Panel Dbl).act (.fin (-302446 / 10000))
    (.fin (-707494 / 10000)) n (.angle .dec (.fin (-302446 / 10000))) = none := by
  have c2 : (const (-631 / 10) : Dbl) = .fin (-631 / 10) := by rw [Dbl.const_dbl]; norm_num
  have c3 : (const (246067625 / 100) : Dbl) = .fin (246067625 / 100) := by rw [Dbl.const_dbl]; norm_num
  refine ⟨_, fun n => C108_zenith_violated (lst_fin (246067625 / 100) _) ?_ rfl ?_ n⟩
  · show const (246067625 / 100) = _
    exact c3
  · show const (-631 / 10) ≠ _
    rw [c2, Ne, Dbl.fin_inj]
    norm_num

end Batoid.Props
