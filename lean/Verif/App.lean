import Verif.Optic
import Verif.Sky

/-!
# The viewer of the Rubin observatory

Model of `RubinCSApp` of `batoid/app.py`: where stars, telescope and frames are drawn (L230-604), and how the controls act on each other
(L669-938).  Distances are in metres.  The axes of the drawing are the global ones of batoid: x to the north, z up.

Not modelled: the widgets themselves, colours, the spot diagram and the wavefront.
-/

namespace Batoid.App

/-! ## Where things are drawn -/

/-- `np.deg2rad`. -/
noncomputable def radians (x : ℝ) : ℝ := x * (Real.pi / 180)

/-- A row of the star catalogue: `get_stars_xyzs`, batoid/app.py L23-32.  The catalogue has right ascension and declination in radians. -/
noncomputable def starXYZ (ra dec : ℝ) : V3 ℝ :=
  ⟨Real.cos ra * Real.cos dec, Real.sin ra * Real.cos dec, Real.sin dec⟩

/-- The frame of the sky in `_constellations_xyz` and `_stars_xyzs`: batoid/app.py L232-240, L257-264. -/
noncomputable def skyFrame (lat lst : ℝ) : CoordSys ℝ :=
  ⟨⟨0, 0, 0⟩, (RotZ (radians (lst + 180))).mul (RotY (-(radians (90 - lat))))⟩

/-- Where a catalogue direction is drawn on the unit sphere: `_constellations_xyz` and `_stars_xyzs`, batoid/app.py L232-240, L257-267. -/
noncomputable def onSky (lat lst : ℝ) (v : V3 ℝ) : V3 ℝ :=
  (CoordTransform.make (CoordSys.std ℝ) (skyFrame lat lst)).forward v

/-- `_telescope_xyz`: batoid/app.py L288-304.  `camera` is "LSSTCamera". -/
noncomputable def aim (fiducial : Optic ℝ) (camera : Name) (alt az rtp : ℝ) : Except PyErr (Optic ℝ) := do
  let t ← fiducial.withGlobalShift ⟨0, 0, 353 / 100⟩
  let t ← t.withLocallyRotatedOptic camera (RotZ (radians rtp)) ⟨0, 0, 0⟩ none
  let t ← t.withLocalRotation (RotZ (radians (90 - az))) ⟨0, 0, 0⟩ none
  t.withLocalRotation (RotX (radians (90 - alt))) ⟨0, 0, 5425 / 1000⟩ (some (CoordSys.std ℝ))

/-- `sky_dist`: batoid/app.py L100. -/
def skyDist : ℝ := 15000

/-- The frame of the detector seen on the sky: `_edcs_views`, `update_EDCS` and `_fp_xyz`, batoid/app.py L450-455, L580-584, L836-838. -/
noncomputable def detectorOnSky (det : CoordSys ℝ) : CoordSys ℝ :=
  let c := det.rotateLocal (RotZ Real.pi) ⟨0, 0, 0⟩ none
  ⟨⟨c.zhat.x * skyDist, c.zhat.y * skyDist, c.zhat.z * skyDist⟩, c.rot⟩

/-- `_zcs_views`, `update_ZCS`: batoid/app.py L574-578, L811-814. -/
noncomputable def zernikeFrame (m1 : CoordSys ℝ) : CoordSys ℝ := m1.rotateLocal (RotY Real.pi) ⟨0, 0, 0⟩ none

/-- The data visualisation frame made of an engineering frame: `_dvcs_views`, `update_DVCS`, batoid/app.py L590-600, L852-859. -/
noncomputable def visualFrame (c : CoordSys ℝ) : CoordSys ℝ :=
  c.rotateLocal ((RotZ (Real.pi / 2)).mul (RotX Real.pi)) ⟨0, 0, 0⟩ none

/-- `_cs_xyz`: batoid/app.py L514-523, the end points of the three lines that are drawn for a frame. -/
def axes (c : CoordSys ℝ) (length : ℝ) : List (V3 ℝ × V3 ℝ) :=
  [(c.origin, c.origin + ⟨c.xhat.x * length, c.xhat.y * length, c.xhat.z * length⟩),
   (c.origin, c.origin + ⟨c.yhat.x * length, c.yhat.y * length, c.yhat.z * length⟩),
   (c.origin, c.origin + ⟨c.zhat.x * length, c.zhat.y * length, c.zhat.z * length⟩)]

/-! ## The focal plane -/

/-- A point of the grid on the detector and on the sky: batoid/app.py L443-447, L456-459, L489-490. -/
noncomputable def raftDet : ℝ := 31527 / 100000 * 2 / 5
noncomputable def raftSky : ℝ := skyDist * radians (7 / 10)
noncomputable def onDetector (det : CoordSys ℝ) (x y : ℝ) : V3 ℝ :=
  (CoordTransform.make det (CoordSys.std ℝ)).forward ⟨x * raftDet, y * raftDet, 0⟩
noncomputable def detectorPointOnSky (det : CoordSys ℝ) (x y : ℝ) : V3 ℝ :=
  (CoordTransform.make (detectorOnSky det) (CoordSys.std ℝ)).forward ⟨x * raftSky, y * raftSky, 0⟩

/-! ## The lines of the rays -/

/-- The rays on their way, one vertex after the other: `_rays_xyz`, batoid/app.py L408-417.  `first` are the rays far out, `outs` the
positions and vignetting behind each surface; `gap` is NaN. -/
def vertices {P : Type} (gap : P) (first : List P) (outs : List (List (P × Bool))) : List (List P) :=
  (first :: outs.map (List.map fun q => if q.2 then gap else q.1))

/-- `np.concatenate` with a row of gaps, `np.transpose`, `np.vstack`: batoid/app.py L419-423.  All rows have the length `n`. -/
def rayLines {P : Type} (gap : P) (n : ℕ) (rows : List (List P)) : List P :=
  (List.range n).flatMap fun i => (rows ++ [List.replicate n gap]).map fun row => row.getD i gap

/-! ## The controls

A drawing is represented by the values from which it was computed.  A number control tells its handler of a new content unless it is `==` to the old one (traitlets); handlers
that set other controls thereby call their handlers before they go on. -/

section panel
open Arith
variable {F : Type}

/-- Altitude, azimuth and rotator angle of the telescope `self.actual_telescope`. -/
structure Aim (F : Type) where
  alt : F
  az : F
  rtp : F

/-- What only the user sets: batoid/app.py L106-134, except for ra, dec, alt, az; and the contents of the check boxes. -/
structure Settings (F : Type) where
  jd : F
  /-- `self.lst` -/
  lst : F
  rtp : F
  thx : F
  thy : F
  z : F
  noll : ℤ
  perturb : F
  clipHorizon : Bool
  showTelescope : Bool
  showRays : Bool
  showCCS : Bool
  showOCS : Bool
  showZCS : Bool
  showEDCS : Bool
  showDVCS : Bool
  cHorizon : Bool
  cTelescope : Bool
  cRays : Bool
  cCCS : Bool
  cOCS : Bool
  cZCS : Bool
  cEDCS : Bool
  cDVCS : Bool

/-- A drawing that can be hidden. -/
structure Scatter (D : Type) where
  data : D
  visible : Bool

/-- The drawings that `update_telescope` and `update_elevation_bearings` change. -/
structure Moving (F : Type) where
  telescope : Scatter (Aim F)
  bearings : F
  rays : Scatter (Aim F × F × F)
  fp : Aim F
  OCS : Scatter (Aim F)
  ZCS : Scatter (Aim F)
  EDCS : Scatter (Aim F)
  DVCS : Scatter (Aim F)

/-- The other drawings.  The roses in the plots are visible together with the frames. -/
structure Still (F : Type) where
  stars : F × Bool
  constellations : F × Bool
  CCS : Scatter (Aim F)
  spot : Aim F × F × F × F × ℤ × F
  wf : Aim F × F × F × ℤ × F

/-- The application: attributes, contents of the controls that the program itself sets, and drawings. -/
structure Panel (F : Type) where
  ra : F
  dec : F
  alt : F
  az : F
  cRa : F
  cDec : F
  cAlt : F
  cAz : F
  set : Settings F
  moving : Moving F
  still : Still F

/-- The controls for sky coordinates. -/
inductive Angle where
  | ra | dec | alt | az

namespace Panel

/-- `self.actual_telescope` as `_telescope_xyz` sets it: batoid/app.py L303. -/
def actual (s : Panel F) : Aim F := s.moving.telescope.data

/-- `update_rays`: batoid/app.py L926-932. -/
def updateRays (s : Panel F) : Panel F :=
  { s with moving := { s.moving with rays :=
      ⟨if s.set.showRays then (s.actual, s.set.thx, s.set.thy) else s.moving.rays.data, s.set.showRays⟩ } }

/-- `update_fp`: batoid/app.py L934-938. -/
def updateFp (s : Panel F) : Panel F := { s with moving := { s.moving with fp := s.actual } }

/-- `update_CCS`: batoid/app.py L789-797. -/
def updateCCS (s : Panel F) : Panel F :=
  { s with still := { s.still with CCS := ⟨if s.set.showCCS then s.actual else s.still.CCS.data, s.set.showCCS⟩ } }

/-- `update_OCS`: batoid/app.py L799-809. -/
def updateOCS (s : Panel F) : Panel F :=
  { s with moving := { s.moving with OCS := ⟨if s.set.showOCS then s.actual else s.moving.OCS.data, s.set.showOCS⟩ } }

/-- `update_ZCS`: batoid/app.py L811-822. -/
def updateZCS (s : Panel F) : Panel F :=
  { s with moving := { s.moving with ZCS := ⟨if s.set.showZCS then s.actual else s.moving.ZCS.data, s.set.showZCS⟩ } }

/-- `update_EDCS`: batoid/app.py L824-850. -/
def updateEDCS (s : Panel F) : Panel F :=
  { s with moving := { s.moving with EDCS := ⟨if s.set.showEDCS then s.actual else s.moving.EDCS.data, s.set.showEDCS⟩ } }

/-- `update_DVCS`: batoid/app.py L852-880. -/
def updateDVCS (s : Panel F) : Panel F :=
  { s with moving := { s.moving with DVCS := ⟨if s.set.showDVCS then s.actual else s.moving.DVCS.data, s.set.showDVCS⟩ } }

/-- `update_telescope`: batoid/app.py L907-918. -/
def updateTelescope (s : Panel F) : Panel F :=
  let s := { s with moving := { s.moving with telescope := ⟨⟨s.alt, s.az, s.set.rtp⟩, s.moving.telescope.visible⟩ } }
  let s := s.updateRays.updateFp.updateEDCS.updateDVCS.updateOCS.updateZCS
  { s with moving := { s.moving with telescope := ⟨s.actual, s.set.showTelescope⟩ } }

/-- `update_elevation_bearings`: batoid/app.py L920-924. -/
def updateBearings (s : Panel F) : Panel F := { s with moving := { s.moving with bearings := s.az } }

/-- `update_constellations`: batoid/app.py L882-891. -/
def updateConstellations (s : Panel F) : Panel F :=
  { s with still := { s.still with constellations := (s.set.lst, s.set.clipHorizon) } }

/-- `update_stars`: batoid/app.py L893-905. -/
def updateStars (s : Panel F) : Panel F := { s with still := { s.still with stars := (s.set.lst, s.set.clipHorizon) } }

/-- `update_spot`: batoid/app.py L940-1019. -/
def updateSpot (s : Panel F) : Panel F :=
  { s with still := { s.still with spot := (s.actual, s.set.thx, s.set.thy, s.set.z, s.set.noll, s.set.perturb) } }

/-- `update_wf`: batoid/app.py L1021-1059. -/
def updateWf (s : Panel F) : Panel F :=
  { s with still := { s.still with wf := (s.actual, s.set.thx, s.set.thy, s.set.noll, s.set.perturb) } }

/-- The content of a control. -/
def content (s : Panel F) : Angle → F
  | .ra => s.cRa
  | .dec => s.cDec
  | .alt => s.cAlt
  | .az => s.cAz

/-- A control with another content. -/
def setContent (s : Panel F) (c : Angle) (v : F) : Panel F :=
  match c with
  | .ra => { s with cRa := v }
  | .dec => { s with cDec := v }
  | .alt => { s with cAlt := v }
  | .az => { s with cAz := v }

variable [Arith F]

mutual
/-- `control.value = v`; `n` bounds the depth of the calls, `none` is a `RecursionError`. -/
def assign (lat lon : F) (n : ℕ) (c : Angle) (v : F) (s : Panel F) : Option (Panel F) :=
  if eq (s.content c) v then some (s.setContent c v) else handle lat lon n c v (s.setContent c v)
termination_by (n, 1)

/-- `handle_ra`, `handle_dec`, `handle_alt`, `handle_az`: batoid/app.py L683-691, L700-709. -/
def handle (lat lon : F) (n : ℕ) (c : Angle) (v : F) (s : Panel F) : Option (Panel F) :=
  match n, c with
  | 0, _ => none
  | n + 1, .ra => do
    let s ← updateAltaz lat lon n { s with ra := v }
    some s.updateTelescope
  | n + 1, .dec => do
    let s ← updateAltaz lat lon n { s with dec := v }
    some s.updateTelescope
  | n + 1, .alt => do
    let s ← updateEq lat lon n { s with alt := v }
    some s.updateTelescope
  | n + 1, .az => do
    let s ← updateEq lat lon n { s with az := v }
    some s.updateTelescope.updateBearings
termination_by (n, 0)

/-- `update_altaz`: batoid/app.py L669-674. -/
def updateAltaz (lat lon : F) (n : ℕ) (s : Panel F) : Option (Panel F) := do
  let p := Sky.eqToAz s.ra s.dec s.set.jd lat lon
  let s := { s with alt := p.1, az := p.2 }
  let s ← assign lat lon n .alt s.alt s
  assign lat lon n .az s.az s
termination_by (n, 2)

/-- `update_eq`: batoid/app.py L676-681. -/
def updateEq (lat lon : F) (n : ℕ) (s : Panel F) : Option (Panel F) := do
  let p := Sky.azToEq s.alt s.az s.set.jd lat lon
  let s := { s with ra := p.1, dec := p.2 }
  let s ← assign lat lon n .ra s.ra s
  assign lat lon n .dec s.dec s
termination_by (n, 2)
end

end Panel

/-- What a user can do. -/
inductive Event (F : Type) where
  | angle (c : Angle) (v : F)
  | jd (v : F)
  | rtp (v : F)
  | thx (v : F)
  | thy (v : F)
  | z (v : F)
  | noll (k : ℤ)
  | perturb (v : F)
  | telescope (b : Bool)
  | horizon (b : Bool)
  | rays (b : Bool)
  | CCS (b : Bool)
  | EDCS (b : Bool)
  | DVCS (b : Bool)
  | OCS (b : Bool)
  | ZCS (b : Bool)

namespace Panel
variable [Arith F]

/-- A check box that is told a new content calls its handler if it differs from the old one. -/
def check (old new : Bool) (s : Panel F) (f : Panel F → Panel F) : Option (Panel F) :=
  if old = new then some s else some (f s)

/-- One action of the user, with calls no deeper than `n`.  For the number controls that the program does not set itself, the content is the attribute. -/
def act (lat lon : F) (n : ℕ) (s : Panel F) : Event F → Option (Panel F)
  | .angle c v => s.assign lat lon n c v
  /- `handle_jd`: batoid/app.py L693-698. -/
  | .jd v =>
    if eq s.set.jd v then some s else do
      let s ← updateEq lat lon n { s with set := { s.set with jd := v, lst := Sky.lst v lon } }
      some s.updateConstellations.updateStars
  /- `handle_rtp`: batoid/app.py L711-719. -/
  | .rtp v =>
    if eq s.set.rtp v then some s else
      some { s with set := { s.set with rtp := v } }.updateTelescope.updateSpot.updateWf.updateCCS.updateEDCS.updateDVCS
  /- `handle_thx`, `handle_thy`: batoid/app.py L721-733. -/
  | .thx v =>
    if eq s.set.thx v then some s else some { s with set := { s.set with thx := v } }.updateRays.updateSpot.updateWf
  | .thy v =>
    if eq s.set.thy v then some s else some { s with set := { s.set with thy := v } }.updateRays.updateSpot.updateWf
  /- `handle_z`: batoid/app.py L735-738. -/
  | .z v => if eq s.set.z v then some s else some { s with set := { s.set with z := v } }.updateSpot
  /- `handle_noll`, `handle_perturb`: batoid/app.py L777-787. -/
  | .noll k => if s.set.noll = k then some s else some { s with set := { s.set with noll := k } }.updateSpot.updateWf
  | .perturb v =>
    if eq s.set.perturb v then some s else some { s with set := { s.set with perturb := v } }.updateSpot.updateWf
  /- `handle_telescope` ... `handle_ZCS`: batoid/app.py L740-775. -/
  | .telescope b => check s.set.cTelescope b s fun s =>
      { s with set := { s.set with cTelescope := b, showTelescope := !s.set.showTelescope } }.updateTelescope
  | .horizon b => check s.set.cHorizon b s fun s =>
      { s with set := { s.set with cHorizon := b, clipHorizon := !s.set.clipHorizon } }.updateConstellations.updateStars
  | .rays b => check s.set.cRays b s fun s =>
      { s with set := { s.set with cRays := b, showRays := !s.set.showRays } }.updateRays
  | .CCS b => check s.set.cCCS b s fun s =>
      { s with set := { s.set with cCCS := b, showCCS := !s.set.showCCS } }.updateCCS
  | .EDCS b => check s.set.cEDCS b s fun s =>
      { s with set := { s.set with cEDCS := b, showEDCS := !s.set.showEDCS } }.updateEDCS
  | .DVCS b => check s.set.cDVCS b s fun s =>
      { s with set := { s.set with cDVCS := b, showDVCS := !s.set.showDVCS } }.updateDVCS
  | .OCS b => check s.set.cOCS b s fun s =>
      { s with set := { s.set with cOCS := b, showOCS := !s.set.showOCS } }.updateOCS
  | .ZCS b => check s.set.cZCS b s fun s =>
      { s with set := { s.set with cZCS := b, showZCS := !s.set.showZCS } }.updateZCS

/-- A session: one action after the other. -/
def session (lat lon : F) (n : ℕ) (s : Panel F) : List (Event F) → Option (Panel F)
  | [] => some s
  | e :: es => do
    let s ← s.act lat lon n e
    session lat lon n s es

/-- `__init__` and the updates in `display`: batoid/app.py L98-192, L1080-1095.  The data of hidden frames are those of the first drawing. -/
def initial (lat lon : F) : Panel F :=
  let ra : F := const (18665 / 100)
  let dec : F := const (-631 / 10)
  let jd : F := const (246067625 / 100)
  let p := Sky.eqToAz ra dec jd lat lon
  let l := Sky.lst jd lon
  let a : Aim F := ⟨p.1, p.2, 0⟩
  { ra := ra, dec := dec, alt := p.1, az := p.2, cRa := ra, cDec := dec, cAlt := p.1, cAz := p.2,
    set := ⟨jd, l, 0, 0, 0, 0, 4, 0, false, true, true, false, false, false, true, false, false, true, true, false, false, false, true, false⟩,
    moving := ⟨⟨a, true⟩, p.2, ⟨(a, 0, 0), true⟩, a, ⟨a, false⟩, ⟨a, false⟩, ⟨a, true⟩, ⟨a, false⟩⟩,
    still := ⟨(l, false), (l, false), ⟨a, false⟩, (a, 0, 0, 0, 4, 0), (a, 0, 0, 4, 0)⟩ }

end Panel
end panel

end Batoid.App
