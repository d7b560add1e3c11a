import Verif.Props.Etendue

/-!
# Property C106: light takes a path of stationary time (Fermat)

The time that `trace` adds to a ray is the time light needs along the broken line through the meeting points, and to first order it
does not change if these points are moved on their surfaces.  If the surfaces themselves move, the time changes by the amount that the
velocities before and after every interface give (the basis of sensitivity matrices).
-/

namespace Batoid.Props
open Batoid Batoid.Surface Filter Topology

/-! ## Specification -/

/-- The time that light with the given speeds needs from `X` along straight lines through the points. -/
noncomputable def pathTime : V3 ℝ → List (V3 ℝ) → List ℝ → ℝ
  | X, Y :: Ys, s :: ss => Real.sqrt (V3.dot (Y - X) (Y - X)) / s + pathTime Y Ys ss
  | _, _, _ => 0

/-- To first order near `b0` the curve `Y` runs on the surface of the interface with frame `c`. -/
def Slides (d : Iface Dbl) (c : CoordSys ℝ) (Y : ℝ → V3 ℝ) (b0 : ℝ) : Prop :=
  (∃ f gx gy, SmoothAt d.surface f gx gy ((c.toLocal (Y b0)).x, (c.toLocal (Y b0)).y)) ∧
    ∀ᶠ b in 𝓝 b0, d.surface.sag (.fin (c.toLocal (Y b)).x) (.fin (c.toLocal (Y b)).y) = .fin (c.toLocal (Y b)).z

/-- The course of a ray from `X b0` with velocity `V` through interfaces, and curves through its meeting points.  Listed are the curves and the speeds on
the legs of the path.  The end of the path does not move. -/
inductive Path (niter : ℕ) (w : Dbl) (b0 : ℝ) (E : V3 ℝ) (W : V3 ℝ) : List (Iface Dbl) → (ℝ → V3 ℝ) → V3 ℝ → List (ℝ → V3 ℝ) → List ℝ → Prop
  | done {X : ℝ → V3 ℝ} (fixed : ∀ b, X b = E) : Path niter w b0 E W [] X W [] []
  | cross {d : Iface Dbl} {ds : List (Iface Dbl)} {c : CoordSys ℝ} {n V U : V3 ℝ} {X Y : ℝ → V3 ℝ} {dt : ℝ} {Ys : List (ℝ → V3 ℝ)} {ss : List ℝ}
      (meets : Meeting niter w d c n (X b0) V dt U) (ahead : 0 < dt) (point : Y b0 = X b0 + V.smulR dt) (smooth : ∃ Y', D3 Y Y' b0)
      (slides : Slides d c Y b0) (rest : Path niter w b0 E W ds Y U Ys ss) :
      Path niter w b0 E W (d :: ds) X V (Y :: Ys) (Real.sqrt (V3.dot V V) :: ss)

/-- The same where the curves need not run on the surfaces.  The last number is the sum over the interfaces of the change of `v/(v·v)` times the movement of the meeting point. -/
inductive Strayed (niter : ℕ) (w : Dbl) (b0 : ℝ) (E : V3 ℝ) (W : V3 ℝ) : List (Iface Dbl) → (ℝ → V3 ℝ) → V3 ℝ → List (ℝ → V3 ℝ) → List ℝ → ℝ → Prop
  | done {X : ℝ → V3 ℝ} (fixed : ∀ b, X b = E) : Strayed niter w b0 E W [] X W [] [] 0
  | cross {d : Iface Dbl} {ds : List (Iface Dbl)} {c : CoordSys ℝ} {n V U Y' : V3 ℝ} {X Y : ℝ → V3 ℝ} {dt g : ℝ} {Ys : List (ℝ → V3 ℝ)} {ss : List ℝ}
      (meets : Meeting niter w d c n (X b0) V dt U) (ahead : 0 < dt) (point : Y b0 = X b0 + V.smulR dt) (smooth : D3 Y Y' b0)
      (rest : Strayed niter w b0 E W ds Y U Ys ss g) :
      Strayed niter w b0 E W (d :: ds) X V (Y :: Ys) (Real.sqrt (V3.dot V V) :: ss)
        (V3.dot (V3.smul (1 / V3.dot V V) V - V3.smul (1 / V3.dot U U) U) Y' + g)

/-! ## Lemmas -/

/-- The time of one leg. -/
theorem leg_time {V : V3 ℝ} {dt : ℝ} (hv : 0 < V3.dot V V) (hdt : 0 < dt) : Real.sqrt (V3.dot (V.smulR dt) (V.smulR dt)) / Real.sqrt (V3.dot V V) = dt := by
  have e : V3.dot (V.smulR dt) (V.smulR dt) = V3.dot V V * dt ^ 2 := by simp [V3.dot]; ring
  rw [e, Real.sqrt_mul hv.le, Real.sqrt_sq hdt.le]
  have := (Real.sqrt_pos.2 hv).ne'
  field_simp

/-- How the time of one leg changes if its ends move. -/
theorem leg_deriv {X Y : ℝ → V3 ℝ} {X' Y' V : V3 ℝ} {b0 dt : ℝ} (hX : D3 X X' b0) (hY : D3 Y Y' b0) (hv : 0 < V3.dot V V) (hdt : 0 < dt)
    (h : Y b0 = X b0 + V.smulR dt) :
    HasDerivAt (fun b => Real.sqrt (V3.dot (Y b - X b) (Y b - X b)) / Real.sqrt (V3.dot V V)) (V3.dot V (Y' - X') / V3.dot V V) b0 := by
  have hD := hY.sub hX
  have e0 : Y b0 - X b0 = V.smulR dt := by rw [h]; ext <;> simp
  have e : V3.dot (Y b0 - X b0) (Y b0 - X b0) = V3.dot V V * dt ^ 2 := by rw [e0]; simp [V3.dot]; ring
  have hpos : 0 < V3.dot (Y b0 - X b0) (Y b0 - X b0) := by rw [e]; positivity
  have h1 := ((hD.dot hD).sqrt hpos.ne').div_const (Real.sqrt (V3.dot V V))
  refine h1.congr_deriv ?_
  have hs := Real.sqrt_pos.2 hv
  have hss := Real.mul_self_sqrt hv.le
  rw [e, Real.sqrt_mul hv.le, Real.sqrt_sq hdt.le, e0]
  have e2 : V3.dot (Y' - X') (V.smulR dt) + V3.dot (V.smulR dt) (Y' - X') = 2 * dt * V3.dot V (Y' - X') := by simp [V3.dot]; ring
  rw [e2]
  generalize Real.sqrt (V3.dot V V) = s at hs hss
  rw [← hss]
  field_simp

/-- A curve on the surface runs perpendicular to the normal. -/
theorem slides_perp {d : Iface Dbl} {c : CoordSys ℝ} {Y : ℝ → V3 ℝ} {Y' n : V3 ℝ} {b0 : ℝ} (h : Slides d c Y b0) (hY : D3 Y Y' b0)
    (hn : d.surface.normal (.fin (c.toLocal (Y b0)).x) (.fin (c.toLocal (Y b0)).y) = n.fin) : V3.dot (c.rot.tr.mulVec Y') n = 0 := by
  obtain ⟨⟨f, gx, gy, hs⟩, hon⟩ := h
  have hl := hY.toLocal c
  have htend : Tendsto (fun b => ((c.toLocal (Y b)).x, (c.toLocal (Y b)).y)) (𝓝 b0) (𝓝 ((c.toLocal (Y b0)).x, (c.toLocal (Y b0)).y)) :=
    ContinuousAt.prodMk hl.x.continuousAt hl.y.continuousAt
  have hz : ∀ᶠ b in 𝓝 b0, (c.toLocal (Y b)).z = f ((c.toLocal (Y b)).x, (c.toLocal (Y b)).y) := by
    filter_upwards [htend.eventually hs.sag, hon] with b h1 h2
    rw [h1, Dbl.fin_inj] at h2
    exact h2.symm
  have hc := (hs.slopes.comp_hasDerivAt b0 (hl.x.prodMk hl.y)).congr_of_eventuallyEq (f₁ := fun b => (c.toLocal (Y b)).z) hz
  have e := hl.z.unique hc
  have hn0 := hs.normal.self_of_nhds
  rw [hn, V3.fin_inj] at hn0
  rw [hn0]
  simp at e
  simp only [V3.dot, unitNormal]
  rw [e]; ring

theorem kick_perp {niter : ℕ} {w : Dbl} {d : Iface Dbl} {c : CoordSys ℝ} {n P V U Y' : V3 ℝ} {Y : ℝ → V3 ℝ} {dt b0 : ℝ} (meets : Meeting niter w d c n P V dt U)
    (point : Y b0 = P + V.smulR dt) (slides : Slides d c Y b0) (hY : D3 Y Y' b0) :
    V3.dot (V3.smul (1 / V3.dot V V) V - V3.smul (1 / V3.dot U U) U) Y' = 0 := by
  have ho := meets.orth
  have hdot := fun x y => ho.tr.dot_mulVec x y
  obtain ⟨m, hm⟩ := turns_kick meets.unit meets.turns (hdot V V) (hdot U U)
  have hn := meets.normal
  rw [← point] at hn
  have hp := slides_perp slides hY hn
  have e := congrArg (fun x => V3.dot x (c.rot.tr.mulVec Y')) hm
  have e1 : V3.dot (V3.smul (1 / V3.dot U U) (c.rot.tr.mulVec U) - V3.smul (1 / V3.dot V V) (c.rot.tr.mulVec V)) (c.rot.tr.mulVec Y') =
      1 / V3.dot U U * V3.dot (c.rot.tr.mulVec U) (c.rot.tr.mulVec Y') - 1 / V3.dot V V * V3.dot (c.rot.tr.mulVec V) (c.rot.tr.mulVec Y') := by
    simp only [V3.dot, V3.sub_x, V3.sub_y, V3.sub_z, V3.smul_x, V3.smul_y, V3.smul_z]; ring
  have e2 : V3.dot (V3.smul m n) (c.rot.tr.mulVec Y') = m * V3.dot (c.rot.tr.mulVec Y') n := by simp [V3.dot]; ring
  rw [e1, e2, hdot, hdot, hp] at e
  have e3 : V3.dot (V3.smul (1 / V3.dot V V) V - V3.smul (1 / V3.dot U U) U) Y' = 1 / V3.dot V V * V3.dot V Y' - 1 / V3.dot U U * V3.dot U Y' := by
    simp only [V3.dot, V3.sub_x, V3.sub_y, V3.sub_z, V3.smul_x, V3.smul_y, V3.smul_z]; ring
  rw [e3]; linarith

theorem Turns.positive {d : Iface Dbl} {w : Dbl} {n v u : V3 ℝ} (hn : IsUnit' n) (h : Turns d w n v u) (hv : 0 < V3.dot v v) : 0 < V3.dot u u := by
  cases h with
  | straight _ h => rw [h]; exact hv
  | mirror _ ht hd => rw [← mirror_unique ht hd, mirror_dotSelf hn]; exact hv
  | @lens _ _ n2 _ _ hs =>
    have h2 : 0 < V3.dot u u * n2 ^ 2 := by rw [hs.speed2]; exact one_pos
    exact pos_of_mul_pos_left h2 (pow_pos hs.pos2 2).le

theorem Meeting.positive {niter : ℕ} {w : Dbl} {d : Iface Dbl} {c : CoordSys ℝ} {n P V U : V3 ℝ} {dt : ℝ} (h : Meeting niter w d c n P V dt U)
    (hv : 0 < V3.dot V V) : 0 < V3.dot U U := by
  have hdot := fun x y => h.orth.tr.dot_mulVec x y
  have := h.turns.positive h.unit (by rw [hdot]; exact hv)
  rwa [hdot] at this

/-! ## C106 -/

theorem moved_deriv {niter : ℕ} {w : Dbl} {b0 : ℝ} {E W : V3 ℝ} {ds : List (Iface Dbl)} {X : ℝ → V3 ℝ} {V : V3 ℝ} {Ys : List (ℝ → V3 ℝ)} {ss : List ℝ} {g : ℝ}
    (h : Strayed niter w b0 E W ds X V Ys ss g) : ∀ {X' : V3 ℝ}, D3 X X' b0 → 0 < V3.dot V V →
      HasDerivAt (fun b => pathTime (X b) (Ys.map fun Y => Y b) ss) (g - V3.dot V X' / V3.dot V V) b0 := by
  induction h with
  | @done X fixed =>
    intro X' hX _
    have : X' = ⟨0, 0, 0⟩ := hX.unique ((D3.const E b0).congr (Eventually.of_forall fun b => fixed b))
    subst this
    simpa [pathTime, V3.dot] using hasDerivAt_const b0 (0 : ℝ)
  | cross meets ahead point smooth _ ih =>
    intro X' hX hv
    have h1 := leg_deriv hX smooth hv ahead point
    have h2 := ih smooth (meets.positive hv)
    simp only [List.map_cons, pathTime]
    refine (h1.add h2).congr_deriv ?_
    simp only [V3.dot, V3.sub_x, V3.sub_y, V3.sub_z, V3.smul_x, V3.smul_y, V3.smul_z]
    ring

theorem path_moved {niter : ℕ} {w : Dbl} {b0 : ℝ} {E W : V3 ℝ} {ds : List (Iface Dbl)} {X : ℝ → V3 ℝ} {V : V3 ℝ} {Ys : List (ℝ → V3 ℝ)} {ss : List ℝ}
    (h : Path niter w b0 E W ds X V Ys ss) : Strayed niter w b0 E W ds X V Ys ss 0 := by
  induction h with
  | done fixed => exact .done fixed
  | cross meets ahead point smooth slides _ ih =>
    obtain ⟨Y', hY⟩ := smooth
    have := Strayed.cross meets ahead point hY ih
    rwa [kick_perp meets point slides hY, add_zero] at this

theorem moved_light {niter : ℕ} {w : Dbl} {b0 : ℝ} {E W : V3 ℝ} {ds : List (Iface Dbl)} {X : ℝ → V3 ℝ} {V : V3 ℝ} {Ys : List (ℝ → V3 ℝ)} {ss : List ℝ} {g : ℝ}
    (h : Strayed niter w b0 E W ds X V Ys ss g) : ∀ {rv : RayVec Dbl} {i : ℕ} {t : ℝ} {b : Bool}, 0 < V3.dot V V → LightAt rv i (X b0) V t w b →
      ∃ b', LightAt (ds.foldl (fun rv d => d.trace niter false rv) rv) i E W (t + pathTime (X b0) (Ys.map fun Y => Y b0) ss) w b' := by
  induction h with
  | done fixed => intro rv i t b _ hin; rw [fixed] at hin; exact ⟨b, by simpa [pathTime] using hin⟩
  | @cross d ds c n V U Y' X Y dt g Ys ss meets ahead point smooth _ ih =>
    intro rv i t b hv hin
    have h1 := cross_forward meets hin
    rw [← point] at h1
    obtain ⟨b', h2⟩ := ih (meets.positive hv) h1
    refine ⟨b', ?_⟩
    have e : Y b0 - X b0 = V.smulR dt := by rw [point]; ext <;> simp
    simp only [List.map_cons, pathTime]
    rw [e, leg_time hv ahead, ← add_assoc]
    exact h2

/-- C106: the ray that `trace` returns has taken the time of the broken line through its meeting points, and to first order this time does not change when the points
between the fixed ends move on their surfaces. -/
theorem C106_fermat {o : Optic Dbl} {niter : ℕ} {w : Dbl} {b0 : ℝ} {P V E W : V3 ℝ} {Ys : List (ℝ → V3 ℝ)} {ss : List ℝ}
    (h : Path niter w b0 E W (visits o) (fun _ => P) V Ys ss) (hv : 0 < V3.dot V V) {rv : RayVec Dbl} {i : ℕ} {t : ℝ} {b : Bool} (hin : LightAt rv i P V t w b) :
    (∃ b', LightAt (o.trace niter false rv) i E W (t + pathTime P (Ys.map fun Y => Y b0) ss) w b') ∧
      HasDerivAt (fun b => pathTime P (Ys.map fun Y => Y b) ss) 0 b0 := by
  have hm := path_moved h
  refine ⟨?_, ?_⟩
  · rw [trace_visits]
    exact moved_light hm hv hin
  · have := moved_deriv hm (D3.const P b0) hv
    simpa [V3.dot] using this

/-- C106: when the meeting points move in any way, the time changes by the movements times the changes of `v/(v·v)`. -/
theorem C106_sensitivity {niter : ℕ} {w : Dbl} {b0 : ℝ} {P V E W : V3 ℝ} {ds : List (Iface Dbl)} {Ys : List (ℝ → V3 ℝ)} {ss : List ℝ} {g : ℝ}
    (h : Strayed niter w b0 E W ds (fun _ => P) V Ys ss g) (hv : 0 < V3.dot V V) :
    HasDerivAt (fun b => pathTime P (Ys.map fun Y => Y b) ss) g b0 := by
  have := moved_deriv h (D3.const P b0) hv
  simpa [V3.dot] using this

/-- C106: at a mirror the change is twice the movement along the normal times the cosine of the angle of incidence, over the speed. -/
theorem C106_mirror {niter : ℕ} {w : Dbl} {d : Iface Dbl} {c : CoordSys ℝ} {n P V U : V3 ℝ} {dt : ℝ} (h : Meeting niter w d c n P V dt U)
    (hk : d.kind = .mirror) (Y' : V3 ℝ) : V3.dot (V3.smul (1 / V3.dot V V) V - V3.smul (1 / V3.dot U U) U) Y' =
      2 * V3.dot V (c.rot.mulVec n) * V3.dot (c.rot.mulVec n) Y' / V3.dot V V := by
  have ho := h.orth
  have hdot := fun x y => ho.tr.dot_mulVec x y
  have hu : V3.dot (c.rot.mulVec n) (c.rot.mulVec n) = 1 := by rw [ho.dot_mulVec]; exact h.unit
  cases h.turns with
  | straight hs => rw [hk] at hs; simp at hs
  | lens hs => rw [hk] at hs; cases hs
  | mirror _ ht hd =>
    have e := mirror_unique ht hd
    have e1 := congrArg c.rot.mulVec e
    rw [ho.mulVec_tr] at e1
    have e2 : c.rot.mulVec (mirror n (c.rot.tr.mulVec V)) = mirror (c.rot.mulVec n) V := by
      have hd : V3.dot (c.rot.tr.mulVec V) n = V3.dot V (c.rot.mulVec n) := by
        rw [← ho.dot_mulVec (c.rot.tr.mulVec V) n, ho.mulVec_tr]
      unfold mirror
      rw [hd]
      simp only [M3.mulVec, V3.sub_x, V3.sub_y, V3.sub_z, V3.smul_x, V3.smul_y, V3.smul_z, V3.dot]
      have := ho.mulVec_tr V
      simp only [M3.mulVec, V3.dot] at this
      have hx := congrArg V3.x this; have hy := congrArg V3.y this; have hz := congrArg V3.z this
      simp only at hx hy hz
      ext <;> simp only [V3.sub_x, V3.sub_y, V3.sub_z, V3.smul_x, V3.smul_y, V3.smul_z]
      · linear_combination hx
      · linear_combination hy
      · linear_combination hz
    rw [e2] at e1
    have e3 : V3.dot U U = V3.dot V V := by rw [← e1]; exact mirror_dotSelf hu
    rw [e3, ← e1]
    simp only [mirror, V3.dot, V3.sub_x, V3.sub_y, V3.sub_z, V3.smul_x, V3.smul_y, V3.smul_z]
    ring

/-- C106 fails for mirrors with a `Tilted` surface: light along the axis does not take a path of stationary time to the places it reaches behind the mirror. -/
theorem C106_tilted_violated {tanx tany h : ℝ} (hx : tanx ≠ 0) (hq : tanx * tanx + tany * tany < 1) (hh : 0 < h) (niter : ℕ) (w : Dbl) :
    ∃ (n U : V3 ℝ) (Y : ℝ → V3 ℝ) (g : ℝ), Meeting niter w (tiltedMirror tanx tany) ⟨⟨0, 0, 0⟩, M3.one⟩ n ⟨0, 0, h⟩ ⟨0, 0, -1⟩ h U ∧
      Y 0 = (⟨0, 0, h⟩ : V3 ℝ) + (⟨0, 0, -1⟩ : V3 ℝ).smulR h ∧
      (∀ b, (tiltedMirror tanx tany).surface.sag (.fin (Y b).x) (.fin (Y b).y) = .fin (Y b).z) ∧
      HasDerivAt (fun b => pathTime ⟨0, 0, h⟩ [Y b, Y 0 + U.smulR 1] [1, 1]) g 0 ∧ g ≠ 0 := by
  have hp : 0 < 1 - tanx * tanx - tany * tany := by linarith
  obtain ⟨s, hs, hss⟩ : ∃ s : ℝ, 0 < s ∧ s * s = 1 - tanx * tanx - tany * tany := ⟨_, Real.sqrt_pos.2 hp, Real.mul_self_sqrt hp.le⟩
  have hunit : IsUnit' (⟨-tanx, -tany, s⟩ : V3 ℝ) := by simp only [IsUnit', V3.dot]; linear_combination hss
  have hY : D3 (fun b => (⟨b, 0, tanx * b⟩ : V3 ℝ)) ⟨1, 0, tanx⟩ 0 :=
    ⟨hasDerivAt_id' 0, hasDerivAt_const _ _, ((hasDerivAt_id' (0 : ℝ)).const_mul tanx).congr_deriv (by simp)⟩
  have hV1 : V3.dot (⟨0, 0, -1⟩ : V3 ℝ) ⟨0, 0, -1⟩ = 1 := by simp [V3.dot]
  have hU1 : V3.dot (mirror ⟨-tanx, -tany, s⟩ ⟨0, 0, -1⟩) (mirror ⟨-tanx, -tany, s⟩ ⟨0, 0, -1⟩) = 1 := by rw [mirror_dotSelf hunit, hV1]
  have e0 : (⟨0, 0, tanx * 0⟩ : V3 ℝ) = (⟨0, 0, h⟩ : V3 ℝ) + (⟨0, 0, -1⟩ : V3 ℝ).smulR h := by ext <;> simp
  have d1 := leg_deriv (D3.const (⟨0, 0, h⟩ : V3 ℝ) 0) hY (V := ⟨0, 0, -1⟩) (by rw [hV1]; exact one_pos) hh e0
  have d2 := leg_deriv hY (D3.const ((⟨0, 0, tanx * 0⟩ : V3 ℝ) + (mirror ⟨-tanx, -tany, s⟩ ⟨0, 0, -1⟩).smulR 1) 0) (V := mirror ⟨-tanx, -tany, s⟩ ⟨0, 0, -1⟩)
    (by rw [hU1]; exact one_pos) one_pos rfl
  rw [hV1, Real.sqrt_one] at d1
  rw [hU1, Real.sqrt_one] at d2
  refine ⟨⟨-tanx, -tany, s⟩, mirror ⟨-tanx, -tany, s⟩ ⟨0, 0, -1⟩, fun b => ⟨b, 0, tanx * b⟩, tanx * (2 * s * (1 - s)),
    tilted_meeting hs hss niter w (by simp [OnTilted, pointAt]) (by simp), e0, fun b => ?_, ?_, ?_⟩
  · simp [tiltedMirror, tilted, mul_comm]
  · have e : V3.dot (⟨0, 0, -1⟩ : V3 ℝ) (⟨1, 0, tanx⟩ - ⟨0, 0, 0⟩) / 1 + V3.dot (mirror ⟨-tanx, -tany, s⟩ ⟨0, 0, -1⟩) (⟨0, 0, 0⟩ - ⟨1, 0, tanx⟩) / 1 =
        tanx * (2 * s * (1 - s)) := by
      simp [V3.dot, mirror]; ring
    rw [← e]
    simp only [pathTime, add_zero]
    exact d1.add d2
  · refine mul_ne_zero hx (mul_ne_zero (by positivity) fun h1 => ?_)
    have h5 : s = 1 := by linarith
    rw [h5] at hss
    have := mul_self_pos.2 hx
    nlinarith [mul_self_nonneg tany]

/-! ## Concrete cases -/

/-- The ray of the example of C97 through the window and by way of the parabolic mirror to the detector: the time is stationary when both points between move sideways. -/
example : ∃ (Ys : List (ℝ → V3 ℝ)) (ss : List ℝ), Path 5 (.fin 1) 0 ⟨0, 0, 2⟩ ⟨-16 / 25, 0, 14 / 75⟩ (visits demoCamera) (fun _ => ⟨3, 0, 20⟩) ⟨0, 0, -1⟩ Ys ss ∧
    (Ys.map fun Y => Y 1) = [⟨4, 0, 10⟩, ⟨4, 0, 2⟩, ⟨0, 0, 2⟩] ∧ pathTime ⟨3, 0, 20⟩ (Ys.map fun Y => Y 0) ss = 28 := by
  have hv : visits demoCamera = [demoWindow, demoBowl, demoFlat "D" 2] := by
    simp [demoCamera, demoComp, visits, visitsItems, Optic.skip, demoWindow, demoBowl, demoFlat, demoMirror]
  rw [hv]
  have e1 : (⟨3 + 0, 0, 10⟩ : V3 ℝ) = (⟨3, 0, 20⟩ : V3 ℝ) + (⟨0, 0, -1⟩ : V3 ℝ).smulR 10 := by ext <;> norm_num
  have e2 : (⟨3 + 0, 0, (3 + 0) * (3 + 0) / 8⟩ : V3 ℝ) = (⟨3 + 0, 0, 10⟩ : V3 ℝ) + (⟨0, 0, -2 / 3⟩ : V3 ℝ).smulR (213 / 16) := by ext <;> norm_num
  have e3 : (⟨0, 0, 2⟩ : V3 ℝ) = (⟨3 + 0, 0, (3 + 0) * (3 + 0) / 8⟩ : V3 ℝ) + (⟨-16 / 25, 0, 14 / 75⟩ : V3 ℝ).smulR (75 / 16) := by ext <;> norm_num
  have hx : HasDerivAt (fun b : ℝ => 3 + b) 1 0 := (hasDerivAt_id' (0 : ℝ)).const_add 3
  have m1 := window_crossing.toMeeting
  have m2 := bowl_crossing.toMeeting
  have m3 := camera_crossing.toMeeting
  have c0 : Path 5 (.fin 1) 0 ⟨0, 0, 2⟩ ⟨-16 / 25, 0, 14 / 75⟩ [] (fun _ => ⟨0, 0, 2⟩) ⟨-16 / 25, 0, 14 / 75⟩ [] [] := .done fun _ => rfl
  have c1 := Path.cross (d := demoFlat "D" 2) (c := ⟨⟨0, 0, 2⟩, M3.one⟩) (X := fun b => ⟨3 + b, 0, (3 + b) * (3 + b) / 8⟩) (Y := fun _ => ⟨0, 0, 2⟩) (by convert m3 using 2 <;> norm_num) (by norm_num) e3
    ⟨_, D3.const _ _⟩ ⟨C98_smooth_plane _, Eventually.of_forall fun b => by rw [frame_toLocal]; simp [demoFlat, demoMirror, Surface.plane, Dbl.zero_dbl]⟩ c0
  have c2 := Path.cross (d := demoBowl) (c := ⟨⟨0, 0, 0⟩, M3.one⟩) (X := fun b => ⟨3 + b, 0, 10⟩) (Y := fun b => ⟨3 + b, 0, (3 + b) * (3 + b) / 8⟩) (by convert m2 using 2; norm_num) (by norm_num) e2
    ⟨⟨1, 0, _⟩, hx, hasDerivAt_const _ _, (hx.mul hx).div_const 8⟩ ⟨C98_smooth_paraboloid (by norm_num) _, Eventually.of_forall fun b => by
      rw [frame_toLocal]
      rw [show demoBowl.surface.sag = paraboloidSag (Dbl.fin 4) from rfl, paraboloidSag_fin (by norm_num), Dbl.fin_inj]
      simp; ring⟩ c1
  have c3 := Path.cross (d := demoWindow) (c := ⟨⟨0, 0, 10⟩, M3.one⟩) (X := fun _ => ⟨3, 0, 20⟩) (Y := fun b => ⟨3 + b, 0, 10⟩) m1 (by norm_num) e1
    ⟨⟨1, 0, 0⟩, hx, hasDerivAt_const _ _, hasDerivAt_const _ _⟩ ⟨C98_smooth_plane _, Eventually.of_forall fun b => by
      rw [frame_toLocal]; simp [demoWindow, demoMirror, Surface.plane, Dbl.zero_dbl]⟩ c2
  refine ⟨_, _, c3, ?_, ?_⟩
  · simp; norm_num
  · have s1 : Real.sqrt (V3.dot (⟨0, 0, -1⟩ : V3 ℝ) ⟨0, 0, -1⟩) = 1 := by simp [V3.dot]
    simp only [List.map_cons, List.map_nil, pathTime, add_zero]
    have l1 := leg_time (V := ⟨0, 0, -1⟩) (dt := 10) (by norm_num [V3.dot]) (by norm_num)
    have l2 := leg_time (V := ⟨0, 0, -2 / 3⟩) (dt := 213 / 16) (by norm_num [V3.dot]) (by norm_num)
    have l3 := leg_time (V := ⟨-16 / 25, 0, 14 / 75⟩) (dt := 75 / 16) (by norm_num [V3.dot]) (by norm_num)
    rw [show (⟨3, 0, 10⟩ : V3 ℝ) - ⟨3, 0, 20⟩ = (⟨0, 0, -1⟩ : V3 ℝ).smulR 10 by ext <;> norm_num,
      show (⟨3, 0, 3 * 3 / 8⟩ : V3 ℝ) - ⟨3, 0, 10⟩ = (⟨0, 0, -2 / 3⟩ : V3 ℝ).smulR (213 / 16) by ext <;> norm_num,
      show (⟨0, 0, 2⟩ : V3 ℝ) - ⟨3, 0, 3 * 3 / 8⟩ = (⟨-16 / 25, 0, 14 / 75⟩ : V3 ℝ).smulR (75 / 16) by ext <;> norm_num, l1, l2, l3]
    norm_num

/-- A mirror for `C106_tilted_violated`. -/
example : (3 / 5 : ℝ) ≠ 0 ∧ (3 / 5 : ℝ) * (3 / 5) + 0 * 0 < 1 ∧ (0 : ℝ) < 1 := by norm_num

end Batoid.Props
