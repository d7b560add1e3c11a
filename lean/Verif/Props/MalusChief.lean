import Verif.Props.Malus

/-!
# Property C98, continued: one ray decides

For surfaces whose meeting points have a formula (planes, paraboloids, spheres, conics) it is enough to know the course of
a single ray.  If that ray meets every surface cleanly (`Clean`), the rays beside it exist, meet the surfaces nearby, and the beam
comes out perpendicular to its wavefronts.
-/

namespace Batoid.Props
open Batoid Batoid.Surface Filter Topology

/-! ## Specification -/

/-- The ray from `p` with velocity `v` meets the surface after the time `d` in a way that a small change does not upset: it does not start on the
surface, the meeting point is nearer to the vertex than the other one, and (for closed surfaces) lies on the side of the vertex. -/
inductive Clean : Surface Dbl → V3 ℝ → V3 ℝ → ℝ → Prop
  | plane {p v : V3 ℝ} {d : ℝ} : Clean plane p v d
  | paraboloid {R : ℝ} (hR : R ≠ 0) {p v : V3 ℝ} {d : ℝ} (off : ¬ OnParaboloid R p) (near : Nearest (OnParaboloid R) (towards R) p v d) :
      Clean (paraboloid (.fin R)) p v d
  | sphere {R : ℝ} (hR : R ≠ 0) {p v : V3 ℝ} {d : ℝ} (off : ¬ OnSphere R p) (near : Nearest (OnSphere R) (towards R) p v d)
      (side : 0 < (R - (pointAt p v d).z) * R) : Clean (sphere (.fin R)) p v d
  | quadric {R k : ℝ} (hR : R ≠ 0) (hk : k + 1 ≠ 0) {p v : V3 ℝ} {d : ℝ} (off : ¬ OnQuadric R k p) (near : Nearest (OnQuadric R k) offPlane p v d)
      (oblique : v.x ^ 2 + v.y ^ 2 + (k + 1) * v.z ^ 2 ≠ 0) (side : 0 < (R - (k + 1) * (pointAt p v d).z) * R) :
      Clean (quadric (.fin R) (.fin k)) p v d

/-- The course of one ray from `P` with velocity `V`: it meets every interface cleanly and does not graze it. -/
inductive Chief (niter : ℕ) (w : Dbl) : List (Iface Dbl) → V3 ℝ → V3 ℝ → Prop
  | done {P V : V3 ℝ} : Chief niter w [] P V
  | cross {d : Iface Dbl} {ds : List (Iface Dbl)} {c : CoordSys ℝ} {n P V U : V3 ℝ} {dt : ℝ} (meets : Meeting niter w d c n P V dt U)
      (clean : Clean d.surface (c.toLocal P) (c.rot.tr.mulVec V) dt) (steep : V3.dot (c.rot.tr.mulVec V) n ≠ 0)
      (rest : Chief niter w ds (P + V.smulR dt) U) : Chief niter w (d :: ds) P V

/-! ## Roots of a quadratic equation with varying coefficients -/

/-- A simple root moves continuously, and the other one stays on its side. -/
theorem root_near {A B C : ℝ → ℝ} {a d σ : ℝ} (cA : ContinuousAt A a) (cB : ContinuousAt B a) (cC : ContinuousAt C a)
    (hroot : A a * d * d + B a * d + C a = 0) (hC : C a ≠ 0) (hσ : σ * σ = 1) (hside : σ * (2 * A a * d + B a) < 0) :
    ∃ τ : ℝ → ℝ, τ a = d ∧ ContinuousAt τ a ∧ ∀ᶠ b in 𝓝 a, A b * τ b * τ b + B b * τ b + C b = 0 ∧
      ∀ t, A b * t * t + B b * t + C b = 0 → t ≠ τ b → A b ≠ 0 ∧ t = -B b / A b - τ b ∧ σ * A b * (τ b - t) < 0 := by
  have cD : ContinuousAt (fun b => B b * B b - 4 * A b * C b) a := (cB.mul cB).sub ((continuousAt_const.mul cA).mul cC)
  have cE : ContinuousAt (fun b => B b - σ * Real.sqrt (B b * B b - 4 * A b * C b)) a := cB.sub (continuousAt_const.mul cD.sqrt)
  have hDa : B a * B a - 4 * A a * C a = (-(σ * (2 * A a * d + B a))) ^ 2 := by
    linear_combination (-4 * A a) * hroot - (2 * A a * d + B a) ^ 2 * hσ
  have hDpos : 0 < B a * B a - 4 * A a * C a := by rw [hDa]; exact pow_pos (by linarith) 2
  have hsa : Real.sqrt (B a * B a - 4 * A a * C a) = -(σ * (2 * A a * d + B a)) := by rw [hDa]; exact Real.sqrt_sq (by linarith)
  have hE : B a - σ * Real.sqrt (B a * B a - 4 * A a * C a) = 2 * (A a * d + B a) := by
    rw [hsa]; linear_combination (2 * A a * d + B a) * hσ
  have hEne : B a - σ * Real.sqrt (B a * B a - 4 * A a * C a) ≠ 0 := by
    rw [hE]; intro h0
    apply hC
    linear_combination hroot - d / 2 * h0
  refine ⟨fun b => -2 * C b / (B b - σ * Real.sqrt (B b * B b - 4 * A b * C b)), ?_, (continuousAt_const.mul cC).div cE hEne, ?_⟩
  · show -2 * C a / (B a - σ * Real.sqrt (B a * B a - 4 * A a * C a)) = d
    rw [div_eq_iff hEne, hE]; linear_combination (-2) * hroot
  · filter_upwards [cD.eventually (lt_mem_nhds hDpos), cE.eventually_ne hEne] with b hD hE
    have hs := Real.sqrt_pos.2 hD
    have hss := Real.mul_self_sqrt hD.le
    generalize Real.sqrt (B b * B b - 4 * A b * C b) = s at hs hss hE ⊢
    have hr : A b * (-2 * C b / (B b - σ * s)) * (-2 * C b / (B b - σ * s)) + B b * (-2 * C b / (B b - σ * s)) + C b = 0 := by
      field_simp
      linear_combination (C b) * hss * (σ * σ) + (C b) * (B b * B b - 4 * A b * C b) * hσ
    have h2 : 2 * A b * (-2 * C b / (B b - σ * s)) + B b = -(σ * s) := by
      field_simp
      linear_combination (-1) * hss * (σ * σ) - (B b * B b - 4 * A b * C b) * hσ
    refine ⟨hr, fun t ht hne => ?_⟩
    generalize -2 * C b / (B b - σ * s) = τ at hr h2 hne ⊢
    have h3 : A b * (t + τ) + B b = 0 := by
      have : (t - τ) * (A b * (t + τ) + B b) = 0 := by linear_combination ht - hr
      exact (mul_eq_zero.1 this).resolve_left (sub_ne_zero.2 hne)
    have hA : A b ≠ 0 := by
      intro h0
      rw [h0] at h3 h2
      have h4 : σ * s = 0 := by linarith
      rcases mul_eq_zero.1 h4 with h5 | h5
      · rw [h5] at hσ; norm_num at hσ
      · exact hs.ne' h5
    refine ⟨hA, ?_, ?_⟩
    · field_simp; linear_combination h3
    · have : σ * A b * (τ - t) = -s := by linear_combination σ * h2 - σ * h3 - s * hσ
      rw [this]; linarith

/-- The common equation of the conic surfaces. -/
def Conic (R κ : ℝ) (p : V3 ℝ) : Prop := p.x * p.x + p.y * p.y + κ * (p.z * p.z) - 2 * R * p.z = 0

def conicA (κ : ℝ) (v : V3 ℝ) : ℝ := v.x * v.x + v.y * v.y + κ * (v.z * v.z)
def conicB (R κ : ℝ) (p v : V3 ℝ) : ℝ := 2 * (p.x * v.x + p.y * v.y + κ * (p.z * v.z) - R * v.z)
def conicC (R κ : ℝ) (p : V3 ℝ) : ℝ := p.x * p.x + p.y * p.y + κ * (p.z * p.z) - 2 * R * p.z

theorem conic_iff (R κ : ℝ) (p v : V3 ℝ) (t : ℝ) : Conic R κ (pointAt p v t) ↔ conicA κ v * t * t + conicB R κ p v * t + conicC R κ p = 0 := by
  unfold Conic pointAt conicA conicB conicC
  constructor <;> intro h <;> linear_combination h

/-- The slope of the equation along the ray. -/
theorem conic_slope (R κ : ℝ) (p v : V3 ℝ) (t : ℝ) : 2 * conicA κ v * t + conicB R κ p v =
    2 * ((pointAt p v t).x * v.x + (pointAt p v t).y * v.y - (R - κ * (pointAt p v t).z) * v.z) := by
  unfold pointAt conicA conicB; ring

theorem onParaboloid_conic {R : ℝ} (p : V3 ℝ) : OnParaboloid R p ↔ Conic R 0 p := by
  unfold OnParaboloid Conic; constructor <;> intro h <;> linear_combination -h

theorem onSphere_conic {R : ℝ} (p : V3 ℝ) : OnSphere R p ↔ Conic R 1 p := by
  unfold OnSphere Conic; constructor <;> intro h <;> linear_combination h

theorem onQuadric_conic {R k : ℝ} (p : V3 ℝ) : OnQuadric R k p ↔ Conic R (k + 1) p := by
  unfold OnQuadric Conic; constructor <;> intro h <;> linear_combination h

/-- The nearest meeting point with a conic moves continuously with the ray and stays the nearest. -/
theorem conic_near {R κ : ℝ} {S : V3 ℝ → Prop} (hS : ∀ q, S q ↔ Conic R κ q) {h : V3 ℝ → ℝ} {p v : ℝ → V3 ℝ} {p' v' : V3 ℝ} {a d : ℝ} (hp : D3 p p' a)
    (hv : D3 v v' a) (hcont : ∀ f : ℝ → ℝ, ContinuousAt f a → ContinuousAt (fun b => h (pointAt (p b) (v b) (f b))) a)
    (hflat : conicA κ (v a) = 0 → κ = 0 ∧ h = towards R) (hoff : ¬ S (p a)) (hnear : Nearest S h (p a) (v a) d)
    (hslope : 2 * conicA κ (v a) * d + conicB R κ (p a) (v a) ≠ 0) :
    ∃ τ : ℝ → ℝ, τ a = d ∧ ContinuousAt τ a ∧ ∀ᶠ b in 𝓝 a, ¬ S (p b) ∧ Nearest S h (p b) (v b) (τ b) := by
  have px := hp.x.continuousAt; have py := hp.y.continuousAt; have pz := hp.z.continuousAt
  have vx := hv.x.continuousAt; have vy := hv.y.continuousAt; have vz := hv.z.continuousAt
  have cA : ContinuousAt (fun b => conicA κ (v b)) a := ((vx.mul vx).add (vy.mul vy)).add (continuousAt_const.mul (vz.mul vz))
  have cB : ContinuousAt (fun b => conicB R κ (p b) (v b)) a := continuousAt_const.mul
    ((((px.mul vx).add (py.mul vy)).add (continuousAt_const.mul (pz.mul vz))).sub (continuousAt_const.mul vz))
  have cC : ContinuousAt (fun b => conicC R κ (p b)) a :=
    (((px.mul px).add (py.mul py)).add (continuousAt_const.mul (pz.mul pz))).sub (continuousAt_const.mul pz)
  have hS' : ∀ b t, S (pointAt (p b) (v b) t) ↔ conicA κ (v b) * t * t + conicB R κ (p b) (v b) * t + conicC R κ (p b) = 0 :=
    fun b t => (hS _).trans (conic_iff R κ _ _ _)
  have hstart : ∀ b, S (p b) → conicC R κ (p b) = 0 := fun b hb => (hS _).1 hb
  have hC : conicC R κ (p a) ≠ 0 := fun h0 => hoff ((hS _).2 h0)
  have hroot := (hS' a d).1 hnear.1
  obtain ⟨σ, hσ, hside⟩ : ∃ σ : ℝ, σ * σ = 1 ∧ σ * (2 * conicA κ (v a) * d + conicB R κ (p a) (v a)) < 0 := by
    rcases lt_or_gt_of_ne hslope with h | h
    · exact ⟨1, by norm_num, by linarith⟩
    · exact ⟨-1, by norm_num, by linarith⟩
  obtain ⟨τ, ha, hτ, hev⟩ := root_near cA cB cC hroot hC hσ hside
  refine ⟨τ, ha, hτ, ?_⟩
  have hoff' : ∀ᶠ b in 𝓝 a, ¬ S (p b) := (cC.eventually_ne hC).mono fun b hb h0 => hb (hstart b h0)
  by_cases hA : conicA κ (v a) = 0
  · -- along the axis of a paraboloid: the other meeting point is far away
    obtain ⟨rfl, rfl⟩ := hflat hA
    have hz : 0 < σ * ((v a).z * R) := by
      have h0 : (v a).x * (v a).x + (v a).y * (v a).y = 0 := by simpa [conicA] using hA
      have hx : (v a).x = 0 := by nlinarith [mul_self_nonneg (v a).x, mul_self_nonneg (v a).y]
      have hy : (v a).y = 0 := by nlinarith [mul_self_nonneg (v a).x, mul_self_nonneg (v a).y]
      rw [hA] at hside
      simp only [conicB, hx, hy] at hside
      linarith
    have hz' : ∀ᶠ b in 𝓝 a, 0 < σ * ((v b).z * R) := (continuousAt_const.mul (vz.mul continuousAt_const)).eventually (lt_mem_nhds hz)
    filter_upwards [hev, hoff', hz'] with b h1 h2 h3
    refine ⟨h2, (hS' b _).2 h1.1, fun t ht hne => ?_⟩
    obtain ⟨h4, -, h5⟩ := h1.2 t ((hS' b t).1 ht) hne
    have h6 : 0 < conicA 0 (v b) := lt_of_le_of_ne (by unfold conicA; nlinarith [mul_self_nonneg (v b).x, mul_self_nonneg (v b).y]) (Ne.symm h4)
    have h7 : σ * (τ b - t) < 0 := by
      by_contra hn
      push Not at hn
      have := mul_nonneg h6.le hn
      nlinarith
    have h8 := mul_neg_of_pos_of_neg h3 h7
    have h9 : σ * ((v b).z * R) * (σ * (τ b - t)) = (v b).z * R * (τ b - t) := by linear_combination ((v b).z * R * (τ b - t)) * hσ
    simp only [towards, pointAt]
    nlinarith
  · -- both meeting points move continuously
    have hother : ContinuousAt (fun b => -conicB R κ (p b) (v b) / conicA κ (v b) - τ b) a := (cB.neg.div cA hA).sub hτ
    have h0 : h (pointAt (p a) (v a) (τ a)) < h (pointAt (p a) (v a) (-conicB R κ (p a) (v a) / conicA κ (v a) - τ a)) := by
      rw [ha]
      refine hnear.2 _ ((hS' a _).2 ?_) ?_
      · field_simp
        linear_combination conicA κ (v a) * hroot
      · intro h1
        apply hslope
        rw [sub_eq_iff_eq_add, div_eq_iff hA] at h1
        linear_combination -h1
    have hlt := (hcont τ hτ).eventually_lt (hcont _ hother) h0
    filter_upwards [hev, hoff', hlt] with b h1 h2 h3
    refine ⟨h2, (hS' b _).2 h1.1, fun t ht hne => ?_⟩
    obtain ⟨-, h4, -⟩ := h1.2 t ((hS' b t).1 ht) hne
    rw [h4]; exact h3

/-! ## The surfaces near a clean meeting -/

/-- Where the point is on the side of the vertex, it is on the sag. -/
theorem conic_side {R κ : ℝ} {q : V3 ℝ} (hR : R ≠ 0) (h : Conic R κ q) (side : 0 < (R - κ * q.z) * R) :
    0 < 1 - (q.x * q.x + q.y * q.y) * (κ / R / R) ∧ R * Real.sqrt (1 - (q.x * q.x + q.y * q.y) * (κ / R / R)) = R - κ * q.z := by
  have hRR : 0 < R * R := mul_self_pos.2 hR
  unfold Conic at h
  have e : 1 - (q.x * q.x + q.y * q.y) * (κ / R / R) = ((R - κ * q.z) * R / (R * R)) ^ 2 := by
    field_simp; linear_combination (-κ) * h
  have hp : 0 < (R - κ * q.z) * R / (R * R) := div_pos side hRR
  rw [e, Real.sqrt_sq hp.le]
  exact ⟨pow_pos hp 2, by field_simp⟩

/-- If light does not graze the surface, the equation of the surface has a slope along the ray. -/
theorem steep_slope {x y G : ℝ} {v n : V3 ℝ} (hG : G ≠ 0) (hn : n = unitNormal (x / G) (y / G)) (steep : V3.dot v n ≠ 0) :
    x * v.x + y * v.y - G * v.z ≠ 0 := by
  intro h0
  apply steep
  rw [hn]
  have : V3.dot v (unitNormal (x / G) (y / G)) = -(unitNormal (x / G) (y / G)).z / G * (x * v.x + y * v.y - G * v.z) := by
    simp only [V3.dot, unitNormal]; field_simp; ring
  rw [this, h0, mul_zero]

theorem towards_cont {R : ℝ} {p v : ℝ → V3 ℝ} {p' v' : V3 ℝ} {a : ℝ} (hp : D3 p p' a) (hv : D3 v v' a) (f : ℝ → ℝ) (hf : ContinuousAt f a) :
    ContinuousAt (fun b => towards R (pointAt (p b) (v b) (f b))) a :=
  (hp.z.continuousAt.add (hf.mul hv.z.continuousAt)).mul continuousAt_const

theorem offPlane_cont {p v : ℝ → V3 ℝ} {p' v' : V3 ℝ} {a : ℝ} (hp : D3 p p' a) (hv : D3 v v' a) (f : ℝ → ℝ) (hf : ContinuousAt f a) :
    ContinuousAt (fun b => offPlane (pointAt (p b) (v b) (f b))) a :=
  (hp.z.continuousAt.add (hf.mul hv.z.continuousAt)).abs

theorem pointAt_eq (p v : V3 ℝ) (t : ℝ) : pointAt p v t = p + v.smulR t := by
  ext <;> simp [pointAt, mul_comm]

/-- Beside a ray that meets the surface cleanly, the rays meet it too, at points of its sag that move continuously. -/
theorem clean_near {s : Surface Dbl} {p v : ℝ → V3 ℝ} {p' v' n : V3 ℝ} {a d : ℝ} {niter : ℕ} (hp : D3 p p' a) (hv : D3 v v' a) (h : Clean s (p a) (v a) d)
    (found : s.timeToIntersect (p a).fin (v a).fin 0 niter = (true, .fin d))
    (hn : s.normal (.fin (p a + (v a).smulR d).x) (.fin (p a + (v a).smulR d).y) = n.fin) (steep : V3.dot (v a) n ≠ 0) :
    ∃ f gx gy, ∃ τ : ℝ → ℝ, SmoothAt s f gx gy ((p a + (v a).smulR d).x, (p a + (v a).smulR d).y) ∧ τ a = d ∧ ContinuousAt τ a ∧
      ∀ᶠ b in 𝓝 a, s.timeToIntersect (p b).fin (v b).fin 0 niter = (true, .fin (τ b)) ∧
        s.sag (.fin (p b + (v b).smulR (τ b)).x) (.fin (p b + (v b).smulR (τ b)).y) = .fin (p b + (v b).smulR (τ b)).z := by
  have pz := hp.z.continuousAt
  have vz := hv.z.continuousAt
  simp only [← pointAt_eq] at hn ⊢
  generalize hP : p a = P at h found hn
  generalize hV : v a = V at h found hn steep
  cases h with
  | plane =>
    subst hP; subst hV
    obtain ⟨f, gx, gy, hs⟩ := C98_smooth_plane ((pointAt (p a) (v a) d).x, (pointAt (p a) (v a) d).y)
    have hz : (v a).z ≠ 0 := by
      intro h0
      simp [plane, Dbl.zero_dbl, h0] at found
    have hd := C20_plane found
    refine ⟨f, gx, gy, fun b => -(p b).z / (v b).z, hs, ?_, pz.neg.div vz hz, ?_⟩
    · simp only [OnPlane, pointAt] at hd
      rw [div_eq_iff hz]; linarith
    · filter_upwards [vz.eventually_ne hz] with b hb
      refine ⟨?_, ?_⟩
      · simp [plane, Dbl.zero_dbl, hb, Dbl.div_fin hb]
      · simp only [plane, pointAt, Dbl.zero_dbl, Dbl.fin_inj]
        field_simp; ring
  | @paraboloid R hR _ _ _ off near =>
    subst hP; subst hV
    obtain ⟨f, gx, gy, hs⟩ := C98_smooth_paraboloid hR ((pointAt (p a) (v a) d).x, (pointAt (p a) (v a) d).y)
    have hsl := steep_slope (x := (pointAt (p a) (v a) d).x) (y := (pointAt (p a) (v a) d).y) (G := R) hR (by
      have := hn
      rw [show (paraboloid (Dbl.fin R)).normal = paraboloidNormal (Dbl.fin R) from rfl, paraboloidNormal_fin hR, V3.fin_inj] at this
      rw [← this]; congr 1 <;> field_simp) steep
    obtain ⟨τ, ha, hτ, hev⟩ := conic_near (R := R) (κ := 0) (fun q => onParaboloid_conic q) hp hv (towards_cont hp hv) (fun _ => ⟨rfl, rfl⟩) off near (by
      rw [conic_slope]; intro h0; apply hsl; linear_combination h0 / 2)
    refine ⟨f, gx, gy, τ, hs, ha, hτ, ?_⟩
    filter_upwards [hev] with b hb
    refine ⟨C96_nearest (.paraboloid hR) hb.2 (fun h0 => absurd h0 hb.1) 0 niter, ?_⟩
    have := hb.2.1
    unfold OnParaboloid at this
    rw [show (paraboloid (Dbl.fin R)).sag = paraboloidSag (Dbl.fin R) from rfl, paraboloidSag_fin hR, Dbl.fin_inj]
    field_simp; linear_combination -this
  | @sphere R hR _ _ _ off near side =>
    subst hP; subst hV
    have hc0 := (onSphere_conic _).1 near.1
    have side0 : 0 < (R - 1 * (pointAt (p a) (v a) d).z) * R := by rw [one_mul]; exact side
    obtain ⟨h1, h2⟩ := conic_side hR hc0 side0
    have dom : ∀ x y : ℝ, 0 < 1 - (x * x + y * y) * (1 / R / R) → x * x + y * y < R * R := by
      intro x y hxy
      have hRR : 0 < R * R := mul_self_pos.2 hR
      have e : 1 - (x * x + y * y) * (1 / R / R) = (R * R - (x * x + y * y)) / (R * R) := by field_simp
      rw [e] at hxy
      have := (div_pos_iff_of_pos_right hRR).1 hxy
      linarith
    obtain ⟨f, gx, gy, hs⟩ := C98_smooth_sphere hR (q := ((pointAt (p a) (v a) d).x, (pointAt (p a) (v a) d).y)) (dom _ _ h1)
    have hG : R - 1 * (pointAt (p a) (v a) d).z ≠ 0 := fun h0 => by rw [h0, zero_mul] at side0; exact lt_irrefl _ side0
    have hsl := steep_slope (x := (pointAt (p a) (v a) d).x) (y := (pointAt (p a) (v a) d).y) (G := R - 1 * (pointAt (p a) (v a) d).z) hG (by
      have := hn
      rw [show (sphere (Dbl.fin R)).normal = sphereNormal (Dbl.fin R) from rfl, sphereNormal_fin hR (dom _ _ h1), V3.fin_inj] at this
      rw [← this, mul_assoc 2 R, h2]; congr 1 <;> field_simp) steep
    have hv0 : conicA 1 (v a) ≠ 0 := by
      intro h0
      unfold conicA at h0
      have hx : (v a).x = 0 := by nlinarith [mul_self_nonneg (v a).x, mul_self_nonneg (v a).y, mul_self_nonneg (v a).z]
      have hy : (v a).y = 0 := by nlinarith [mul_self_nonneg (v a).x, mul_self_nonneg (v a).y, mul_self_nonneg (v a).z]
      have hz : (v a).z = 0 := by nlinarith [mul_self_nonneg (v a).x, mul_self_nonneg (v a).y, mul_self_nonneg (v a).z]
      apply steep; simp [V3.dot, hx, hy, hz]
    obtain ⟨τ, ha, hτ, hev⟩ := conic_near (R := R) (κ := 1) (fun q => onSphere_conic q) hp hv (towards_cont hp hv) (fun h0 => absurd h0 hv0) off near (by
      rw [conic_slope]; intro h0; apply hsl; linear_combination h0 / 2)
    have hside : ∀ᶠ b in 𝓝 a, 0 < (R - 1 * (pointAt (p b) (v b) (τ b)).z) * R := by
      have hc : ContinuousAt (fun b => (R - 1 * (pointAt (p b) (v b) (τ b)).z) * R) a :=
        (continuousAt_const.sub (continuousAt_const.mul (pz.add (hτ.mul vz)))).mul continuousAt_const
      exact hc.eventually (lt_mem_nhds (by show 0 < (R - 1 * (pointAt (p a) (v a) (τ a)).z) * R; rw [ha]; exact side0))
    refine ⟨f, gx, gy, τ, hs, ha, hτ, ?_⟩
    filter_upwards [hev, hside] with b hb hb2
    refine ⟨C96_nearest (.sphere R) hb.2 (fun h0 => absurd h0 hb.1) 0 niter, ?_⟩
    obtain ⟨g1, g2⟩ := conic_side hR ((onSphere_conic _).1 hb.2.1) hb2
    rw [show (Surface.sphere (Dbl.fin R)).sag = sphereSag (Dbl.fin R) from rfl, sphereSag_fin hR (dom _ _ g1).le, Dbl.fin_inj]
    linear_combination -g2
  | @quadric R k hR hk _ _ _ off near oblique side =>
    subst hP; subst hV
    have hc0 := (onQuadric_conic _).1 near.1
    obtain ⟨h1, h2⟩ := conic_side hR hc0 side
    have dom : ∀ x y : ℝ, 0 < 1 - (x * x + y * y) * ((k + 1) / R / R) → (x, y) ∈ quadricDomain R k := by
      intro x y hxy
      have hRR : 0 < R * R := mul_self_pos.2 hR
      have e : 1 - (x * x + y * y) * ((k + 1) / R / R) = (R * R - (1 + k) * (x * x + y * y)) / (R * R) := by field_simp; ring
      rw [e] at hxy
      have := (div_pos_iff_of_pos_right hRR).1 hxy
      simp only [quadricDomain, Set.mem_setOf_eq]; linarith
    obtain ⟨f, gx, gy, hs⟩ := C98_smooth_quadric hR (dom _ _ h1)
    have hG : R - (k + 1) * (pointAt (p a) (v a) d).z ≠ 0 := fun h0 => by rw [h0, zero_mul] at side; exact lt_irrefl _ side
    have hsl := steep_slope (x := (pointAt (p a) (v a) d).x) (y := (pointAt (p a) (v a) d).y) (G := R - (k + 1) * (pointAt (p a) (v a) d).z) hG (by
      have := hn
      change radialNormal (quadricDzdr (Dbl.fin R) (Dbl.fin k)) _ _ = _ at this
      rw [radialNormal_fin (quadricDzdr_at hR (dom _ _ h1)), V3.fin_inj] at this
      rw [← this, mul_assoc 2 R, h2]; congr 1 <;> field_simp) steep
    have hv0 : conicA (k + 1) (v a) ≠ 0 := by
      intro h0; apply oblique; unfold conicA at h0; linear_combination h0
    obtain ⟨τ, ha, hτ, hev⟩ := conic_near (R := R) (κ := k + 1) (fun q => onQuadric_conic q) hp hv (offPlane_cont hp hv) (fun h0 => absurd h0 hv0) off near (by
      rw [conic_slope]; intro h0; apply hsl; linear_combination h0 / 2)
    have hside : ∀ᶠ b in 𝓝 a, 0 < (R - (k + 1) * (pointAt (p b) (v b) (τ b)).z) * R := by
      have hc : ContinuousAt (fun b => (R - (k + 1) * (pointAt (p b) (v b) (τ b)).z) * R) a :=
        (continuousAt_const.sub (continuousAt_const.mul (pz.add (hτ.mul vz)))).mul continuousAt_const
      exact hc.eventually (lt_mem_nhds (by show 0 < (R - (k + 1) * (pointAt (p a) (v a) (τ a)).z) * R; rw [ha]; exact side))
    have hobl : ∀ᶠ b in 𝓝 a, (v b).x ^ 2 + (v b).y ^ 2 + (k + 1) * (v b).z ^ 2 ≠ 0 :=
      ContinuousAt.eventually_ne (((hv.x.continuousAt.pow 2).add (hv.y.continuousAt.pow 2)).add (continuousAt_const.mul (vz.pow 2))) oblique
    refine ⟨f, gx, gy, τ, hs, ha, hτ, ?_⟩
    filter_upwards [hev, hside, hobl] with b hb hb2 hb3
    refine ⟨C96_quadric hk hb3 hb.2 (fun h0 => absurd h0 hb.1), ?_⟩
    obtain ⟨g1, g2⟩ := conic_side hR ((onQuadric_conic _).1 hb.2.1) hb2
    rw [show (Surface.quadric (Dbl.fin R) (Dbl.fin k)).sag = quadricSag (Dbl.fin R) (Dbl.fin k) from rfl, quadricSag_fin hR g1.le, Dbl.fin_inj]
    unfold conicSag
    have hd : R * (1 + Real.sqrt (1 - ((pointAt (p b) (v b) (τ b)).x * (pointAt (p b) (v b) (τ b)).x +
        (pointAt (p b) (v b) (τ b)).y * (pointAt (p b) (v b) (τ b)).y) * ((k + 1) / R / R))) ≠ 0 :=
      mul_ne_zero hR (by positivity)
    rw [div_eq_iff hd, mul_add, g2]
    have := (onQuadric_conic _).1 hb.2.1
    unfold Conic at this
    linear_combination this

/-! ## The rays beside one that is turned -/

/-- Refraction, from the formula. -/
theorem Snell.of_formula {n1 n2 σ : ℝ} {n v : V3 ℝ} (hn : IsUnit' n) (h1 : 0 < n1) (h2 : 0 < n2) (hv : V3.dot v v * n1 ^ 2 = 1) (hσ : σ * σ = 1)
    (hside : 0 < σ * V3.dot v n)
    (hrad : 0 < 1 / n2 ^ 2 - V3.dot (V3.smul (n1 ^ 2 / n2 ^ 2) (V3.cross v n)) (V3.smul (n1 ^ 2 / n2 ^ 2) (V3.cross v n))) :
    Snell n1 n2 n v (V3.cross n (V3.smul (n1 ^ 2 / n2 ^ 2) (V3.cross v n)) +
      V3.smul (σ * Real.sqrt (1 / n2 ^ 2 - V3.dot (V3.smul (n1 ^ 2 / n2 ^ 2) (V3.cross v n)) (V3.smul (n1 ^ 2 / n2 ^ 2) (V3.cross v n)))) n) := by
  have h2' : n2 ^ 2 ≠ 0 := by positivity
  have hX : V3.dot (V3.smul (n1 ^ 2 / n2 ^ 2) (V3.cross v n)) n = 0 := by simp [V3.dot]; ring
  have hX2 : V3.smul (n2 ^ 2) (V3.smul (n1 ^ 2 / n2 ^ 2) (V3.cross v n)) = V3.smul (n1 ^ 2) (V3.cross v n) := by
    ext <;> simp only [V3.smul_x, V3.smul_y, V3.smul_z] <;> field_simp
  have hs := Real.sqrt_pos.2 hrad
  have hss := Real.mul_self_sqrt hrad.le
  generalize V3.smul (n1 ^ 2 / n2 ^ 2) (V3.cross v n) = X at *
  generalize Real.sqrt (1 / n2 ^ 2 - V3.dot X X) = s at hs hss ⊢
  unfold IsUnit' at hn
  have hcross : V3.cross (V3.cross n X + V3.smul (σ * s) n) n = X := by
    simp only [V3.dot] at hn hX
    ext <;> simp only [V3.cross_x, V3.cross_y, V3.cross_z, V3.add_x, V3.add_y, V3.add_z, V3.smul_x, V3.smul_y, V3.smul_z]
    · linear_combination X.x * hn - n.x * hX
    · linear_combination X.y * hn - n.y * hX
    · linear_combination X.z * hn - n.z * hX
  have hdot : V3.dot (V3.cross n X + V3.smul (σ * s) n) n = σ * s := by
    have : V3.dot (V3.cross n X + V3.smul (σ * s) n) n = σ * s * V3.dot n n := by simp [V3.dot]; ring
    rw [this, hn, mul_one]
  refine ⟨h1, h2, hv, ?_, by rw [hcross]; exact hX2, ?_⟩
  · have : V3.dot (V3.cross n X + V3.smul (σ * s) n) (V3.cross n X + V3.smul (σ * s) n) =
        V3.dot n n * V3.dot X X - V3.dot X n ^ 2 + (σ * σ) * (s * s) * V3.dot n n := by simp [V3.dot]; ring
    rw [this, hn, hX, hσ, hss]; field_simp; ring
  · rw [hdot]
    have : V3.dot v n * (σ * s) = σ * V3.dot v n * s := by ring
    rw [this]; positivity

/-- Beside a ray that is turned by the laws, the rays are turned too. -/
theorem turn_near {d : Iface Dbl} {w : Dbl} {n v : ℝ → V3 ℝ} {n' v' u0 : V3 ℝ} {a k : ℝ} (hn : D3 n n' a) (hv : D3 v v' a)
    (hunit : ∀ᶠ b in 𝓝 a, IsUnit' (n b)) (hk : ∀ᶠ b in 𝓝 a, V3.dot (v b) (v b) = k) (h : Turns d w (n a) (v a) u0) :
    ∃ u : ℝ → V3 ℝ, u a = u0 ∧ ∀ᶠ b in 𝓝 a, Turns d w (n b) (v b) (u b) := by
  have hua := hunit.self_of_nhds
  cases h with
  | straight hkind hu => exact ⟨v, hu.symm, Eventually.of_forall fun b => .straight hkind rfl⟩
  | mirror hkind ht hd =>
    refine ⟨fun b => mirror (n b) (v b), mirror_unique ht hd, ?_⟩
    filter_upwards [hunit] with b hb
    unfold IsUnit' at hb
    have e : V3.dot (mirror (n b) (v b)) (n b) = -V3.dot (v b) (n b) := by
      have : V3.dot (mirror (n b) (v b)) (n b) = V3.dot (v b) (n b) - 2 * V3.dot (v b) (n b) * V3.dot (n b) (n b) := by
        simp [mirror, V3.dot]; ring
      rw [this, hb]; ring
    refine .mirror hkind ?_ e
    unfold tangential
    rw [e]
    ext <;> simp [mirror] <;> ring
  | @lens hkind n1 n2 h1 h2 hs =>
    have hp1 := hs.pos1
    have hp2 := hs.pos2
    have hne : V3.dot (v a) (n a) ≠ 0 := by
      intro h0
      have := hs.through
      rw [h0, zero_mul] at this; exact lt_irrefl _ this
    obtain ⟨σ, hσ, hside⟩ : ∃ σ : ℝ, σ * σ = 1 ∧ 0 < σ * V3.dot (v a) (n a) := by
      rcases lt_or_gt_of_ne hne with h | h
      · exact ⟨-1, by norm_num, by linarith⟩
      · exact ⟨1, by norm_num, by linarith⟩
    have hside' : ∀ᶠ b in 𝓝 a, 0 < σ * V3.dot (v b) (n b) :=
      ((hv.dot hn).const_mul σ).continuousAt.eventually (lt_mem_nhds hside)
    have hc := D3.smul (hasDerivAt_const a (n1 ^ 2 / n2 ^ 2)) (hv.cross hn)
    have hform := hs.formula hua hσ hside
    have hrad : 0 < 1 / n2 ^ 2 - V3.dot (V3.smul (n1 ^ 2 / n2 ^ 2) (V3.cross (v a) (n a))) (V3.smul (n1 ^ 2 / n2 ^ 2) (V3.cross (v a) (n a))) := by
      by_contra h0
      rw [Real.sqrt_eq_zero_of_nonpos (not_lt.1 h0), mul_zero] at hform
      have : V3.dot u0 (n a) = 0 := by rw [hform]; simp [V3.dot]; ring
      have g2 := hs.through
      rw [this, mul_zero] at g2; exact lt_irrefl _ g2
    have hrad' := ((hasDerivAt_const a (1 / n2 ^ 2)).sub (hc.dot hc)).continuousAt.eventually (lt_mem_nhds hrad)
    refine ⟨fun b => V3.cross (n b) (V3.smul (n1 ^ 2 / n2 ^ 2) (V3.cross (v b) (n b))) +
      V3.smul (σ * Real.sqrt (1 / n2 ^ 2 - V3.dot (V3.smul (n1 ^ 2 / n2 ^ 2) (V3.cross (v b) (n b)))
        (V3.smul (n1 ^ 2 / n2 ^ 2) (V3.cross (v b) (n b))))) (n b), hform.symm, ?_⟩
    filter_upwards [hunit, hk, hside', hrad'] with b g1 g2 g3 g4
    refine .lens hkind h1 h2 (Snell.of_formula g1 hp1 hp2 ?_ hσ g3 g4)
    rw [g2, ← hk.self_of_nhds]; exact hs.speed1

/-! ## C98 -/

theorem unitNormal_unit (gx gy : ℝ) : IsUnit' (unitNormal gx gy) := by
  have hp := slope_pos gx gy
  have hss := Real.mul_self_sqrt hp.le
  have hs := (Real.sqrt_pos.2 hp).ne'
  simp only [IsUnit', V3.dot, unitNormal]
  generalize Real.sqrt (1 + gx * gx + gy * gy) = s at hs hss
  field_simp
  linear_combination -hss

/-- C98: the course of one ray gives the course of the beam around it. -/
theorem C98_beam {niter : ℕ} {w : Dbl} {ds : List (Iface Dbl)} {P0 V0 : V3 ℝ} (h : Chief niter w ds P0 V0) : ∀ {a0 : ℝ} {P V : ℝ → V3 ℝ} {t : ℝ → ℝ},
    P a0 = P0 → V a0 = V0 → Wavefront P V t a0 → ∃ P' V' t', Beam niter w a0 P' V' t' ds P V t := by
  induction h with
  | done => intro a0 P V t _ _ _; exact ⟨P, V, t, .done⟩
  | @cross d ds c n0 P0 V0 U0 dt0 meets clean steep _ ih =>
    intro a0 P V t hP0 hV0 hw
    subst hP0; subst hV0
    obtain ⟨⟨P', hP⟩, ⟨V', hV⟩, ⟨t', ht⟩, ⟨k, hk0, hk⟩, -⟩ := id hw
    have hp := hP.toLocal c
    have hv := hV.mulVec c.rot.tr
    have ho := meets.orth
    have hnormal := meets.normal
    rw [← toLocal_step] at hnormal
    obtain ⟨f, gx, gy, τ, hs, ha, hτ, hev⟩ := clean_near hp hv clean meets.meets hnormal steep
    have htend : Tendsto (fun b => ((c.toLocal (P b) + (c.rot.tr.mulVec (V b)).smulR (τ b)).x, (c.toLocal (P b) + (c.rot.tr.mulVec (V b)).smulR (τ b)).y))
        (𝓝 a0) (𝓝 ((c.toLocal (P a0) + (c.rot.tr.mulVec (V a0)).smulR (τ a0)).x, (c.toLocal (P a0) + (c.rot.tr.mulVec (V a0)).smulR (τ a0)).y)) :=
      ContinuousAt.prodMk (hp.x.continuousAt.add (hv.x.continuousAt.mul hτ)) (hp.y.continuousAt.add (hv.y.continuousAt.mul hτ))
    rw [← ha] at hs hnormal
    have hnn := htend.eventually hs.normal
    have hn0 : n0 = unitNormal (gx ((c.toLocal (P a0) + (c.rot.tr.mulVec (V a0)).smulR (τ a0)).x, (c.toLocal (P a0) + (c.rot.tr.mulVec (V a0)).smulR (τ a0)).y))
        (gy ((c.toLocal (P a0) + (c.rot.tr.mulVec (V a0)).smulR (τ a0)).x, (c.toLocal (P a0) + (c.rot.tr.mulVec (V a0)).smulR (τ a0)).y)) := by
      have := hnn.self_of_nhds
      rw [hnormal, V3.fin_inj] at this
      exact this
    obtain ⟨dt', q', n', hdt, hq, hqn, hn'⟩ := meet_smooth hp hv hs (hev.mono fun b h => h.2) hτ hn0 steep
    have hturn := meets.turns
    rw [hn0] at hturn
    obtain ⟨u, hu0, hu⟩ := turn_near hn' hv (Eventually.of_forall fun b => unitNormal_unit _ _)
      (hk.mono fun b h => by rw [ho.tr.dot_mulVec]; exact h) hturn
    have hmeet : ∀ᶠ b in 𝓝 a0, Meeting niter w d c
        (unitNormal (gx ((c.toLocal (P b) + (c.rot.tr.mulVec (V b)).smulR (τ b)).x, (c.toLocal (P b) + (c.rot.tr.mulVec (V b)).smulR (τ b)).y))
          (gy ((c.toLocal (P b) + (c.rot.tr.mulVec (V b)).smulR (τ b)).x, (c.toLocal (P b) + (c.rot.tr.mulVec (V b)).smulR (τ b)).y)))
        (P b) (V b) (τ b) (c.rot.mulVec (u b)) := by
      filter_upwards [hev, hnn, hu] with b h1 h2 h3
      refine ⟨meets.frame, ho, h1.1, ?_, unitNormal_unit _ _, ?_⟩
      · rw [← toLocal_step]; exact h2
      · rw [ho.tr_mulVec]; exact h3
    have hsm : SmoothAt d.surface f gx gy ((c.toLocal (P a0 + (V a0).smulR (τ a0))).x, (c.toLocal (P a0 + (V a0).smulR (τ a0))).y) := by
      rw [← toLocal_step]; exact hs
    have hon : ∀ᶠ b in 𝓝 a0, d.surface.sag (.fin (c.toLocal (P b + (V b).smulR (τ b))).x) (.fin (c.toLocal (P b + (V b).smulR (τ b))).y) =
        .fin (c.toLocal (P b + (V b).smulR (τ b))).z := by
      filter_upwards [hev] with b h1
      rw [← toLocal_step]; exact h1.2
    rw [hn0] at steep
    have hw' := cross_wave hmeet hsm hon hτ steep hw
    obtain ⟨P1, V1, t1, hb⟩ := ih (by rw [ha]) (by rw [hu0]; exact ho.mulVec_tr _) hw'
    exact ⟨P1, V1, t1, .cross hmeet hsm hon hτ steep hb⟩

/-- C98: through planes, paraboloids, spheres and conics it is enough that one ray of the beam meets every interface cleanly.  The rays beside it
then come through as well, and they come out perpendicular to the places they reach at equal times. -/
theorem C98_malus_chief {o : Optic Dbl} {niter : ℕ} {w : Dbl} {a0 : ℝ} {P V : ℝ → V3 ℝ} {t : ℝ → ℝ} {rv : ℝ → RayVec Dbl} {i : ℕ} {b : ℝ → Bool}
    (h : Chief niter w (visits o) (P a0) (V a0)) (hin : ∀ᶠ a in 𝓝 a0, LightAt (rv a) i (P a) (V a) (t a) w (b a)) (hw : Wavefront P V t a0) :
    ∃ P' V' t', (∀ᶠ a in 𝓝 a0, ∃ b', LightAt (o.trace niter false (rv a)) i (P' a) (V' a) (t' a) w b') ∧ Wavefront P' V' t' a0 := by
  obtain ⟨P', V', t', hb⟩ := C98_beam h rfl rfl hw
  exact ⟨P', V', t', C98_malus hb hin hw⟩

/-! ## Phase screens -/

theorem D3.tangential {f n : ℝ → V3 ℝ} {f' n' : V3 ℝ} {a : ℝ} (hf : D3 f f' a) (hn : D3 n n' a) : ∃ x', D3 (fun b => Props.tangential (f b) (n b)) x' a :=
  ⟨_, hf.sub (D3.smul (hf.dot hn) hn)⟩

/-- C98 for an `OPDScreen`, in the frame of its surface: after the screen the rays are perpendicular to the wavefronts exactly if the screen is level along the
beam or the light goes against the normal in vacuum. -/
theorem C98_screen {s screen : Surface Dbl} {f gx gy φ φx φy : ℝ × ℝ → ℝ} {ct : CoordTransform Dbl} {niter : ℕ} {ray : ℝ → Ray Dbl} {r v n : ℝ → V3 ℝ}
    {t dt : ℝ → ℝ} {a : ℝ} (hit : ∀ᶠ b in 𝓝 a, Hit s ct niter (ray b) (r b) (v b) (n b) (dt b)) (ht : ∀ᶠ b in 𝓝 a, (ray b).t = .fin (t b))
    (smooth : SmoothAt s f gx gy ((r a + (v a).smulR (dt a)).x, (r a + (v a).smulR (dt a)).y))
    (phase : SmoothAt screen φ φx φy ((r a + (v a).smulR (dt a)).x, (r a + (v a).smulR (dt a)).y))
    (on : ∀ᶠ b in 𝓝 a, s.sag (.fin (r b + (v b).smulR (dt b)).x) (.fin (r b + (v b).smulR (dt b)).y) = .fin (r b + (v b).smulR (dt b)).z)
    (cont : ContinuousAt dt a) (steep : V3.dot (v a) (n a) ≠ 0)
    (hlt : V3.normSq (bentTangent (n a) (v a) (φx ((r a + (v a).smulR (dt a)).x, (r a + (v a).smulR (dt a)).y),
      φy ((r a + (v a).smulR (dt a)).x, (r a + (v a).smulR (dt a)).y))) < 1)
    (hw : Wavefront r v t a) :
    ∃ (u : ℝ → V3 ℝ) (T : ℝ → ℝ),
      (∀ᶠ b in 𝓝 a, (Ray.refractScreen s ct screen niter (ray b)).r = (r b + (v b).smulR (dt b)).fin ∧
        (Ray.refractScreen s ct screen niter (ray b)).v = (u b).fin ∧ (Ray.refractScreen s ct screen niter (ray b)).t = .fin (T b)) ∧
      (Wavefront (fun b => r b + (v b).smulR (dt b)) u T a ↔
        HasDerivAt (fun b => φ ((r b + (v b).smulR (dt b)).x, (r b + (v b).smulR (dt b)).y)) 0 a ∨ (V3.dot (v a) (n a) < 0 ∧ speed (v a) = 1)) := by
  obtain ⟨⟨r', hr⟩, ⟨v', hv⟩, ⟨t', htt⟩, ⟨k, hk0, hk⟩, hperp⟩ := hw
  rw [wave_iff hr hv htt hk] at hperp
  have htend : Tendsto (fun b => ((r b + (v b).smulR (dt b)).x, (r b + (v b).smulR (dt b)).y))
      (𝓝 a) (𝓝 ((r a + (v a).smulR (dt a)).x, (r a + (v a).smulR (dt a)).y)) :=
    ContinuousAt.prodMk (hr.x.continuousAt.add (hv.x.continuousAt.mul cont)) (hr.y.continuousAt.add (hv.y.continuousAt.mul cont))
  have hnear : ∀ᶠ b in 𝓝 a, n b = unitNormal (gx ((r b + (v b).smulR (dt b)).x, (r b + (v b).smulR (dt b)).y))
      (gy ((r b + (v b).smulR (dt b)).x, (r b + (v b).smulR (dt b)).y)) := by
    filter_upwards [hit, htend.eventually smooth.normal] with b h1 h2
    have h3 := h1.normal
    rw [h2, V3.fin_inj] at h3
    exact h3.symm
  obtain ⟨dt', q', n', hdt, hq, hqn, hn'⟩ := meet_smooth hr hv smooth on cont hnear.self_of_nhds steep
  have hn := hn'.congr hnear
  have hgrad : ∀ᶠ b in 𝓝 a, screen.grad (.fin (r b + (v b).smulR (dt b)).x) (.fin (r b + (v b).smulR (dt b)).y) =
      (.fin (φx ((r b + (v b).smulR (dt b)).x, (r b + (v b).smulR (dt b)).y)), .fin (φy ((r b + (v b).smulR (dt b)).x, (r b + (v b).smulR (dt b)).y))) := by
    filter_upwards [htend.eventually phase.normal] with b h1
    obtain ⟨hz, e1, e2⟩ := unitNormal_ratio (φx ((r b + (v b).smulR (dt b)).x, (r b + (v b).smulR (dt b)).y)) (φy ((r b + (v b).smulR (dt b)).x, (r b + (v b).smulR (dt b)).y))
    unfold Surface.grad
    rw [h1]
    simp only [V3.fin_x, V3.fin_y, V3.fin_z, Dbl.neg_fin, Dbl.div_fin hz, neg_div, e1, e2, neg_neg]
    simp
  -- along the beam
  have hgx := phase.bendx.hasFDerivAt.comp_hasDerivAt a (hq.x.prodMk hq.y)
  have hgy := phase.bendy.hasFDerivAt.comp_hasDerivAt a (hq.x.prodMk hq.y)
  have hφ := phase.slopes.comp_hasDerivAt a (hq.x.prodMk hq.y)
  simp only [ContinuousLinearMap.add_apply, ContinuousLinearMap.smul_apply, ContinuousLinearMap.coe_fst', ContinuousLinearMap.coe_snd', smul_eq_mul] at hφ
  set G : ℝ → ℝ × ℝ := fun b => (φx ((r b + (v b).smulR (dt b)).x, (r b + (v b).smulR (dt b)).y), φy ((r b + (v b).smulR (dt b)).x, (r b + (v b).smulR (dt b)).y)) with hG
  obtain ⟨g', hg3⟩ : ∃ g', D3 (fun b => grad3 (G b)) g' a := ⟨⟨_, _, 0⟩, hgx, hgy, hasDerivAt_const a (0 : ℝ)⟩
  have hksq : 0 < Real.sqrt k := Real.sqrt_pos.2 hk0
  have hkk := Real.mul_self_sqrt hk0.le
  have hspeed : ∀ᶠ b in 𝓝 a, speed (v b) = Real.sqrt k := hk.mono fun b h => by unfold speed; rw [h]
  have hvne : ∀ᶠ b in 𝓝 a, v b ≠ ⟨0, 0, 0⟩ := hk.mono fun b h h0 => by rw [h0] at h; simp [V3.dot] at h; exact hk0.ne h
  -- the side does not change
  have hsign : ∀ᶠ b in 𝓝 a, screenSign (n b) (v b) = screenSign (n a) (v a) := by
    have hc := (hv.dot hn).continuousAt
    rcases lt_or_gt_of_ne steep with h | h
    · filter_upwards [hc.eventually (gt_mem_nhds h)] with b hb
      simp [screenSign, hb, h]
    · filter_upwards [hc.eventually (lt_mem_nhds h)] with b hb
      simp [screenSign, not_lt.2 hb.le, not_lt.2 h.le]
  generalize hσ : screenSign (n a) (v a) = σ at hsign
  have hσσ : σ * σ = 1 := by rw [← hσ]; exact sign_mul_self _ _
  have hv1 := hv.smulR (hasDerivAt_const a (1 / Real.sqrt k))
  obtain ⟨x1, hx1⟩ := hv1.tangential hn
  obtain ⟨x2, hx2⟩ := hg3.tangential hn
  have hB0 := hx1.add (D3.smul (hasDerivAt_const a σ) hx2)
  have hbent : ∀ᶠ b in 𝓝 a, bentTangent (n b) (v b) (G b) = tangential ((v b).smulR (1 / Real.sqrt k)) (n b) + V3.smul σ (tangential (grad3 (G b)) (n b)) := by
    filter_upwards [hspeed, hsign] with b h1 h2
    rw [bentTangent, h1, h2]
  have hB := hB0.congr hbent
  have hN := hB.dot hB
  have hrad : 0 < 1 - V3.dot (bentTangent (n a) (v a) (G a)) (bentTangent (n a) (v a) (G a)) := by
    have : V3.dot (bentTangent (n a) (v a) (G a)) (bentTangent (n a) (v a) (G a)) < 1 := hlt
    linarith
  have hR : HasDerivAt (fun b => 1 - V3.dot (bentTangent (n b) (v b) (G b)) (bentTangent (n b) (v b) (G b))) _ a := (hasDerivAt_const a (1 : ℝ)).sub hN
  have hrad' := hR.continuousAt.eventually (lt_mem_nhds hrad)
  have hU := D3.smul (hasDerivAt_const a (Real.sqrt k)) (hB.sub (D3.smul ((hR.sqrt hrad.ne').const_mul σ) hn))
  refine ⟨fun b => V3.smul (Real.sqrt k) (bentTangent (n b) (v b) (G b) -
      V3.smul (σ * Real.sqrt (1 - V3.dot (bentTangent (n b) (v b) (G b)) (bentTangent (n b) (v b) (G b)))) (n b)),
    fun b => t b + dt b + φ ((r b + (v b).smulR (dt b)).x, (r b + (v b).smulR (dt b)).y), ?_, ?_⟩
  · filter_upwards [hit, ht, hgrad, htend.eventually phase.sag, hnear, hspeed, hvne, hsign, hrad'] with b h1 h2 h3 h4 h5 h6 h7 h8 h9
    have hnu : IsUnit' (n b) := by rw [h5]; exact unitNormal_unit _ _
    have hnz : (n b).z * (n b).z + (n b).x * (n b).x ≠ 0 := by
      have := (unitNormal_ratio (gx ((r b + (v b).smulR (dt b)).x, (r b + (v b).smulR (dt b)).y)) (gy ((r b + (v b).smulR (dt b)).x, (r b + (v b).smulR (dt b)).y))).1
      rw [← h5] at this
      have := mul_self_pos.mpr this
      nlinarith [mul_self_nonneg (n b).x]
    have h9' : V3.normSq (bentTangent (n b) (v b) (G b)) ≤ 1 := by
      have h10 : 0 < 1 - V3.dot (bentTangent (n b) (v b) (G b)) (bentTangent (n b) (v b) (G b)) := h9
      show V3.dot _ _ ≤ 1
      linarith
    rw [refractScreen_hit (g := G b) h1 h3, screenDir_fin h7 hnu hnz h9', h6, h8, h2, h4]
    exact ⟨rfl, rfl, by simp only [Dbl.add_fin]⟩
  · have hT := (htt.add hdt).add hφ
    have hkU : ∀ᶠ b in 𝓝 a, V3.dot (V3.smul (Real.sqrt k) (bentTangent (n b) (v b) (G b) -
        V3.smul (σ * Real.sqrt (1 - V3.dot (bentTangent (n b) (v b) (G b)) (bentTangent (n b) (v b) (G b)))) (n b)))
        (V3.smul (Real.sqrt k) (bentTangent (n b) (v b) (G b) -
        V3.smul (σ * Real.sqrt (1 - V3.dot (bentTangent (n b) (v b) (G b)) (bentTangent (n b) (v b) (G b)))) (n b))) = k := by
      filter_upwards [hnear, hrad'] with b h5 h9
      have hnu : IsUnit' (n b) := by rw [h5]; exact unitNormal_unit _ _
      have hp := bentTangent_perp hnu (v b) (G b)
      have hss : Real.sqrt (1 - V3.dot (bentTangent (n b) (v b) (G b)) (bentTangent (n b) (v b) (G b))) *
          Real.sqrt (1 - V3.dot (bentTangent (n b) (v b) (G b)) (bentTangent (n b) (v b) (G b))) = _ := Real.mul_self_sqrt (le_of_lt h9)
      unfold IsUnit' at hnu
      generalize bentTangent (n b) (v b) (G b) = B at *
      generalize Real.sqrt (1 - V3.dot B B) = s at *
      have : V3.dot (V3.smul (Real.sqrt k) (B - V3.smul (σ * s) (n b))) (V3.smul (Real.sqrt k) (B - V3.smul (σ * s) (n b))) =
          (Real.sqrt k * Real.sqrt k) * (V3.dot B B - 2 * (σ * s) * V3.dot B (n b) + (σ * σ) * (s * s) * V3.dot (n b) (n b)) := by
        simp [V3.dot]; ring
      rw [this, hkk, hp, hnu, hσσ, hss]; ring
    have hgoal : Wavefront (fun b => r b + (v b).smulR (dt b)) (fun b => V3.smul (Real.sqrt k) (bentTangent (n b) (v b) (G b) -
        V3.smul (σ * Real.sqrt (1 - V3.dot (bentTangent (n b) (v b) (G b)) (bentTangent (n b) (v b) (G b)))) (n b)))
        (fun b => t b + dt b + φ ((r b + (v b).smulR (dt b)).x, (r b + (v b).smulR (dt b)).y)) a ↔ _ :=
      ⟨fun h => (wave_iff hq hU hT hkU).1 h.perp, fun h => ⟨⟨_, hq⟩, ⟨_, hU⟩, ⟨_, hT⟩, ⟨k, hk0, hkU⟩, (wave_iff hq hU hT hkU).2 h⟩⟩
    rw [hgoal]
    -- the two sides of the condition
    have hVV : V3.dot (v a) v' = 0 := by
      have h1 := hv.dot hv
      have h2 : HasDerivAt (fun s => V3.dot (v s) (v s)) 0 a := (hasDerivAt_const a k).congr_of_eventuallyEq hk
      have := h1.unique h2
      simp only [V3.dot] at this ⊢; linarith
    have heik : V3.dot (v a) q' = k * (t' + dt') := by
      rw [hq.unique (hr.add (hv.smulR hdt))]
      have : V3.dot (v a) (r' + (v'.smulR (dt a) + (v a).smulR dt')) = V3.dot (v a) r' + V3.dot (v a) v' * dt a + V3.dot (v a) (v a) * dt' := by
        simp [V3.dot]; ring
      rw [this, hperp, hVV, hk.self_of_nhds]; ring
    have hdot : V3.dot (V3.smul (Real.sqrt k) (bentTangent (n a) (v a) (G a) -
        V3.smul (σ * Real.sqrt (1 - V3.dot (bentTangent (n a) (v a) (G a)) (bentTangent (n a) (v a) (G a)))) (n a))) q' =
        k * (t' + dt') + Real.sqrt k * σ * ((G a).1 * q'.x + (G a).2 * q'.y) := by
      rw [hbent.self_of_nhds, ← heik]
      generalize Real.sqrt (1 - _) = s
      have : V3.dot (V3.smul (Real.sqrt k) (tangential ((v a).smulR (1 / Real.sqrt k)) (n a) + V3.smul σ (tangential (grad3 (G a)) (n a)) - V3.smul (σ * s) (n a))) q' =
          Real.sqrt k * (1 / Real.sqrt k) * (V3.dot (v a) q' - V3.dot (v a) (n a) * V3.dot q' (n a)) +
          Real.sqrt k * σ * ((G a).1 * q'.x + (G a).2 * q'.y - V3.dot (grad3 (G a)) (n a) * V3.dot q' (n a)) - Real.sqrt k * (σ * s) * V3.dot q' (n a) := by
        simp [tangential, V3.dot, grad3]; ring
      rw [this, hqn, mul_one_div_cancel hksq.ne']; ring
    rw [hdot]
    have hsa : speed (v a) = Real.sqrt k := hspeed.self_of_nhds
    rw [hsa]
    generalize hD : (G a).1 * q'.x + (G a).2 * q'.y = D
    have hφ' : HasDerivAt (fun b => φ ((r b + (v b).smulR (dt b)).x, (r b + (v b).smulR (dt b)).y)) D a := hφ.congr_deriv hD
    constructor
    · intro h
      have h1 : Real.sqrt k * (D * (σ - Real.sqrt k)) = 0 := by
        linear_combination h - D * hkk
      rcases mul_eq_zero.1 ((mul_eq_zero.1 h1).resolve_left hksq.ne') with h2 | h2
      · left; rw [← h2]; exact hφ'
      · right
        have h3 : σ = Real.sqrt k := by linarith
        have h4 : Real.sqrt k = 1 := by rw [h3] at hσσ; nlinarith
        refine ⟨?_, h4⟩
        by_contra hn0
        rw [screenSign, if_neg hn0] at hσ
        linarith
    · rintro (h | ⟨h, h1⟩)
      · have : D = 0 := hφ'.unique h
        rw [this]; ring
      · rw [screenSign, if_pos h] at hσ
        rw [h1] at hkk ⊢
        rw [← hσ, ← hkk]; ring

/-! ## Tilted mirrors -/

/-- The mirror of `C98_tilted_violated`. -/
noncomputable def tiltedMirror (tanx tany : ℝ) : Iface Dbl := { demoMirror with surface := tilted (.fin tanx) (.fin tany), obscuration := none }

/-- C98 fails for every mirror with a `Tilted` surface: a parallel beam along the axis, met by the mirror everywhere and reflected there by its reported normal, is no longer
perpendicular to its wavefronts, because the reported normal is not the normal of the plane. -/
theorem C98_tilted_violated {tanx tany h a : ℝ} (hx : tanx ≠ 0) (hq : tanx * tanx + tany * tany < 1) (niter : ℕ) (w : Dbl) :
    ∃ (n u : V3 ℝ) (dt : ℝ → ℝ), Wavefront (fun b => ⟨b, 0, h⟩) (fun _ => ⟨0, 0, -1⟩) (fun _ => 0) a ∧
      (∀ b, Meeting niter w (tiltedMirror tanx tany) ⟨⟨0, 0, 0⟩, M3.one⟩ n ⟨b, 0, h⟩ ⟨0, 0, -1⟩ (dt b) u) ∧
      ¬ Wavefront (fun b => (⟨b, 0, h⟩ : V3 ℝ) + (⟨0, 0, -1⟩ : V3 ℝ).smulR (dt b)) (fun _ => u) (fun b => 0 + dt b) a := by
  have hp : 0 < 1 - tanx * tanx - tany * tany := by linarith
  have hs := Real.sqrt_pos.2 hp
  have hss := Real.mul_self_sqrt hp.le
  have hsag := Dbl.sqrt_fin hp.le
  generalize hS : Real.sqrt (1 - tanx * tanx - tany * tany) = s at hs hss hsag
  have hP : D3 (fun b => (⟨b, 0, h⟩ : V3 ℝ)) ⟨1, 0, 0⟩ a := ⟨hasDerivAt_id' a, hasDerivAt_const _ _, hasDerivAt_const _ _⟩
  have hv : (⟨0, 0, -1⟩ : V3 ℝ) ≠ ⟨0, 0, 0⟩ := by simp
  have hdt : HasDerivAt (fun b : ℝ => h - b * tanx) (-tanx) a := (((hasDerivAt_id' a).mul_const tanx).const_sub h).congr_deriv (by ring)
  refine ⟨⟨-tanx, -tany, s⟩, mirror ⟨-tanx, -tany, s⟩ ⟨0, 0, -1⟩, fun b => h - b * tanx, C98_parallel hv hP (by simp [V3.dot]), fun b => ?_, ?_⟩
  · have hunit : IsUnit' (⟨-tanx, -tany, s⟩ : V3 ℝ) := by simp only [IsUnit', V3.dot]; linear_combination hss
    refine ⟨?_, M3.orth_one, ?_, ?_, hunit, ?_⟩
    · show (CoordSys.std ℝ).fin = _
      congr 1
    · simp only [frame_toLocal, frame_tr]
      refine C96_tilted ⟨by simp only [OnTilted, pointAt]; ring, fun t' h1 h2 => ?_⟩
      simp only [OnTilted, pointAt] at h1
      exact absurd (by linarith) h2
    · simp only [tiltedMirror, tilted, Dbl.one_dbl, Dbl.mul_fin, Dbl.sub_fin, Dbl.neg_fin, hsag]
      rfl
    · simp only [frame_tr]
      unfold IsUnit' at hunit
      have e : V3.dot (mirror ⟨-tanx, -tany, s⟩ ⟨0, 0, -1⟩) ⟨-tanx, -tany, s⟩ = -V3.dot (⟨0, 0, -1⟩ : V3 ℝ) ⟨-tanx, -tany, s⟩ := by
        have : V3.dot (mirror ⟨-tanx, -tany, s⟩ ⟨0, 0, -1⟩) ⟨-tanx, -tany, s⟩ = V3.dot (⟨0, 0, -1⟩ : V3 ℝ) ⟨-tanx, -tany, s⟩ -
            2 * V3.dot (⟨0, 0, -1⟩ : V3 ℝ) ⟨-tanx, -tany, s⟩ * V3.dot (⟨-tanx, -tany, s⟩ : V3 ℝ) ⟨-tanx, -tany, s⟩ := by simp [mirror, V3.dot]; ring
        rw [this, hunit]; ring
      refine .mirror rfl ?_ e
      unfold tangential
      rw [e]
      ext <;> simp [mirror] <;> ring
  · intro hw
    have hQ := hP.add ((D3.const (⟨0, 0, -1⟩ : V3 ℝ) a).smulR hdt)
    have hU := D3.const (mirror ⟨-tanx, -tany, s⟩ ⟨0, 0, -1⟩) a
    have hunit : IsUnit' (⟨-tanx, -tany, s⟩ : V3 ℝ) := by simp only [IsUnit', V3.dot]; linear_combination hss
    have hk : ∀ᶠ b in 𝓝 a, V3.dot ((fun _ : ℝ => mirror ⟨-tanx, -tany, s⟩ ⟨0, 0, -1⟩) b) ((fun _ : ℝ => mirror ⟨-tanx, -tany, s⟩ ⟨0, 0, -1⟩) b) = 1 :=
      Eventually.of_forall fun b => by simp only [mirror_dotSelf hunit]; simp [V3.dot]
    have := (wave_iff hQ hU ((hasDerivAt_const a (0 : ℝ)).add hdt) hk).1 hw.perp
    simp [mirror, V3.dot] at this
    have h1 : tanx * (s * (s - 1)) = 0 := by linear_combination this / 2
    rcases mul_eq_zero.1 h1 with h2 | h2
    · exact hx h2
    · rcases mul_eq_zero.1 h2 with h3 | h3
      · exact hs.ne' h3
      · have h4 : s = 1 := by linarith
        rw [h4] at hss
        have := mul_self_pos.2 hx
        nlinarith [mul_self_nonneg tany]

/-! ## Concrete cases -/

/-- A beam of parallel light near the ray of the example of C97 comes through the window, the parabolic mirror and the detector. -/
theorem demoCamera_chief : Chief 5 (.fin 1) (visits demoCamera) ⟨3, 0, 20⟩ ⟨0, 0, -1⟩ := by
  have hv : visits demoCamera = [demoWindow, demoBowl, demoFlat "D" 2] := by
    simp [demoCamera, demoComp, visits, visitsItems, Optic.skip, demoWindow, demoBowl, demoFlat, demoMirror]
  rw [hv]
  have e1 : (⟨3, 0, 20⟩ : V3 ℝ) + (⟨0, 0, -1⟩ : V3 ℝ).smulR 10 = ⟨3, 0, 10⟩ := by ext <;> norm_num
  have e2 : (⟨3, 0, 10⟩ : V3 ℝ) + (⟨0, 0, -2 / 3⟩ : V3 ℝ).smulR (213 / 16) = ⟨3, 0, 9 / 8⟩ := by ext <;> norm_num
  refine .cross window_crossing.toMeeting .plane (by rw [frame_tr]; norm_num [V3.dot]) ?_
  rw [e1]
  refine .cross bowl_crossing.toMeeting (.paraboloid (R := 4) (by norm_num) ?_ ?_) (by rw [frame_tr]; norm_num [V3.dot]) ?_
  · rw [frame_toLocal]; norm_num [OnParaboloid]
  · rw [frame_toLocal, frame_tr]
    refine ⟨by norm_num [OnParaboloid, pointAt], fun t' h h' => ?_⟩
    simp only [OnParaboloid, pointAt] at h; exact absurd (by linarith) h'
  · rw [e2]
    exact .cross camera_crossing.toMeeting .plane (by rw [frame_tr]; norm_num [V3.dot]) .done

/-- That beam is perpendicular to its wavefronts to begin with. -/
example : Wavefront (fun b => ⟨b, 0, 20⟩) (fun _ => ⟨0, 0, -1⟩) (fun _ => 0) 3 :=
  C98_parallel (by simp) (P' := ⟨1, 0, 0⟩) ⟨hasDerivAt_id' _, hasDerivAt_const _ _, hasDerivAt_const _ _⟩ (by simp [V3.dot])

/-- The hypotheses of `C98_screen`: a parallel beam in vacuum through a flat screen whose phase is a paraboloid.  Downwards (against the normal) it stays perpendicular to
its wavefronts, upwards it does not. -/
example {σ : ℝ} (hσ : σ * σ = 1) : ∃ (ray : ℝ → Ray Dbl) (r u : ℝ → V3 ℝ) (T : ℝ → ℝ),
    (∀ᶠ b in 𝓝 1, (Ray.refractScreen Surface.plane (CoordTransform.make (CoordSys.std ℝ).fin (CoordSys.std ℝ).fin) (Surface.paraboloid (.fin 4)) 5 (ray b)).r = (r b).fin ∧
      (Ray.refractScreen Surface.plane (CoordTransform.make (CoordSys.std ℝ).fin (CoordSys.std ℝ).fin) (Surface.paraboloid (.fin 4)) 5 (ray b)).v = (u b).fin ∧
      (Ray.refractScreen Surface.plane (CoordTransform.make (CoordSys.std ℝ).fin (CoordSys.std ℝ).fin) (Surface.paraboloid (.fin 4)) 5 (ray b)).t = .fin (T b)) ∧
    (∀ b, (ray b).v = (⟨0, 0, σ⟩ : V3 ℝ).fin) ∧ (Wavefront r u T 1 ↔ σ < 0) := by
  have hσ0 : σ ≠ 0 := by rintro rfl; norm_num at hσ
  have h4 : (4 : ℝ) ≠ 0 := by norm_num
  have hP : D3 (fun b => (⟨b, 2, 4⟩ : V3 ℝ)) ⟨1, 0, 0⟩ 1 := ⟨hasDerivAt_id' _, hasDerivAt_const _ _, hasDerivAt_const _ _⟩
  have hne : (⟨0, 0, σ⟩ : V3 ℝ) ≠ ⟨0, 0, 0⟩ := by simpa using hσ0
  have hsp : speed ⟨0, 0, σ⟩ = 1 := by simp [speed, V3.dot, hσ]
  have hd : (⟨0, 0, σ⟩ : V3 ℝ).dot ⟨0, 0, 1⟩ = σ := by simp [V3.dot]
  have hbent : V3.normSq (bentTangent ⟨0, 0, 1⟩ ⟨0, 0, σ⟩ (2 * 1 * (1 / 2 / 4), 2 * 2 * (1 / 2 / 4))) < 1 := by
    have hs := sign_mul_self ⟨0, 0, 1⟩ ⟨0, 0, σ⟩
    generalize hS : screenSign ⟨0, 0, 1⟩ ⟨0, 0, σ⟩ = S at hs
    simp only [bentTangent, hS, hsp, tangential, grad3, V3.normSq, V3.dot, V3.add_x, V3.add_y, V3.add_z, V3.sub_x, V3.sub_y, V3.sub_z, V3.smul_x, V3.smul_y, V3.smul_z,
      V3.smulR_x, V3.smulR_y, V3.smulR_z]
    nlinarith
  have smooth0 : SmoothAt (plane (F := Dbl)) (fun _ => 0) (fun p => 2 * p.1 * 0) (fun p => 2 * p.2 * 0) (1, 2) :=
    smooth_radial isOpen_univ (h := fun _ => 0) (d := fun _ => 0) (fun x y _ => by simp [plane, Dbl.zero_dbl])
      (fun x y _ => by rw [mul_zero, mul_zero, unitNormal_zero]; rfl) (Set.mem_univ _) (hasDerivAt_const _ _) (differentiableAt_const _)
  have smooth1 : SmoothAt (Surface.paraboloid (.fin 4)) (fun p => (p.1 * p.1 + p.2 * p.2) * (1 / 2 / 4)) (fun p => 2 * p.1 * (1 / 2 / 4)) (fun p => 2 * p.2 * (1 / 2 / 4)) (1, 2) :=
    smooth_radial isOpen_univ (h := fun p => p * (1 / 2 / 4)) (d := fun _ => 1 / 2 / 4) (fun x y _ => paraboloidSag_fin h4 x y)
      (fun x y _ => paraboloidNormal_fin h4 x y) (Set.mem_univ _) (by simpa using (hasDerivAt_id (1 * 1 + 2 * 2 : ℝ)).mul_const (1 / 2 / 4)) (differentiableAt_const _)
  have e : ∀ b : ℝ, ((⟨b, 2, 4⟩ : V3 ℝ) + (⟨0, 0, σ⟩ : V3 ℝ).smulR (-4 / σ)) = ⟨b, 2, 0⟩ := fun b => by
    ext <;> simp; field_simp; norm_num
  obtain ⟨u, T, h1, h2⟩ := C98_screen (s := Surface.plane) (screen := Surface.paraboloid (.fin 4)) (niter := 5) (a := 1)
    (ct := CoordTransform.make (CoordSys.std ℝ).fin (CoordSys.std ℝ).fin) (ray := fun b => { demoRay ⟨0, 0, σ⟩ with r := (⟨b, 2, 4⟩ : V3 ℝ).fin })
    (r := fun b => ⟨b, 2, 4⟩) (v := fun _ => ⟨0, 0, σ⟩) (n := fun _ => ⟨0, 0, 1⟩) (t := fun _ => 7) (dt := fun _ => -4 / σ)
    (Eventually.of_forall fun b => ⟨rfl, by
        rw [CoordTransform.forward_fin, V3.fin_inj]
        simp [CoordTransform.forward, CoordTransform.make, CoordSys.std, M3.mulVec, M3.mul, M3.tr], by
        simp only [demoRay, CoordTransform.forwardVel_fin, V3.fin_inj]
        ext <;> simp [CoordTransform.forwardVel, CoordTransform.make, CoordSys.std, M3.mulVec, M3.mul, M3.tr], by
        simp only [Surface.plane, V3.fin_z, Dbl.zero_dbl, Dbl.eq_fin, hσ0, decide_false, Bool.false_eq_true, if_false, Dbl.neg_fin, Dbl.div_fin hσ0], by
        simp [Surface.plane, V3.fin]⟩)
    (Eventually.of_forall fun b => rfl) (by simp only [e]; exact smooth0) (by simp only [e]; exact smooth1)
    (Eventually.of_forall fun b => by simp only [e]; simp [Surface.plane, Dbl.zero_dbl]) continuousAt_const (by simp only [hd]; exact hσ0)
    (by simp only [e]; exact hbent) (C98_parallel hne hP (by simp [V3.dot]))
  refine ⟨_, _, u, T, h1, fun b => rfl, h2.trans ?_⟩
  simp only [e, hd, hsp, and_true]
  refine or_iff_right fun h0 => ?_
  have hφ : HasDerivAt (fun b : ℝ => (b * b + 2 * 2) * (1 / 2 / 4)) ((1 * 1 + 1 * 1) * (1 / 2 / 4)) 1 :=
    (((hasDerivAt_id' (1 : ℝ)).mul (hasDerivAt_id' (1 : ℝ))).add_const (2 * 2)).mul_const (1 / 2 / 4)
  have := hφ.unique h0
  norm_num at this

/-- A mirror for `C98_tilted_violated`. -/
example : (3 / 5 : ℝ) ≠ 0 ∧ (3 / 5 : ℝ) * (3 / 5) + 0 * 0 < 1 := by norm_num

end Batoid.Props
