import Verif.Props.Split
import Verif.Props.Optics
import Verif.Props.Kernels

/-!
# C128: what a coating is asked, and where the light goes

The specification vocabulary: the cosine of the angle between ray and normal (`cosBetween`), the light of the rays that are not vignetted
(`lit`), a coating that absorbs nothing (`Lossless`), and what happens to a ray at a surface (`Reaching`).
-/

namespace Batoid.Props
open Batoid

/-! ### The angle -/

/-- The cosine of the angle between velocity and normal. -/
noncomputable def cosBetween (v n : V3 ℝ) : ℝ := V3.dot v n / speed v

theorem cos_against {v n : V3 ℝ} : V3.dot (v.smulR (1 / speed v)) (against n v) = -|cosBetween v n| := by
  have hs : 0 ≤ speed v := Real.sqrt_nonneg _
  have hd : V3.dot (v.smulR (1 / speed v)) n = cosBetween v n := by simp [V3.dot, cosBetween]; ring
  have hd' : V3.dot (v.smulR (1 / speed v)) (-n) = -cosBetween v n := by rw [← hd]; simp [V3.dot]; ring
  unfold against
  split
  · rename_i h
    rw [hd', abs_of_nonneg (show 0 ≤ cosBetween v n from div_nonneg h.le hs)]
  · rename_i h
    rw [hd, abs_of_nonpos (show cosBetween v n ≤ 0 from div_nonpos_of_nonpos_of_nonneg (not_lt.1 h) hs), neg_neg]

/-- C128: `refract` and `rSplit` ask the coating at minus the cosine of the angle of incidence, whichever way the normal points. -/
theorem C128_angle_split {s : Surface Dbl} {ct : CoordTransform Dbl} {niter : ℕ} {ray : Ray Dbl} {r v n : V3 ℝ} {dt : ℝ}
    (h : Hit s ct niter ray r v n dt) (hv : v ≠ ⟨0, 0, 0⟩) (m2 : Medium Dbl) (c : Coating Dbl) :
    (Ray.rSplit s ct m2 c niter ray).2.flux = ray.flux * c.getReflect ray.wavelength (Dbl.fin (-|cosBetween v n|)) ∧
    (Ray.rSplit s ct m2 c niter ray).1.flux = ray.flux * c.getTransmit ray.wavelength (Dbl.fin (-|cosBetween v n|)) ∧
    (Ray.refract s ct m2 (some c) niter ray).flux = ray.flux * c.getTransmit ray.wavelength (Dbl.fin (-|cosBetween v n|)) := by
  have hnn := h.normal
  have h1 : (Ray.rSplit s ct m2 c niter ray).1.flux = ray.flux * c.getTransmit ray.wavelength (Dbl.fin (-|cosBetween v n|)) := by
    simp only [Ray.rSplit, h.live, h.pos, h.vel, h.time, Coating.getCoefs]
    simp only [V3.fin_smulR, V3.fin_add, V3.fin_x, V3.fin_y, hnn, invSpeed_fin hv, orient_fin hv, cos_against]
    simp only [Bool.false_eq_true, if_false]
    split <;> rfl
  refine ⟨?_, h1, ?_⟩
  · simp only [Ray.rSplit, h.live, h.pos, h.vel, h.time, Coating.getCoefs]
    simp only [V3.fin_smulR, V3.fin_add, V3.fin_x, V3.fin_y, hnn, invSpeed_fin hv, orient_fin hv, cos_against]
    rfl
  · rw [← C15_refracted_is_refract]; exact h1

/-- C128: `intersect` and `reflect` ask it at the cosine with the sign of the side the ray comes from. -/
theorem C128_angle_single {s : Surface Dbl} {ct : CoordTransform Dbl} {niter : ℕ} {ray : Ray Dbl} {r v n : V3 ℝ} {dt : ℝ}
    (h : Hit s ct niter ray r v n dt) (hv : v ≠ ⟨0, 0, 0⟩) (hn : IsUnit' n) (c : Coating Dbl) :
    (Ray.intersect s ct (some c) niter ray).flux = ray.flux * c.getTransmit ray.wavelength (Dbl.fin (cosBetween v n)) ∧
    (Ray.reflect s ct (some c) niter ray).flux = ray.flux * c.getReflect ray.wavelength (Dbl.fin (cosBetween v n)) := by
  have hnn := h.normal
  have hcos : V3.dot v n * (1 / speed v) = cosBetween v n := by unfold cosBetween; ring
  constructor
  · simp only [Ray.intersect, h.live, h.pos, h.vel, h.time]
    simp only [V3.fin_smulR, V3.fin_add, V3.fin_x, V3.fin_y, hnn, invSpeed_fin hv, V3.fin_dot, Dbl.mul_fin, hcos]
    rfl
  · obtain ⟨u, hu, -, hsp, -⟩ := C08_law_of_reflection h hn none
    have hum : u = mirror n v := by
      have := (reflect_hit h none).2.1
      rw [hu, V3.fin_inj] at this; exact this
    have hm0 : mirror n v ≠ ⟨0, 0, 0⟩ := by
      intro h0
      rw [hum, h0] at hsp
      have := speed_pos hv
      rw [← hsp] at this
      simp [speed, V3.dot] at this
    have hmir : v.fin - V3.smul (Dbl.fin (2 * V3.dot v n)) n.fin = (mirror n v).fin := by simp [mirror]
    simp only [Ray.reflect, h.live, h.pos, h.vel, h.time]
    simp only [V3.fin_smulR, V3.fin_add, V3.fin_x, V3.fin_y, hnn, V3.fin_dot, Dbl.ofNat_dbl', Dbl.mul_fin, hmir, invSpeed_fin hm0]
    rw [← hum, hsp, hcos]
    rfl

/-- C128 fails for the angle: a coating that tells the sides apart reflects a ray that comes from below the surface when `reflect` asks, and
lets it pass when `rSplit` asks; and neither sign is the cosine of the angle of incidence for all rays. -/
theorem C128_angle_violated : ∃ (c : Coating Dbl) (s : Surface Dbl) (ct : CoordTransform Dbl) (m2 : Medium Dbl) (ray : Ray Dbl),
    (Ray.reflect s ct (some c) 5 ray).flux = Dbl.fin 1 ∧ (Ray.rSplit s ct m2 c 5 ray).2.flux = Dbl.fin 0 := by
  let c : Coating Dbl := ⟨fun _ a => if Arith.gt a 0 then Dbl.fin 1 else Dbl.fin 0, fun _ _ => Dbl.fin 0⟩
  have hit := demo_hit (v := ⟨0, 0, 1⟩) (by norm_num)
  have hv : (⟨0, 0, 1⟩ : V3 ℝ) ≠ ⟨0, 0, 0⟩ := by simp
  have hcos : cosBetween ⟨0, 0, 1⟩ ⟨0, 0, 1⟩ = 1 := by simp [cosBetween, speed, V3.dot]
  refine ⟨c, Surface.plane, CoordTransform.make (CoordSys.std ℝ).fin (CoordSys.std ℝ).fin, Medium.const (Dbl.fin 1), demoRay ⟨0, 0, 1⟩, ?_, ?_⟩
  · rw [(C128_angle_single hit hv demo_unit c).2, hcos]
    simp [c, demoRay]
  · rw [(C128_angle_split hit hv _ c).1, hcos]
    simp [c, demoRay]

/-! ### The light -/

/-- The light of one ray: none if it is vignetted. -/
noncomputable def litOne (ray : Ray Dbl) : ℝ := if ray.vignetted then 0 else val ray.flux

/-- The light of all rays that are not vignetted. -/
noncomputable def lit (l : List (Ray Dbl)) : ℝ := (l.map litOne).sum

/-- A coating that absorbs nothing. -/
def Lossless (c : Coating Dbl) : Prop :=
  ∀ w a, ∃ R T : ℝ, c.getReflect w a = .fin R ∧ c.getTransmit w a = .fin T ∧ R + T = 1

/-- The ray reaches the surface at a point with unit normal `n`, with velocity `v`, and the index beyond is `n2`. -/
structure Reaching (s : Surface Dbl) (ct : CoordTransform Dbl) (m2 : Medium Dbl) (niter : ℕ) (ray : Ray Dbl) (v n : V3 ℝ) (n2 : ℝ) : Prop where
  hit : ∃ r dt, Hit s ct niter ray r v n dt
  moving : v ≠ ⟨0, 0, 0⟩
  unit : IsUnit' n
  pos : 0 < n2
  index : m2.getN ray.wavelength = Dbl.fin n2

/-- The ray reaches the surface, and Snell's law gives it a direction beyond. -/
def GoesThrough (s : Surface Dbl) (ct : CoordTransform Dbl) (m2 : Medium Dbl) (niter : ℕ) (ray : Ray Dbl) : Prop :=
  ∃ v n n2, Reaching s ct m2 niter ray v n n2 ∧ snellSin2 n2 n v ≤ 1

/-- Rays that are vignetted stay so on both sides. -/
theorem rSplit_vignetted {F : Type} [Arith F] (s : Surface F) (ct : CoordTransform F) (m2 : Medium F) (c : Coating F) (niter : ℕ)
    (ray : Ray F) (h : ray.vignetted = true) :
    (Ray.rSplit s ct m2 c niter ray).1.vignetted = true ∧ (Ray.rSplit s ct m2 c niter ray).2.vignetted = true := by
  unfold Ray.rSplit
  split
  · exact ⟨h, h⟩
  · dsimp only
    split
    · exact ⟨rfl, rfl⟩
    · refine ⟨?_, h⟩
      dsimp only
      split
      · rfl
      · exact h

theorem rSplit_side {s : Surface Dbl} {ct : CoordTransform Dbl} {m2 : Medium Dbl} {niter : ℕ} {ray : Ray Dbl} {v n : V3 ℝ} {n2 : ℝ}
    (h : Reaching s ct m2 niter ray v n n2) (c : Coating Dbl) :
    (Ray.rSplit s ct m2 c niter ray).2.vignetted = ray.vignetted ∧ (Ray.rSplit s ct m2 c niter ray).2.failed = false ∧
    (snellSin2 n2 n v ≤ 1 → (Ray.rSplit s ct m2 c niter ray).1.vignetted = ray.vignetted) ∧
    (1 < snellSin2 n2 n v → (Ray.rSplit s ct m2 c niter ray).1.vignetted = true) := by
  obtain ⟨r, dt, hit⟩ := h.hit
  have hp := C15_reflected_position s ct m2 c none niter ray
  obtain ⟨-, -, -, hf, hvg, -⟩ := reflect_hit hit none
  have hr := (refract_hit hit h.moving h.unit h.pos m2 h.index (some c)).2.2.2
  rw [← C15_refracted_is_refract] at hr
  refine ⟨hp.2.2.2.1.trans ?_, hp.2.2.2.2.trans ?_, fun hs => ?_, fun hs => ?_⟩
  · exact hvg
  · exact hf
  · rw [if_neg (not_lt.2 hs)] at hr; exact hr.2.2
  · rw [if_pos hs] at hr; exact hr.2

/-- One ray: what is reflected and what passes is what came. -/
theorem litOne_split {s : Surface Dbl} {ct : CoordTransform Dbl} {m2 : Medium Dbl} {niter : ℕ} {ray : Ray Dbl} {c : Coating Dbl}
    (hc : Lossless c) (hflux : ∃ f : ℝ, ray.flux = .fin f) (h : ray.vignetted = true ∨ GoesThrough s ct m2 niter ray) :
    litOne (Ray.rSplit s ct m2 c niter ray).1 + litOne (Ray.rSplit s ct m2 c niter ray).2 = litOne ray := by
  by_cases hvg : ray.vignetted = true
  · obtain ⟨h1, h2⟩ := rSplit_vignetted s ct m2 c niter ray hvg
    simp [litOne, h1, h2, hvg]
  · obtain ⟨v, n, n2, hm, hs⟩ := h.resolve_left hvg
    obtain ⟨h2, -, h1, -⟩ := rSplit_side hm c
    obtain ⟨r, dt, hit⟩ := hm.hit
    obtain ⟨f2, f1, -⟩ := C128_angle_split hit hm.moving m2 c
    obtain ⟨R, T, hR, hT, hRT⟩ := hc ray.wavelength (Dbl.fin (-|cosBetween v n|))
    obtain ⟨f, hf⟩ := hflux
    rw [hR, hf, Dbl.mul_fin] at f2
    rw [hT, hf, Dbl.mul_fin] at f1
    simp only [litOne, h2, h1 hs, hvg, Bool.false_eq_true, if_false, f1, f2, hf, val]
    linear_combination f * hRT

/-- C128: a surface with a coating that absorbs nothing, reached by all rays that are not vignetted, loses no light where Snell's law gives a
direction beyond: the light of the two outputs of `rSplit` together is that of the input. -/
theorem C128_split_partial (rv : RayVec Dbl) (s : Surface Dbl) (m1 m2 : Medium Dbl) (c : Coating Dbl) (cs : Option (CoordSys Dbl))
    (niter : ℕ) (hc : Lossless c) (hflux : ∀ ray ∈ rv.rays, ∃ f : ℝ, ray.flux = .fin f)
    (h : ∀ ray ∈ rv.rays, ray.vignetted = true ∨ GoesThrough s (CoordTransform.make rv.coordSys (cs.getD rv.coordSys)) m2 niter ray) :
    lit (rv.rSplit s m1 m2 c cs niter).1.rays + lit (rv.rSplit s m1 m2 c cs niter).2.rays = lit rv.rays := by
  simp only [RayVec.rSplit, RayVec.runKernel, RayVec.target, lit, List.map_map]
  generalize rv.rays = l at h hflux
  induction l with
  | nil => simp
  | cons ray l ih =>
    have h1 := litOne_split hc (hflux ray (by simp)) (h ray (by simp))
    have h2 := ih (fun x hx => h x (by simp [hx])) (fun x hx => hflux x (by simp [hx]))
    simp only [List.map_cons, List.sum_cons, Function.comp_apply] at h2 ⊢
    linarith

/-- C128 fails at total reflection, for every coating: nothing passes, and of the light only the fraction that the coating reflects is
kept. -/
theorem C128_total_reflection_violated {s : Surface Dbl} {ct : CoordTransform Dbl} {m2 : Medium Dbl} {niter : ℕ} {ray : Ray Dbl} {v n : V3 ℝ}
    {n2 R f : ℝ} (h : Reaching s ct m2 niter ray v n n2) (hs : 1 < snellSin2 n2 n v) (c : Coating Dbl) (hvg : ray.vignetted = false)
    (hf : ray.flux = .fin f) (hR : c.getReflect ray.wavelength (Dbl.fin (-|cosBetween v n|)) = .fin R) :
    litOne (Ray.rSplit s ct m2 c niter ray).1 = 0 ∧ litOne (Ray.rSplit s ct m2 c niter ray).2 = R * litOne ray := by
  obtain ⟨h2, -, -, h1⟩ := rSplit_side h c
  obtain ⟨r, dt, hit⟩ := h.hit
  obtain ⟨f2, -, -⟩ := C128_angle_split hit h.moving m2 c
  rw [hR, hf, Dbl.mul_fin] at f2
  constructor
  · simp [litOne, h1 hs]
  · simp only [litOne, h2, hvg, Bool.false_eq_true, if_false, f2, hf, val]; ring

theorem demo_speed_glass : speed ⟨8 / 15, 0, -6 / 15⟩ = 2 / 3 := by
  have : V3.dot (⟨8 / 15, 0, -6 / 15⟩ : V3 ℝ) ⟨8 / 15, 0, -6 / 15⟩ = 2 / 3 * (2 / 3) := by simp [V3.dot]; norm_num
  rw [speed, this]; exact Real.sqrt_mul_self (by norm_num)

theorem halfMirror_lossless : Lossless (Coating.simple (Dbl.fin (1 / 2)) (Dbl.fin (1 / 2))) :=
  fun _ _ => ⟨1 / 2, 1 / 2, rfl, rfl, by norm_num⟩

/-- A ray from air into glass: half is reflected, half passes. -/
example : lit (RayVec.rSplit ⟨[demoRay ⟨3 / 5, 0, -4 / 5⟩], (CoordSys.std ℝ).fin⟩ Surface.plane (Medium.const (Dbl.fin 1))
      (Medium.const (Dbl.fin (3 / 2))) (Coating.simple (Dbl.fin (1 / 2)) (Dbl.fin (1 / 2))) none 5).1.rays +
    lit (RayVec.rSplit ⟨[demoRay ⟨3 / 5, 0, -4 / 5⟩], (CoordSys.std ℝ).fin⟩ Surface.plane (Medium.const (Dbl.fin 1))
      (Medium.const (Dbl.fin (3 / 2))) (Coating.simple (Dbl.fin (1 / 2)) (Dbl.fin (1 / 2))) none 5).2.rays = 1 := by
  rw [C128_split_partial _ _ _ _ _ _ _ halfMirror_lossless]
  · simp [lit, litOne, demoRay, val]
  · intro ray hray
    simp only [List.mem_singleton] at hray
    subst hray
    exact ⟨1, rfl⟩
  · intro ray hray
    simp only [List.mem_singleton] at hray
    subst hray
    refine Or.inr ⟨⟨3 / 5, 0, -4 / 5⟩, ⟨0, 0, 1⟩, 3 / 2, ⟨⟨_, _, demo_hit (by norm_num)⟩, by simp, demo_unit, by norm_num, rfl⟩, ?_⟩
    rw [snellSin2, demo_speed]
    simp [V3.normSq, V3.dot]; norm_num

/-- A ray in glass beyond the critical angle: no light passes, and half of it is gone. -/
theorem C128_half_lost_violated : ∃ (c : Coating Dbl) (s : Surface Dbl) (ct : CoordTransform Dbl) (m2 : Medium Dbl) (ray : Ray Dbl),
    Lossless c ∧ litOne ray = 1 ∧
    litOne (Ray.rSplit s ct m2 c 5 ray).1 + litOne (Ray.rSplit s ct m2 c 5 ray).2 = 1 / 2 := by
  refine ⟨Coating.simple (Dbl.fin (1 / 2)) (Dbl.fin (1 / 2)), Surface.plane,
    CoordTransform.make (CoordSys.std ℝ).fin (CoordSys.std ℝ).fin, Medium.const (Dbl.fin 1), demoRay ⟨8 / 15, 0, -6 / 15⟩,
    halfMirror_lossless, by simp [litOne, demoRay, val], ?_⟩
  obtain ⟨h1, h2⟩ := C128_total_reflection_violated (n2 := 1) (R := 1 / 2) (f := 1)
    (m2 := Medium.const (Dbl.fin 1)) (v := ⟨8 / 15, 0, -6 / 15⟩) (n := ⟨0, 0, 1⟩)
    ⟨⟨_, _, demo_hit (v := ⟨8 / 15, 0, -6 / 15⟩) (by norm_num)⟩, by simp, demo_unit, by norm_num, rfl⟩ (by
      rw [snellSin2, demo_speed_glass]
      simp [V3.normSq, V3.dot]; norm_num) (Coating.simple (Dbl.fin (1 / 2)) (Dbl.fin (1 / 2))) rfl rfl rfl
  rw [h1, h2]
  simp [litOne, demoRay, val]

end Batoid.Props
