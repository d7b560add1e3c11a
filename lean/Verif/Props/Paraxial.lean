import Verif.Props.Etendue

/-!
# Property C109: Gaussian optics

An optic whose interfaces are centred on the axis.  Along a smooth beam around the axis let the ray change its place across the axis at the rate `x` and its optical direction
(velocity over squared speed) at the rate `p`.  Then `trace` acts on `(x, p)` like the formulas of Gauss: between vertices `x` grows by `p` times the distance over the index, at a
vertex `p` falls by `x` times curvature times the change of the index; the index is counted negative for light that goes down.
-/

namespace Batoid.Props
open Batoid Batoid.Surface Filter Topology

/-! ## Specification -/

/-- What Gauss' formulas need of an interface: the place `z` of the vertex, the curvature `κ` there, the signed index `N` of refraction behind. -/
structure Station where
  z : ℝ
  κ : ℝ
  N : ℝ

/-- Gauss' formulas for light that comes from height `z` with signed index `N`. -/
noncomputable def gauss : List Station → ℝ → ℝ → ℝ × ℝ → ℝ × ℝ
  | [], _, _, r => r
  | s :: ss, z, N, r => gauss ss s.z s.N (r.1 + (s.z - z) / N * r.2, r.2 - (s.N - N) * s.κ * (r.1 + (s.z - z) / N * r.2))

/-- The surface has the curvature `κ` at its vertex, and light that comes along the axis from the height `h` meets it there. -/
inductive Vertex : Surface Dbl → ℝ → ℝ → Prop
  | plane {h : ℝ} : Vertex plane 0 h
  | paraboloid {R h : ℝ} (hR : R ≠ 0) (off : h ≠ 0) : Vertex (paraboloid (.fin R)) (1 / R) h
  | sphere {R h : ℝ} (hR : R ≠ 0) (off : h ≠ 0) (off' : h ≠ 2 * R) : Vertex (sphere (.fin R)) (1 / R) h
  | quadric {R k h : ℝ} (hR : R ≠ 0) (hk : k + 1 ≠ 0) (off : h ≠ 0) (off' : (k + 1) * h ≠ 2 * R) : Vertex (quadric (.fin R) (.fin k)) (1 / R) h

/-- The surface goes through the origin of its frame, and near it the reported normals are those of a surface with curvature `κ` there. -/
def CurvedIface (s : Surface Dbl) (κ : ℝ) : Prop :=
  ∃ f gx gy, SmoothAt s f gx gy (0, 0) ∧ f (0, 0) = 0 ∧ gx (0, 0) = 0 ∧ gy (0, 0) = 0 ∧ (∀ q, fderiv ℝ gx (0, 0) q = κ * q.1) ∧ ∀ q, fderiv ℝ gy (0, 0) q = κ * q.2

/-- The signed index of refraction before and behind an interface. -/
inductive Index (w : Dbl) (d : Iface Dbl) : ℝ → ℝ → Prop
  | straight {N : ℝ} (hk : d.kind = .plain ∨ d.kind = .detector ∨ d.kind = .baffle) : Index w d N N
  | mirror {N : ℝ} (hk : d.kind = .mirror) : Index w d N (-N)
  | lens {σ n1 n2 : ℝ} (hk : d.kind = .refractive) (h1 : d.inMedium.getN w = .fin n1) (h2 : d.outMedium.getN w = .fin n2) (p1 : 0 < n1) (p2 : 0 < n2)
      (hσ : σ * σ = 1) : Index w d (σ * n1) (σ * n2)

/-- Interfaces centred on the axis, for light of wavelength `w` from height `z` with signed index `N`. -/
inductive CentredIface (w : Dbl) : List (Iface Dbl) → ℝ → ℝ → List Station → Prop
  | nil {z N : ℝ} : CentredIface w [] z N []
  | cons {d : Iface Dbl} {ds : List (Iface Dbl)} {z N : ℝ} {s : Station} {ss : List Station}
      (frame : d.coordSys = (CoordSys.mk ⟨0, 0, s.z⟩ M3.one).fin) (vertex : Vertex d.surface s.κ (z - s.z)) (index : Index w d N s.N)
      (rest : CentredIface w ds s.z s.N ss) : CentredIface w (d :: ds) z N (s :: ss)

/-- The same for surfaces of which only the vertex is known. -/
inductive Coaxial (w : Dbl) : List (Iface Dbl) → ℝ → ℝ → List Station → Prop
  | nil {z N : ℝ} : Coaxial w [] z N []
  | cons {d : Iface Dbl} {ds : List (Iface Dbl)} {z N : ℝ} {s : Station} {ss : List Station}
      (frame : d.coordSys = (CoordSys.mk ⟨0, 0, s.z⟩ M3.one).fin) (curved : CurvedIface d.surface s.κ) (index : Index w d N s.N)
      (rest : Coaxial w ds s.z s.N ss) : Coaxial w (d :: ds) z N (s :: ss)

/-- Where the light is after the last interface. -/
def lastZ (z : ℝ) : List Station → ℝ
  | [] => z
  | s :: ss => lastZ s.z ss

/-- The signed index behind the last interface. -/
def lastN (N : ℝ) : List Station → ℝ
  | [] => N
  | s :: ss => lastN s.N ss

/-! ## The vertex of a surface -/

theorem curved_radial {s : Surface Dbl} {D : Set (ℝ × ℝ)} (hD : IsOpen D) {h d : ℝ → ℝ}
    (hsag : ∀ x y, (x, y) ∈ D → s.sag (.fin x) (.fin y) = .fin (h (x * x + y * y)))
    (hn : ∀ x y, (x, y) ∈ D → s.normal (.fin x) (.fin y) = (unitNormal (2 * x * d (x * x + y * y)) (2 * y * d (x * x + y * y))).fin)
    (hq : ((0 : ℝ), (0 : ℝ)) ∈ D) (h0 : h 0 = 0) (hd : HasDerivAt h (d 0) 0) (hdd : DifferentiableAt ℝ d 0) : CurvedIface s (2 * d 0) := by
  have e : (0 : ℝ) * 0 + 0 * 0 = 0 := by ring
  refine ⟨_, _, _, smooth_radial hD hsag hn hq (by rw [e]; exact hd) (by rw [e]; exact hdd), by simpa using h0, by simp, by simp, fun q => ?_, fun q => ?_⟩
  all_goals
    have hc : DifferentiableAt ℝ (fun p : ℝ × ℝ => d (p.1 * p.1 + p.2 * p.2)) (0, 0) :=
      DifferentiableAt.comp ((0 : ℝ), (0 : ℝ)) (g := d) (by simpa using hdd) (by fun_prop)
  · have h1 : HasFDerivAt (fun p : ℝ × ℝ => 2 * p.1) ((2 : ℝ) • ContinuousLinearMap.fst ℝ ℝ ℝ) (0, 0) := hasFDerivAt_fst.const_mul 2
    have h2 := h1.mul hc.hasFDerivAt
    refine (congrArg (fun L : ℝ × ℝ →L[ℝ] ℝ => L q) h2.fderiv).trans ?_
    simp; ring
  · have h1 : HasFDerivAt (fun p : ℝ × ℝ => 2 * p.2) ((2 : ℝ) • ContinuousLinearMap.snd ℝ ℝ ℝ) (0, 0) := hasFDerivAt_snd.const_mul 2
    have h2 := h1.mul hc.hasFDerivAt
    refine (congrArg (fun L : ℝ × ℝ →L[ℝ] ℝ => L q) h2.fderiv).trans ?_
    simp; ring

/-- C109: the surfaces have the curvature that belongs to their radius. -/
theorem C109_vertex {s : Surface Dbl} {κ h : ℝ} (hv : Vertex s κ h) : CurvedIface s κ := by
  cases hv with
  | plane =>
    have := curved_radial (s := plane (F := Dbl)) isOpen_univ (h := fun _ => 0) (d := fun _ => 0) (fun x y _ => by simp [plane, Dbl.zero_dbl])
      (fun x y _ => by rw [mul_zero, mul_zero, unitNormal_zero]; rfl) (Set.mem_univ _) rfl (hasDerivAt_const _ _) (differentiableAt_const _)
    simpa using this
  | @paraboloid R _ hR =>
    have := curved_radial (s := paraboloid (Dbl.fin R)) isOpen_univ (h := fun p => p * (1 / 2 / R)) (d := fun _ => 1 / 2 / R) (fun x y _ => paraboloidSag_fin hR x y)
      (fun x y _ => paraboloidNormal_fin hR x y) (Set.mem_univ _) (by simp) (by simpa using (hasDerivAt_id (0 : ℝ)).mul_const (1 / 2 / R)) (differentiableAt_const _)
    rwa [show 2 * (1 / 2 / R) = 1 / R by ring] at this
  | @sphere R _ hR =>
    have hq : (0 : ℝ) * 0 + 0 * 0 < R * R := by simpa using mul_self_pos.2 hR
    have hp : 0 < 1 - (0 : ℝ) * (1 / R / R) := by simp
    have hop : IsOpen {p : ℝ × ℝ | p.1 * p.1 + p.2 * p.2 < R * R} := by simpa using isOpen_radial 1 (R * R)
    have := curved_radial (s := sphere (Dbl.fin R)) hop (h := fun p => R * (1 - Real.sqrt (1 - p * (1 / R / R))))
      (d := fun p => 1 / (2 * R * Real.sqrt (1 - p * (1 / R / R)))) (fun x y h => sphereSag_fin hR (le_of_lt h)) (fun x y h => sphereNormal_fin hR h) hq (by simp)
      (sphere_deriv hR hp) (root_differentiable hR hp)
    rwa [show 2 * (1 / (2 * R * Real.sqrt (1 - 0 * (1 / R / R)))) = 1 / R by rw [zero_mul, sub_zero, Real.sqrt_one]; ring] at this
  | @quadric R k _ hR =>
    have hq : ((0 : ℝ), (0 : ℝ)) ∈ quadricDomain R k := by simpa [quadricDomain] using mul_self_pos.2 hR
    have hp : 0 < 1 - (0 : ℝ) * ((k + 1) / R / R) := by simp
    have := curved_radial (s := quadric (Dbl.fin R) (Dbl.fin k)) (quadricDomain_open R k) (h := conicSag R k)
      (d := fun p => 1 / (2 * R * Real.sqrt (1 - p * ((k + 1) / R / R)))) (fun x y h => quadricSag_fin hR (quadric_root_pos hR h).le)
      (fun x y h => radialNormal_fin (quadricDzdr_at hR h)) hq (by simp [conicSag]) (conic_deriv hR hp) (root_differentiable hR hp)
    rwa [show 2 * (1 / (2 * R * Real.sqrt (1 - 0 * ((k + 1) / R / R)))) = 1 / R by rw [zero_mul, sub_zero, Real.sqrt_one]; ring] at this

/-- C109: an `Asphere` has the curvature of its radius and twice its coefficient of `r²`, whatever its other coefficients. -/
theorem C109_asphere {R k : ℝ} (hR : R ≠ 0) (cs : List ℝ) : CurvedIface (asphere (Dbl.fin R) (Dbl.fin k) (cs.map Dbl.fin)) (1 / R + 2 * cs.headD 0) := by
  have hq : ((0 : ℝ), (0 : ℝ)) ∈ quadricDomain R k := by simpa [quadricDomain] using mul_self_pos.2 hR
  have hp : 0 < 1 - (0 : ℝ) * ((k + 1) / R / R) := by simp
  have h0 : ∀ (cs : List ℝ) (i : ℕ), i ≠ 0 → evenPoly i cs 0 = 0 := by
    intro cs
    induction cs with
    | nil => intro i _; rfl
    | cons c cs ih => intro i hi; simp [evenPoly, hi, ih (i + 1)]
  have h2 : ∀ (cs : List ℝ) (i : ℕ), 2 ≤ i → evenPolyDeriv i cs 0 = 0 := by
    intro cs
    induction cs with
    | nil => intro i _; rfl
    | cons c cs ih => intro i hi; rw [evenPolyDeriv, ih (i + 1) (by omega), zero_pow (by omega)]; ring
  have h1 : evenPolyDeriv 1 cs 0 = cs.headD 0 := by
    cases cs with
    | nil => rfl
    | cons c cs => simp [evenPolyDeriv, h2 cs 2 le_rfl]
  have := curved_radial (s := asphere (Dbl.fin R) (Dbl.fin k) (cs.map Dbl.fin)) (quadricDomain_open R k) (h := fun p => conicSag R k p + evenPoly 1 cs p)
    (d := fun p => 1 / (2 * R * Real.sqrt (1 - p * ((k + 1) / R / R))) + evenPolyDeriv 1 cs p)
    (fun x y h => asphereSag_fin cs hR (quadric_root_pos hR h).le) (fun x y h => radialNormal_fin (asphereDzdr_at cs hR h)) hq
    (by simp [conicSag, h0 cs 1 one_ne_zero]) ((conic_deriv hR hp).add (evenPoly_deriv cs 1 _)) ((root_differentiable hR hp).add (evenPolyDeriv_differentiable cs 1 _))
  rwa [show 2 * (1 / (2 * R * Real.sqrt (1 - 0 * ((k + 1) / R / R))) + evenPolyDeriv 1 cs 0) = 1 / R + 2 * cs.headD 0 by
    rw [zero_mul, sub_zero, Real.sqrt_one, h1]; ring] at this

/-! ## The ray along the axis -/

theorem index_ne {w : Dbl} {d : Iface Dbl} {N N' : ℝ} (h : Index w d N N') (hN : N ≠ 0) : N' ≠ 0 := by
  cases h with
  | straight => exact hN
  | mirror => exact neg_ne_zero.2 hN
  | @lens σ n1 n2 _ _ _ p1 p2 hσ =>
    refine mul_ne_zero ?_ p2.ne'
    rintro rfl; norm_num at hσ

theorem axis_point (h N t : ℝ) : pointAt ⟨0, 0, h⟩ ⟨0, 0, 1 / N⟩ t = ⟨0, 0, h + t * (1 / N)⟩ := by ext <;> simp [pointAt]

/-- The ray along the axis meets the surface at the vertex, cleanly. -/
theorem axis_clean {s : Surface Dbl} {κ h N : ℝ} (hv : Vertex s κ h) (hN : N ≠ 0) :
    Clean s ⟨0, 0, h⟩ ⟨0, 0, 1 / N⟩ (-h * N) ∧ ∀ dt niter, s.timeToIntersect (⟨0, 0, h⟩ : V3 ℝ).fin (⟨0, 0, 1 / N⟩ : V3 ℝ).fin dt niter = (true, .fin (-h * N)) := by
  have e0 : h + -h * N * (1 / N) = 0 := by field_simp; ring
  have hinj : ∀ t, t ≠ -h * N → h + t * (1 / N) ≠ 0 := fun t ht h0 => ht (by field_simp at h0; linarith)
  have hNi : (1 : ℝ) / N ≠ 0 := one_div_ne_zero hN
  cases hv with
  | plane =>
    refine ⟨.plane, fun dt niter => C96_plane ⟨by rw [axis_point, e0]; rfl, fun t h1 h2 => ?_⟩⟩
    rw [axis_point] at h1
    exact absurd h1 (hinj t h2)
  | @paraboloid R _ hR off =>
    have hoff : ¬ OnParaboloid R ⟨0, 0, h⟩ := by simp [OnParaboloid, hR, off]
    have hnear : Nearest (OnParaboloid R) (towards R) ⟨0, 0, h⟩ ⟨0, 0, 1 / N⟩ (-h * N) := by
      refine ⟨by rw [axis_point, e0]; simp [OnParaboloid], fun t h1 h2 => ?_⟩
      rw [axis_point] at h1
      simp only [OnParaboloid] at h1
      have : 2 * R * (h + t * (1 / N)) = 0 := by rw [h1]; ring
      exact absurd ((mul_eq_zero.1 this).resolve_left (by simpa using hR)) (hinj t h2)
    exact ⟨.paraboloid hR hoff hnear, fun dt niter => C96_paraboloid hR hnear fun h0 => absurd h0 hoff⟩
  | @sphere R _ hR off off' =>
    have hoff : ¬ OnSphere R ⟨0, 0, h⟩ := by
      simp only [OnSphere]
      intro h0
      have : h * (h - 2 * R) = 0 := by linear_combination h0
      rcases mul_eq_zero.1 this with h1 | h1
      · exact off h1
      · exact off' (by linarith)
    have hnear : Nearest (OnSphere R) (towards R) ⟨0, 0, h⟩ ⟨0, 0, 1 / N⟩ (-h * N) := by
      refine ⟨by rw [axis_point, e0]; simp [OnSphere], fun t h1 h2 => ?_⟩
      rw [axis_point] at h1
      rw [axis_point, axis_point, e0]
      have h3 := hinj t h2
      simp only [OnSphere] at h1
      have h4 : (h + t * (1 / N)) * (h + t * (1 / N) - 2 * R) = 0 := by linear_combination h1
      have h5 := (mul_eq_zero.1 h4).resolve_left h3
      simp only [towards]
      nlinarith [mul_self_pos.2 hR]
    refine ⟨.sphere hR hoff hnear ?_, fun dt niter => C96_sphere hnear fun h0 => absurd h0 hoff⟩
    rw [axis_point, e0]; simpa using mul_self_pos.2 hR
  | @quadric R k _ hR hk off off' =>
    have hoff : ¬ OnQuadric R k ⟨0, 0, h⟩ := by
      simp only [OnQuadric]
      intro h0
      have : h * ((k + 1) * h - 2 * R) = 0 := by linear_combination h0
      rcases mul_eq_zero.1 this with h1 | h1
      · exact off h1
      · exact off' (by linarith)
    have hnear : Nearest (OnQuadric R k) offPlane ⟨0, 0, h⟩ ⟨0, 0, 1 / N⟩ (-h * N) := by
      refine ⟨by rw [axis_point, e0]; simp [OnQuadric], fun t h1 h2 => ?_⟩
      rw [axis_point, axis_point, e0]
      simpa [offPlane] using hinj t h2
    have hob : (0 : ℝ) ^ 2 + 0 ^ 2 + (k + 1) * (1 / N) ^ 2 ≠ 0 := by
      rw [zero_pow two_ne_zero, zero_add, zero_add]; exact mul_ne_zero hk (pow_ne_zero 2 hNi)
    refine ⟨.quadric hR hk hoff hnear hob ?_, fun dt niter => C96_quadric hk hob hnear fun h0 => absurd h0 hoff⟩
    rw [axis_point, e0]; simpa using mul_self_pos.2 hR

theorem axis_turns {w : Dbl} {d : Iface Dbl} {N N' : ℝ} (h : Index w d N N') : Turns d w ⟨0, 0, 1⟩ ⟨0, 0, 1 / N⟩ ⟨0, 0, 1 / N'⟩ := by
  cases h with
  | straight hk => exact .straight hk rfl
  | mirror hk =>
    refine .mirror hk ?_ ?_
    · ext <;> simp [tangential, V3.dot]
    · simp only [V3.dot]; ring
  | @lens σ n1 n2 hk h1 h2 p1 p2 hσ =>
    have hs : σ ≠ 0 := by rintro rfl; norm_num at hσ
    have hn1 := p1.ne'; have hn2 := p2.ne'
    have e1 : σ ^ 2 = 1 := by rw [pow_two]; exact hσ
    refine .lens hk h1 h2 ⟨p1, p2, ?_, ?_, ?_, ?_⟩
    · simp only [V3.dot]; field_simp; linarith
    · simp only [V3.dot]; field_simp; linarith
    · ext <;> simp
    · have : V3.dot (⟨0, 0, 1 / (σ * n1)⟩ : V3 ℝ) ⟨0, 0, 1⟩ * V3.dot (⟨0, 0, 1 / (σ * n2)⟩ : V3 ℝ) ⟨0, 0, 1⟩ = 1 / (n1 * n2) := by
        simp only [V3.dot]; field_simp; linarith
      rw [this]; positivity

theorem curved_normal {s : Surface Dbl} {κ : ℝ} (h : CurvedIface s κ) : s.normal (.fin 0) (.fin 0) = (⟨0, 0, 1⟩ : V3 ℝ).fin := by
  obtain ⟨f, gx, gy, h1, -, h2, h3, -⟩ := h
  have := h1.normal.self_of_nhds
  rw [h2, h3, unitNormal_zero] at this
  rw [this]
  apply V3.ext <;> simp

/-- The ray along the axis at one interface. -/
theorem axis_meeting {w : Dbl} {d : Iface Dbl} {z κ z1 N N' : ℝ} (niter : ℕ) (frame : d.coordSys = (CoordSys.mk ⟨0, 0, z1⟩ M3.one).fin)
    (vertex : Vertex d.surface κ (z - z1)) (index : Index w d N N') (hN : N ≠ 0) :
    Meeting niter w d ⟨⟨0, 0, z1⟩, M3.one⟩ ⟨0, 0, 1⟩ ⟨0, 0, z⟩ ⟨0, 0, 1 / N⟩ (-(z - z1) * N) ⟨0, 0, 1 / N'⟩ where
  frame := frame
  orth := M3.orth_one
  meets := by
    simp only [frame_toLocal, frame_tr]
    exact (axis_clean vertex hN).2 _ _
  normal := by
    simp only [frame_toLocal, V3.add_x, V3.add_y, V3.smulR_x, V3.smulR_y, zero_mul, add_zero]
    exact curved_normal (C109_vertex vertex)
  unit := by simp [IsUnit', V3.dot]
  turns := by
    simp only [frame_tr]
    exact axis_turns index

/-! ## C109 -/

/-- What is known of a beam that went through an optic to `Q` and `W`. -/
structure Paraxial (a0 z N : ℝ) (Q W : ℝ → V3 ℝ) (rx ry : ℝ × ℝ) : Prop where
  place : Q a0 = ⟨0, 0, z⟩
  velocity : W a0 = ⟨0, 0, 1 / N⟩
  rates : ∃ Q' W', Slender Q W Q' W' (1 / N ^ 2) a0 ∧ (Q'.x, W'.x * N ^ 2) = rx ∧ (Q'.y, W'.y * N ^ 2) = ry

theorem frame_injective {c c' : CoordSys ℝ} (h : c.fin = c'.fin) : c = c' := by
  obtain ⟨o, m⟩ := c
  obtain ⟨o', m'⟩ := c'
  have h1 := congrArg CoordSys.origin h
  have h2 := congrArg CoordSys.rot h
  simp only [CoordSys.fin, V3.fin_inj] at h1
  have e : m = m' := by
    obtain ⟨⟩ := m
    obtain ⟨⟩ := m'
    simpa [CoordSys.fin, M3.fin, M3.map] using h2
  rw [h1, e]

/-- One beam at one interface. -/
theorem paraxial_kick {niter : ℕ} {w : Dbl} {d : Iface Dbl} {z N a0 : ℝ} {s : Station} {n P V U : ℝ → V3 ℝ} {τ : ℝ → ℝ} {rx ry : ℝ × ℝ}
    (curved : CurvedIface d.surface s.κ) (index : Index w d N s.N) (hN : N ≠ 0)
    (meets : ∀ᶠ b in 𝓝 a0, Meeting niter w d ⟨⟨0, 0, s.z⟩, M3.one⟩ (n b) (P b) (V b) (τ b) (U b))
    (on : ∀ᶠ b in 𝓝 a0, d.surface.sag (.fin ((CoordSys.mk ⟨0, 0, s.z⟩ M3.one).toLocal (P b + (V b).smulR (τ b))).x)
      (.fin ((CoordSys.mk ⟨0, 0, s.z⟩ M3.one).toLocal (P b + (V b).smulR (τ b))).y) = .fin ((CoordSys.mk ⟨0, 0, s.z⟩ M3.one).toLocal (P b + (V b).smulR (τ b))).z)
    (cont : ContinuousAt τ a0) (h : Paraxial a0 z N P V rx ry) :
    Paraxial a0 s.z s.N (fun b => P b + (V b).smulR (τ b)) U
      (rx.1 + (s.z - z) / N * rx.2, rx.2 - (s.N - N) * s.κ * (rx.1 + (s.z - z) / N * rx.2))
      (ry.1 + (s.z - z) / N * ry.2, ry.2 - (s.N - N) * s.κ * (ry.1 + (s.z - z) / N * ry.2)) := by
  obtain ⟨hP, hV, P', V', hs, rfl, rfl⟩ := h
  have hN' := index_ne index hN
  have hnormal := curved_normal curved
  obtain ⟨f, gx, gy, smooth, f0, gx0, gy0, hx, hy⟩ := curved
  have h4 : τ a0 = -(z - s.z) * N := by
    have h0 := on.self_of_nhds
    simp only [hP, hV, frame_toLocal, V3.add_x, V3.add_y, V3.add_z, V3.smulR_x, V3.smulR_y, V3.smulR_z, zero_mul, add_zero] at h0
    have h1 := smooth.sag.self_of_nhds
    rw [f0] at h1
    have h2 := h1.symm.trans h0
    rw [Dbl.fin_inj] at h2
    field_simp at h2
    linarith
  have hQ : P a0 + (V a0).smulR (τ a0) = ⟨0, 0, s.z⟩ := by
    rw [hP, hV, h4]
    ext
    · simp
    · simp
    · simp; field_simp; ring
  have hl : (CoordSys.mk ⟨0, 0, s.z⟩ M3.one).toLocal (P a0 + (V a0).smulR (τ a0)) = ⟨0, 0, 0⟩ := by rw [hQ, frame_toLocal]; simp
  have m0 := meets.self_of_nhds
  have h5 : n a0 = ⟨0, 0, 1⟩ := by
    have := m0.normal
    rw [hl, hnormal, V3.fin_inj] at this
    exact this.symm
  have h6 : U a0 = ⟨0, 0, 1 / s.N⟩ := by
    have h1 := m0.turns
    have h2 := m0.unit
    simp only [frame_tr, hV, h5] at h1 h2
    exact Turns.unique h2 h1 (axis_turns index)
  obtain ⟨dt', U', k', hdt, hs', kick⟩ := kick_global (f := f) (gx := gx) (gy := gy) meets (by rw [hl]; exact smooth) on cont
    (by rw [h5, frame_tr, hV]; simpa [V3.dot] using hN) hs
  have hk : k' = 1 / s.N ^ 2 := by
    rw [← hs'.speed.self_of_nhds, h6]; simp [V3.dot]; field_simp
  subst hk
  refine ⟨hQ, h6, _, U', hs', ?_, ?_⟩
  · have e := kick.x
    rw [hl] at e
    simp only [frame_tr, gx0, hx, hV, h6, h4] at e
    simp only [V3.add_x, V3.smulR_x, zero_mul, add_zero, hV, h4] at e ⊢
    have e1 : P'.x + V'.x * (-(z - s.z) * N) = P'.x + (s.z - z) / N * (V'.x * N ^ 2) := by field_simp; ring
    rw [e1] at e ⊢
    rw [Prod.mk.injEq]
    refine ⟨rfl, ?_⟩
    generalize P'.x + (s.z - z) / N * (V'.x * N ^ 2) = x1 at e ⊢
    field_simp at e ⊢
    linear_combination e
  · have e := kick.y
    rw [hl] at e
    simp only [frame_tr, gy0, hy, hV, h6, h4] at e
    simp only [V3.add_y, V3.smulR_y, zero_mul, add_zero, hV, h4] at e ⊢
    have e1 : P'.y + V'.y * (-(z - s.z) * N) = P'.y + (s.z - z) / N * (V'.y * N ^ 2) := by field_simp; ring
    rw [e1] at e ⊢
    rw [Prod.mk.injEq]
    refine ⟨rfl, ?_⟩
    generalize P'.y + (s.z - z) / N * (V'.y * N ^ 2) = x1 at e ⊢
    field_simp at e ⊢
    linear_combination e

theorem paraxial_step {niter : ℕ} {w : Dbl} {d : Iface Dbl} {z N a0 : ℝ} {s : Station} {P V : ℝ → V3 ℝ} {rx ry : ℝ × ℝ}
    (frame : d.coordSys = (CoordSys.mk ⟨0, 0, s.z⟩ M3.one).fin) (vertex : Vertex d.surface s.κ (z - s.z)) (index : Index w d N s.N) (hN : N ≠ 0)
    (h : Paraxial a0 z N P V rx ry) :
    ∃ (n U : ℝ → V3 ℝ) (τ : ℝ → ℝ), (∀ᶠ b in 𝓝 a0, Meeting niter w d ⟨⟨0, 0, s.z⟩, M3.one⟩ (n b) (P b) (V b) (τ b) (U b)) ∧
      Paraxial a0 s.z s.N (fun b => P b + (V b).smulR (τ b)) U
        (rx.1 + (s.z - z) / N * rx.2, rx.2 - (s.N - N) * s.κ * (rx.1 + (s.z - z) / N * rx.2))
        (ry.1 + (s.z - z) / N * ry.2, ry.2 - (s.N - N) * s.κ * (ry.1 + (s.z - z) / N * ry.2)) := by
  have hP := h.place
  have hV := h.velocity
  obtain ⟨P', V', hs, -, -⟩ := h.rates
  have meets := axis_meeting niter frame vertex index hN
  rw [← hP, ← hV] at meets
  have clean := (axis_clean vertex hN).1
  obtain ⟨n, U, τ, h1, h2, h3, -, -, -⟩ := chief_step meets (by rw [frame_toLocal, frame_tr, hP, hV]; exact clean)
    (by rw [frame_tr, hV]; simpa [V3.dot] using hN) hs
  exact ⟨n, U, τ, h1, paraxial_kick (C109_vertex vertex) index hN h1 h2 h3 h⟩

theorem paraxial_course {niter : ℕ} {w : Dbl} {ds : List (Iface Dbl)} {z N : ℝ} {ss : List Station} (hc : CentredIface w ds z N ss) :
    N ≠ 0 → ∀ {a0 : ℝ} {P V : ℝ → V3 ℝ} {rx ry : ℝ × ℝ}, Paraxial a0 z N P V rx ry →
      ∃ Q W, (∀ᶠ a in 𝓝 a0, ∀ (rv : RayVec Dbl) (i : ℕ) (t : ℝ) (b : Bool), LightAt rv i (P a) (V a) t w b →
          ∃ t' b', LightAt (ds.foldl (fun rv d => d.trace niter false rv) rv) i (Q a) (W a) t' w b') ∧
        Paraxial a0 (lastZ z ss) (lastN N ss) Q W (gauss ss z N rx) (gauss ss z N ry) := by
  induction hc with
  | nil => intro _ a0 P V rx ry h; exact ⟨P, V, Eventually.of_forall fun a rv i t b h => ⟨t, b, h⟩, h⟩
  | cons frame vertex index _ ih =>
    intro hN a0 P V rx ry h
    obtain ⟨n, U, τ, h1, h2⟩ := paraxial_step (niter := niter) frame vertex index hN h
    obtain ⟨Q, W, h3, h4⟩ := ih (index_ne index hN) h2
    refine ⟨Q, W, ?_, h4⟩
    filter_upwards [h1, h3] with a g1 g2 rv i t b hin
    exact g2 _ i _ _ (cross_forward g1 hin)

/-- C109: Gaussian optics.  A smooth beam around the axis, from height `z` with signed index `N`, goes through a centred optic.  The beam that `trace` returns is smooth around the axis at
the last vertex, with the signed index behind it, and the rates at which its rays change across the axis are those of Gauss' formulas. -/
theorem C109_gauss {o : Optic Dbl} {niter : ℕ} {w : Dbl} {z N a0 : ℝ} {ss : List Station} (hc : CentredIface w (visits o) z N ss) (hN : N ≠ 0)
    {P V : ℝ → V3 ℝ} {rx ry : ℝ × ℝ} (h : Paraxial a0 z N P V rx ry) {rv : ℝ → RayVec Dbl} {m : ℕ} {t : ℝ → ℝ} {b : ℝ → Bool}
    (hin : ∀ᶠ a in 𝓝 a0, LightAt (rv a) m (P a) (V a) (t a) w (b a)) :
    ∃ Q W, (∀ᶠ a in 𝓝 a0, ∃ t' b', LightAt (o.trace niter false (rv a)) m (Q a) (W a) t' w b') ∧
      Paraxial a0 (lastZ z ss) (lastN N ss) Q W (gauss ss z N rx) (gauss ss z N ry) := by
  obtain ⟨Q, W, h1, h2⟩ := paraxial_course (niter := niter) hc hN h
  refine ⟨Q, W, ?_, h2⟩
  filter_upwards [h1, hin] with a g1 g2
  rw [trace_visits]
  exact g1 _ m _ _ g2

/-- C109 for every smooth surface, also those met by iteration (aspheres, polynomials, sums): for beams of which it is known that they meet every interface on its surface,
continuously (`Pencil`).  Beams that start by Gauss' formulas end by them. -/
theorem C109_pencil {ι : Type} {niter : ℕ} {w : Dbl} {a0 : ℝ} {Q W : ι → ℝ → V3 ℝ} {ds : List (Iface Dbl)} {P V : ι → ℝ → V3 ℝ}
    (h : Pencil niter w a0 Q W ds P V) : ∀ {z N : ℝ} {ss : List Station}, Coaxial w ds z N ss → N ≠ 0 → ∀ {i : ι} {rx ry : ℝ × ℝ},
      Paraxial a0 z N (P i) (V i) rx ry → Paraxial a0 (lastZ z ss) (lastN N ss) (Q i) (W i) (gauss ss z N rx) (gauss ss z N ry) := by
  induction h with
  | done => intro z N ss hc _ i rx ry hp; cases hc; exact hp
  | @cross d ds c n P V U dt meets regular on cont steep _ ih =>
    intro z N ss hc hN i rx ry hp
    cases hc with
    | @cons _ _ _ _ s ss frame curved index rest =>
      have hcs : c = ⟨⟨0, 0, s.z⟩, M3.one⟩ := frame_injective ((meets i).self_of_nhds.frame.symm.trans frame)
      subst hcs
      exact ih rest (index_ne index hN) (paraxial_kick curved index hN (meets i) (on i) (cont i) hp)

/-- C109: Gauss' formulas are a matrix with determinant 1. -/
theorem C109_matrix (ss : List Station) : ∀ z N : ℝ, ∃ A B C D : ℝ, A * D - B * C = 1 ∧ ∀ r : ℝ × ℝ, gauss ss z N r = (A * r.1 + B * r.2, C * r.1 + D * r.2) := by
  induction ss with
  | nil => intro z N; exact ⟨1, 0, 0, 1, by ring, fun r => by simp [gauss]⟩
  | cons s ss ih =>
    intro z N
    obtain ⟨A, B, C, D, hd, h⟩ := ih s.z s.N
    refine ⟨A - B * ((s.N - N) * s.κ), A * ((s.z - z) / N) + B * (1 - (s.N - N) * s.κ * ((s.z - z) / N)), C - D * ((s.N - N) * s.κ),
      C * ((s.z - z) / N) + D * (1 - (s.N - N) * s.κ * ((s.z - z) / N)), by linear_combination hd, fun r => ?_⟩
    simp only [gauss, h, Prod.mk.injEq]
    constructor <;> ring

/-- C109: the scale of an image.  If a centred optic brings parallel light together in a point (`A = 0`), then light that comes inclined by `p` comes together at the distance `f p` from the
axis, and a parallel beam of half width `x` comes out with the slope `-x / f`: the two definitions of the focal length agree. -/
theorem C109_scale {ss : List Station} {z N : ℝ} (h : (gauss ss z N (1, 0)).1 = 0) :
    ∃ f : ℝ, f ≠ 0 ∧ (∀ x p, (gauss ss z N (x, p)).1 = f * p) ∧ ∀ x, (gauss ss z N (x, 0)).2 = -x / f := by
  obtain ⟨A, B, C, D, hd, hm⟩ := C109_matrix ss z N
  rw [hm] at h
  have hA : A = 0 := by simpa using h
  subst hA
  have hBC : -(B * C) = 1 := by linarith
  have hB : B ≠ 0 := by rintro rfl; norm_num at hBC
  refine ⟨B, hB, fun x p => by simp [hm], fun x => ?_⟩
  rw [hm, eq_div_iff hB]
  simp only [mul_zero, add_zero]
  linear_combination (-x) * hBC

/-- C109: a mirror of radius `R` brings parallel light together at half its radius, and nowhere else. -/
theorem C109_mirror {z z1 z2 N R x : ℝ} (hN : N ≠ 0) (hx : x ≠ 0) (hR : R ≠ 0) :
    (gauss [⟨z1, 1 / R, -N⟩, ⟨z2, 0, -N⟩] z N (x, 0)).1 = 0 ↔ z2 - z1 = R / 2 := by
  simp only [gauss]
  have : x + (z1 - z) / N * 0 + (z2 - z1) / -N * (0 - (-N - N) * (1 / R) * (x + (z1 - z) / N * 0)) = x * (1 - 2 * (z2 - z1) / R) := by field_simp; ring
  rw [this, mul_eq_zero, or_iff_right hx, sub_eq_zero, eq_comm, div_eq_iff hR]
  constructor <;> intro h <;> linarith

/-- C109: the lensmaker's equation.  A lens of index `n` and thickness `d` in vacuum with the curvatures `κ₁` and `κ₂` and the power `φ` brings parallel light together
`(1 - (n - 1) d κ₁ / n) / φ` behind its second vertex, and nowhere else; its focal length is `1 / φ`. -/
theorem C109_lens {z z1 d κ₁ κ₂ n z3 φ x : ℝ} (hn : n ≠ 0) (hx : x ≠ 0) (hφ : φ = (n - 1) * (κ₁ - κ₂ + (n - 1) * d * κ₁ * κ₂ / n)) (h0 : φ ≠ 0) :
    ((gauss [⟨z1, κ₁, n⟩, ⟨z1 + d, κ₂, 1⟩, ⟨z3, 0, 1⟩] z 1 (x, 0)).1 = 0 ↔ z3 - (z1 + d) = (1 - (n - 1) * d * κ₁ / n) / φ) ∧
      (gauss [⟨z1, κ₁, n⟩, ⟨z1 + d, κ₂, 1⟩, ⟨z3, 0, 1⟩] z 1 (x, 0)).2 = -x * φ := by
  have e : φ * n = (n - 1) * ((κ₁ - κ₂) * n + (n - 1) * d * κ₁ * κ₂) := by rw [hφ]; field_simp
  simp only [gauss]
  constructor
  · have : x + (z1 - z) / 1 * 0 + (z1 + d - z1) / n * (0 - (n - 1) * κ₁ * (x + (z1 - z) / 1 * 0)) +
        (z3 - (z1 + d)) / 1 * (0 - (n - 1) * κ₁ * (x + (z1 - z) / 1 * 0) -
          (1 - n) * κ₂ * (x + (z1 - z) / 1 * 0 + (z1 + d - z1) / n * (0 - (n - 1) * κ₁ * (x + (z1 - z) / 1 * 0)))) =
        x * ((1 - (n - 1) * d * κ₁ / n) - (z3 - (z1 + d)) * φ) := by
      rw [hφ]; field_simp; ring
    rw [this, mul_eq_zero, or_iff_right hx, sub_eq_zero, eq_comm, eq_div_iff h0]
  · rw [hφ]; field_simp; ring

/-! ## Concrete cases -/

/-- The faces of a biconvex lens of glass with index 3/2. -/
noncomputable def demoFront : Iface Dbl := { demoWindow with surface := sphere (.fin 10), coordSys := (CoordSys.mk ⟨0, 0, 0⟩ M3.one).fin }
noncomputable def demoBack : Iface Dbl :=
  { demoWindow with surface := sphere (.fin (-10)), coordSys := (CoordSys.mk ⟨0, 0, 1⟩ M3.one).fin, inMedium := ⟨fun _ => Dbl.fin (3 / 2)⟩, outMedium := ⟨fun _ => Dbl.fin 1⟩ }

/-- The lens and a detector in its focus. -/
noncomputable def demoSinglet : Optic Dbl := demoComp "L" [.iface demoFront, .iface demoBack, .iface (demoFlat "D" (639 / 59))]

noncomputable def demoStations : List Station := [⟨0, 1 / 10, 3 / 2⟩, ⟨0 + 1, 1 / -10, 1⟩, ⟨639 / 59, 0, 1⟩]

theorem demoSinglet_centred : CentredIface (.fin 1) (visits demoSinglet) (-5) 1 demoStations := by
  have hv : visits demoSinglet = [demoFront, demoBack, demoFlat "D" (639 / 59)] := by
    simp [demoSinglet, demoComp, visits, visitsItems, Optic.skip, demoFront, demoBack, demoWindow, demoFlat, demoMirror]
  rw [hv]
  refine .cons rfl (.sphere (by norm_num) (by norm_num) (by norm_num)) ?_ (.cons ?_ (.sphere (by norm_num) (by norm_num) (by norm_num)) ?_
    (.cons rfl .plane (.straight ?_) .nil))
  · have := Index.lens (w := .fin 1) (d := demoFront) (σ := 1) (n1 := 1) (n2 := 3 / 2) rfl rfl rfl (by norm_num) (by norm_num) (by norm_num)
    simpa using this
  · show (CoordSys.mk ⟨0, 0, 1⟩ M3.one).fin = (CoordSys.mk ⟨0, 0, 0 + 1⟩ M3.one).fin
    norm_num
  · have := Index.lens (w := .fin 1) (d := demoBack) (σ := 1) (n1 := 3 / 2) (n2 := 1) rfl rfl rfl (by norm_num) (by norm_num) (by norm_num)
    simpa using this
  · exact Or.inr (Or.inl rfl)

/-- One ray parallel to the axis at the distance `a`. -/
noncomputable def demoParallel (a : ℝ) : RayVec Dbl := ⟨[{ demoRay ⟨0, 0, 1⟩ with r := (⟨a, 0, -5⟩ : V3 ℝ).fin }], (CoordSys.std ℝ).fin⟩

/-- Parallel light comes together in the focus of the lens: the place where `trace` returns the ray does not change to first order with the distance from the axis, and
its slope changes at the rate `-59 / 600`, the power of the lens. -/
example : ∃ Q W Q' W', (∀ᶠ a in 𝓝 0, ∃ t' b', LightAt (demoSinglet.trace 5 false (demoParallel a)) 0 (Q a) (W a) t' (.fin 1) b') ∧
    Slender Q W Q' W' 1 0 ∧ Q'.x = 0 ∧ W'.x = -(59 / 600) := by
  have hstd : CoordSys.std ℝ = ⟨⟨0, 0, 0⟩, M3.one⟩ := rfl
  have hin : ∀ a : ℝ, LightAt (demoParallel a) 0 ⟨a, 0, -5⟩ ⟨0, 0, 1⟩ 7 (.fin 1) false := fun a =>
    ⟨CoordSys.std ℝ, _, M3.orth_one, rfl, rfl, by rw [hstd, frame_toLocal]; simp, by rw [hstd, frame_tr]; rfl, rfl, rfl, rfl, rfl⟩
  have hs : Slender (fun a => (⟨a, 0, -5⟩ : V3 ℝ)) (fun _ => ⟨0, 0, 1⟩) ⟨1, 0, 0⟩ ⟨0, 0, 0⟩ (1 / 1 ^ 2) 0 :=
    ⟨⟨hasDerivAt_id' _, hasDerivAt_const _ _, hasDerivAt_const _ _⟩, D3.const _ _, by norm_num, Eventually.of_forall fun a => by simp [V3.dot]⟩
  obtain ⟨Q, W, h1, -, -, Q', W', h2, h3, -⟩ := C109_gauss (niter := 5) demoSinglet_centred one_ne_zero (a0 := 0) (rx := (1, 0)) (ry := (0, 0))
    (P := fun a => ⟨a, 0, -5⟩) (V := fun _ => ⟨0, 0, 1⟩) (rv := demoParallel) (m := 0) (t := fun _ => 7) (b := fun _ => false)
    ⟨rfl, by simp, _, _, hs, by simp, by simp⟩ (Eventually.of_forall hin)
  obtain ⟨hl, hp⟩ := C109_lens (z := -5) (z1 := 0) (d := 1) (κ₁ := 1 / 10) (κ₂ := 1 / -10) (n := 3 / 2) (z3 := 639 / 59) (φ := 59 / 600) (x := 1)
    (by norm_num) one_ne_zero (by norm_num) (by norm_num)
  have g1 := hl.2 (by norm_num)
  rw [Prod.ext_iff] at h3
  refine ⟨Q, W, Q', W', h1, by simpa [demoStations, lastN] using h2, h3.1.trans g1, ?_⟩
  have := h3.2.trans hp
  simpa [demoStations, lastN] using this

/-- A mirror of radius 4 above which light comes down: the focus is 2 above the mirror. -/
example : (gauss [⟨0, 1 / 4, -(-1)⟩, ⟨2, 0, -(-1)⟩] 20 (-1) (3, 0)).1 = 0 := (C109_mirror (by norm_num) (by norm_num) (by norm_num)).2 (by norm_num)

end Batoid.Props
