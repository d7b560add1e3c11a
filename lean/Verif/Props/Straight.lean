import Verif.Props.Skew

/-!
# Property C121: light goes straight where nothing turns it

Baffles, detectors and faces between equal media do not deflect light; flat faces that are parallel turn it as if only the first and the last medium
were there; flat mirrors turn it by their normals alone, so that three perpendicular ones send it back where it came from.

There is no condition on how the rays meet the surfaces: whatever comes out alive and with numbers for coordinates has gone that way.
-/

namespace Batoid.Props
open Batoid Batoid.Surface

/-! ## Specification -/

/-- Ray `i` comes out alive, and its coordinates are numbers. -/
def Alive (rv : RayVec Dbl) (i : ℕ) : Prop :=
  ∃ (ray : Ray Dbl) (r v : V3 ℝ), rv.rays[i]? = some ray ∧ ray.failed = false ∧ ray.r = r.fin ∧ ray.v = v.fin

/-- The interface has a frame. -/
def Framed (d : Iface Dbl) (c : CoordSys ℝ) : Prop := c.rot.Orth ∧ d.coordSys = c.fin

/-- The medium behind the interface for light in the given direction. -/
def behind (d : Iface Dbl) (reverse : Bool) : Medium Dbl := if reverse then d.inMedium else d.outMedium

/-- The interface does not turn light of wavelength `w` and index `n`: it is no lens or mirror, or the medium behind it has the same index. -/
def Clear (w : Dbl) (n : ℝ) (reverse : Bool) (d : Iface Dbl) : Prop :=
  d.kind = .plain ∨ d.kind = .detector ∨ d.kind = .baffle ∨ (d.kind = .refractive ∧ (behind d reverse).getN w = .fin n)

/-- A plane across `e`. -/
def Flat (d : Iface Dbl) (c : CoordSys ℝ) (e : V3 ℝ) : Prop :=
  d.surface = Surface.plane ∧ (c.rot.mulVec ⟨0, 0, 1⟩ = e ∨ c.rot.mulVec ⟨0, 0, 1⟩ = -e)

/-- Interfaces passed by light of wavelength `w` that starts with index `n` and ends with index `m`: each is clear, or a plane across `e` between media. -/
inductive Stack (w : Dbl) (e : V3 ℝ) (reverse : Bool) : ℝ → List (Iface Dbl) → ℝ → Prop
  | nil {n} : Stack w e reverse n [] n
  | clear {n m d ds} (c) (hc : Framed d c) (h : Clear w n reverse d) (hs : Stack w e reverse n ds m) : Stack w e reverse n (d :: ds) m
  | face {n k m d ds} (c) (hc : Framed d c) (hk : d.kind = .refractive) (hf : Flat d c e) (hpos : 0 < k) (hn : (behind d reverse).getN w = .fin k)
      (hs : Stack w e reverse k ds m) : Stack w e reverse n (d :: ds) m

/-- Interfaces passed by light of index `n`: each is clear, or a flat mirror; `es` are the directions across the mirrors. -/
inductive Mirrors (w : Dbl) (n : ℝ) (reverse : Bool) : List (Iface Dbl) → List (V3 ℝ) → Prop
  | nil : Mirrors w n reverse [] []
  | clear {d ds es} (c) (hc : Framed d c) (h : Clear w n reverse d) (hs : Mirrors w n reverse ds es) : Mirrors w n reverse (d :: ds) es
  | mirror {d ds e es} (c) (hc : Framed d c) (hk : d.kind = .mirror) (hf : Flat d c e) (hs : Mirrors w n reverse ds es) :
      Mirrors w n reverse (d :: ds) (e :: es)

/-- Turning round the part of a velocity along `e`. -/
def turnAbout (v e : V3 ℝ) : V3 ℝ := v - V3.smul (2 * V3.dot v e) e

/-! ## Numbers come from numbers -/

theorem fin_of_add {a b : Dbl} {x : ℝ} (h : a + b = .fin x) : ∃ p q, a = .fin p ∧ b = .fin q := by
  rcases a with _ | _ | _ | p <;> rcases b with _ | _ | _ | q <;> simp [HAdd.hAdd, Add.add, Dbl.add] at h ⊢

theorem fin_of_sub {a b : Dbl} {x : ℝ} (h : a - b = .fin x) : ∃ p q, a = .fin p ∧ b = .fin q := by
  rcases a with _ | _ | _ | p <;> rcases b with _ | _ | _ | q <;> simp [HSub.hSub, Sub.sub, Dbl.sub, Dbl.add, Dbl.neg] at h ⊢

theorem fin_of_mul {a b : Dbl} {x : ℝ} (h : a * b = .fin x) : ∃ p q, a = .fin p ∧ b = .fin q := by
  rcases a with _ | _ | _ | p <;> rcases b with _ | _ | _ | q <;>
    simp only [HMul.hMul, Mul.mul, Dbl.mul, Dbl.infMul, reduceCtorEq] at h ⊢ <;>
    first
    | exact ⟨_, _, rfl, rfl⟩
    | split_ifs at h

theorem fin_of_div {a : Dbl} {m x : ℝ} (h : a / .fin m = .fin x) : ∃ p, a = .fin p := by
  rcases a with _ | _ | _ | p
  · simp [HDiv.hDiv, Div.div, Dbl.div] at h
  · simp only [HDiv.hDiv, Div.div, Dbl.div] at h; split_ifs at h
  · simp only [HDiv.hDiv, Div.div, Dbl.div] at h; split_ifs at h
  · exact ⟨p, rfl⟩

theorem fin3_of {v : V3 Dbl} {x y z : ℝ} (hx : v.x = .fin x) (hy : v.y = .fin y) (hz : v.z = .fin z) : v = (⟨x, y, z⟩ : V3 ℝ).fin := by
  ext <;> simp [hx, hy, hz]

theorem mulVec_fin_of {m : M3 ℝ} {v : V3 Dbl} {x : ℝ} (h : (m.fin.mulVec v).x = .fin x) : ∃ w : V3 ℝ, v = w.fin := by
  simp only [M3.mulVec, M3.fin] at h
  obtain ⟨p, q, hp, hq⟩ := fin_of_add h
  obtain ⟨p', q', hp', hq'⟩ := fin_of_add hp
  obtain ⟨_, a, _, ha⟩ := fin_of_mul hp'
  obtain ⟨_, b, _, hb⟩ := fin_of_mul hq'
  obtain ⟨_, c, _, hc⟩ := fin_of_mul hq
  exact ⟨_, fin3_of ha hb hc⟩

theorem step_fin_of {r v : V3 Dbl} {dt : Dbl} {p : V3 ℝ} (h : r + v.smulR dt = p.fin) : ∃ (r' v' : V3 ℝ) (s : ℝ), r = r'.fin ∧ v = v'.fin ∧ dt = .fin s := by
  have hx := congrArg V3.x h; have hy := congrArg V3.y h; have hz := congrArg V3.z h
  simp only [V3.add_x, V3.add_y, V3.add_z, V3.smulR_x, V3.smulR_y, V3.smulR_z, V3.fin_x, V3.fin_y, V3.fin_z] at hx hy hz
  obtain ⟨a, a', h1, h1'⟩ := fin_of_add hx
  obtain ⟨b, b', h2, h2'⟩ := fin_of_add hy
  obtain ⟨c, c', h3, h3'⟩ := fin_of_add hz
  obtain ⟨x, s, g1, g1'⟩ := fin_of_mul h1'
  obtain ⟨y, _, g2, _⟩ := fin_of_mul h2'
  obtain ⟨z, _, g3, _⟩ := fin_of_mul h3'
  exact ⟨_, _, s, fin3_of h1 h2 h3, fin3_of g1 g2 g3, g1'⟩

theorem refractDir_fin_of {m : ℝ} {N v : V3 Dbl} {u : V3 ℝ} (h : Ray.refractDir (.fin m) N v = some u.fin) : ∃ n : V3 ℝ, N = n.fin := by
  unfold Ray.refractDir at h
  simp only at h
  split_ifs at h
  have h' := Option.some.inj h
  have hx := congrArg V3.x h'; have hy := congrArg V3.y h'; have hz := congrArg V3.z h'
  simp only [V3.fin_x, V3.fin_y, V3.fin_z] at hx hy hz
  obtain ⟨a, ha⟩ := fin_of_div hx
  obtain ⟨b, hb⟩ := fin_of_div hy
  obtain ⟨c, hc⟩ := fin_of_div hz
  simp only [V3.sub_x, V3.sub_y, V3.sub_z, V3.smul_x, V3.smul_y, V3.smul_z] at ha hb hc
  obtain ⟨_, a', _, ha'⟩ := fin_of_sub ha
  obtain ⟨_, b', _, hb'⟩ := fin_of_sub hb
  obtain ⟨_, c', _, hc'⟩ := fin_of_sub hc
  obtain ⟨_, x, _, hx'⟩ := fin_of_mul ha'
  obtain ⟨_, y, _, hy'⟩ := fin_of_mul hb'
  obtain ⟨_, z, _, hz'⟩ := fin_of_mul hc'
  unfold Ray.orient at hx' hy' hz'
  simp only at hx' hy' hz'
  split_ifs at hx' hy' hz'
  · simp only [V3.smulR_x, V3.smulR_y, V3.smulR_z] at hx' hy' hz'
    obtain ⟨x, _, hx', _⟩ := fin_of_mul hx'
    obtain ⟨y, _, hy', _⟩ := fin_of_mul hy'
    obtain ⟨z, _, hz', _⟩ := fin_of_mul hz'
    exact ⟨_, fin3_of hx' hy' hz'⟩
  · exact ⟨_, fin3_of hx' hy' hz'⟩

/-! ## One interface -/

/-- How an interface that is no screen must have turned a velocity `v`, in its own frame, if the reported normal is `N`. -/
inductive TurnedBy (d : Iface Dbl) (w : Dbl) (reverse : Bool) (N : V3 Dbl) (v u : V3 ℝ) : Prop
  | straight (hk : d.kind = .plain ∨ d.kind = .detector ∨ d.kind = .baffle) (h : u = v)
  | mirror (hk : d.kind = .mirror) (h : v.fin - V3.smul (2 * V3.dot v.fin N) N = u.fin)
  | lens (hk : d.kind = .refractive) (h : Ray.refractDir ((behind d reverse).getN w) N v.fin = some u.fin)

theorem failed_onRay (d : Iface Dbl) (niter : ℕ) (reverse : Bool) (ct : CoordTransform Dbl) (ray : Ray Dbl) (h : ray.failed = true) :
    (Iface.onRay d niter reverse ct ray).failed = true := by
  unfold Iface.onRay
  cases d.kind <;> simp [Ray.refract, Ray.reflect, Ray.refractScreen, Ray.intersect, h]

theorem alive_onRay {d : Iface Dbl} (hk : ∀ s, d.kind ≠ .screen s) {niter : ℕ} {reverse : Bool} {ct : CoordTransform Dbl} {ray : Ray Dbl} {q u : V3 ℝ}
    (hf : (Iface.onRay d niter reverse ct ray).failed = false) (hr : (Iface.onRay d niter reverse ct ray).r = q.fin)
    (hv : (Iface.onRay d niter reverse ct ray).v = u.fin) :
    ∃ (r v : V3 ℝ) (dt : ℝ), ray.failed = false ∧ ct.forward ray.r = r.fin ∧ ct.forwardVel ray.v = v.fin ∧
      d.surface.timeToIntersect r.fin v.fin 0 niter = (true, .fin dt) ∧ q = r + v.smulR dt ∧
      (Iface.onRay d niter reverse ct ray).t = ray.t + .fin dt ∧
      TurnedBy d ray.wavelength reverse (d.surface.normal (.fin q.x) (.fin q.y)) v u := by
  have key : ∀ {b : Bool} {dt : Dbl}, d.surface.timeToIntersect (ct.forward ray.r) (ct.forwardVel ray.v) 0 niter = (true, dt) →
      ct.forward ray.r + (ct.forwardVel ray.v).smulR dt = q.fin →
      ∃ (r v : V3 ℝ) (s : ℝ), ct.forward ray.r = r.fin ∧ ct.forwardVel ray.v = v.fin ∧ dt = .fin s ∧
        d.surface.timeToIntersect r.fin v.fin 0 niter = (true, .fin s) ∧ q = r + v.smulR s := by
    intro _ dt h1 h2
    obtain ⟨r, v, s, e1, e2, e3⟩ := step_fin_of h2
    refine ⟨r, v, s, e1, e2, e3, by rw [← e1, ← e2, h1, e3], ?_⟩
    rw [e1, e2, e3, V3.fin_smulR, V3.fin_add, V3.fin_inj] at h2
    exact h2.symm
  have hlive : ray.failed = false := by
    cases h : ray.failed
    · rfl
    · rw [failed_onRay d niter reverse ct ray h] at hf; exact absurd hf (by simp)
  unfold Iface.onRay at hf hr hv ⊢
  cases hd : d.kind with
  | screen s => exact absurd hd (hk s)
  | refractive =>
    simp only [hd, Ray.refract, hlive, Bool.false_eq_true, if_false] at hf hr hv ⊢
    cases ht : d.surface.timeToIntersect (ct.forward ray.r) (ct.forwardVel ray.v) 0 niter with
    | mk ok dt =>
      cases ok with
      | false => rw [ht] at hf; exact absurd hf (by simp [Ray.markFailed])
      | true =>
        simp only [ht] at hf hr hv ⊢
        have hr2 : ct.forward ray.r + (ct.forwardVel ray.v).smulR dt = q.fin := by
          split at hr <;> exact hr
        obtain ⟨r, v, s, e1, e2, e3, e4, e5⟩ := key (b := true) ht hr2
        refine ⟨r, v, s, trivial, e1, e2, e4, e5, ?_, ?_⟩
        · rw [e3]; split <;> rfl
        · rw [hr2] at hv
          refine .lens hd ?_
          unfold behind
          rw [← e2]
          split at hv
          · exact absurd (congrArg V3.x hv) (by simp)
          · next h => rw [← hv]; exact h
  | mirror =>
    simp only [hd, Ray.reflect, hlive, Bool.false_eq_true, if_false] at hf hr hv ⊢
    cases ht : d.surface.timeToIntersect (ct.forward ray.r) (ct.forwardVel ray.v) 0 niter with
    | mk ok dt =>
      cases ok with
      | false => rw [ht] at hf; exact absurd hf (by simp [Ray.markFailed])
      | true =>
        simp only [ht] at hf hr hv ⊢
        obtain ⟨r, v, s, e1, e2, e3, e4, e5⟩ := key (b := true) ht hr
        refine ⟨r, v, s, trivial, e1, e2, e4, e5, by rw [e3], .mirror hd ?_⟩
        rw [hr, e2] at hv
        exact hv
  | _ =>
    simp only [hd, Ray.intersect, hlive, Bool.false_eq_true, if_false] at hf hr hv ⊢
    cases ht : d.surface.timeToIntersect (ct.forward ray.r) (ct.forwardVel ray.v) 0 niter with
    | mk ok dt =>
      cases ok with
      | false => rw [ht] at hf; exact absurd hf (by simp [Ray.markFailed])
      | true =>
        simp only [ht] at hf hr hv ⊢
        obtain ⟨r, v, s, e1, e2, e3, e4, e5⟩ := key (b := true) ht hr
        refine ⟨r, v, s, trivial, e1, e2, e4, e5, by rw [e3], .straight (by simp [hd]) ?_⟩
        rw [e2, V3.fin_inj] at hv
        exact hv.symm

theorem alive_keeps {d : Iface Dbl} (niter : ℕ) (reverse : Bool) (ct : CoordTransform Dbl) (ray : Ray Dbl)
    (hf : (Iface.onRay d niter reverse ct ray).failed = false) :
    (Iface.onRay d niter reverse ct ray).vignetted = ray.vignetted ∧ (Iface.onRay d niter reverse ct ray).wavelength = ray.wavelength := by
  have hlive : ray.failed = false := by
    cases h : ray.failed
    · rfl
    · rw [failed_onRay d niter reverse ct ray h] at hf; exact absurd hf (by simp)
  unfold Iface.onRay at hf ⊢
  cases hd : d.kind <;> simp only [hd, Ray.refract, Ray.reflect, Ray.refractScreen, Ray.intersect, hlive, Bool.false_eq_true, if_false] at hf ⊢ <;>
    split at hf <;>
    first
    | exact ⟨rfl, rfl⟩
    | (split at hf <;> first | exact ⟨rfl, rfl⟩ | simp at hf)
    | simp [Ray.markFailed] at hf

/-- A ray that is alive behind an interface was alive before it. -/
theorem alive_before {d : Iface Dbl} (hk : ∀ s, d.kind ≠ .screen s) {c cs : CoordSys ℝ} (hc : Framed d c) {niter : ℕ} {reverse : Bool} {rv : RayVec Dbl}
    {i : ℕ} (hcs : rv.coordSys = cs.fin) (h : Alive (d.trace niter reverse rv) i) : Alive rv i := by
  obtain ⟨out, q, u, h1, h2, h3, h4⟩ := h
  cases hi : rv.rays[i]? with
  | none =>
    have : (d.trace niter reverse rv).rays.length = rv.rays.length := (C18_trace_frame_and_order d niter reverse rv).2
    rw [List.getElem?_eq_none_iff] at hi
    rw [List.getElem?_eq_none_iff.2 (by omega)] at h1
    exact absurd h1 (by simp)
  | some ray =>
    obtain ⟨out', g1, g2, -⟩ := trace_ray d niter reverse rv i ray hi
    obtain rfl : out = out' := Option.some.inj (h1.symm.trans g1)
    rw [g2] at h2 h3 h4
    obtain ⟨r, v, dt, e1, e2, e3, -⟩ := alive_onRay hk h2 h3 h4
    rw [hcs, hc.2, CoordTransform.make_fin] at e2 e3
    have a : ∃ w : V3 ℝ, ray.r = w.fin := by
      have := congrArg V3.x e2
      simp only [CoordTransform.forward, V3.fin_x, M3.fin_tr] at this
      obtain ⟨w, hw⟩ := mulVec_fin_of this
      have hx := congrArg V3.x hw; have hy := congrArg V3.y hw; have hz := congrArg V3.z hw
      simp only [V3.sub_x, V3.sub_y, V3.sub_z, V3.fin_x, V3.fin_y, V3.fin_z] at hx hy hz
      obtain ⟨_, _, hx, -⟩ := fin_of_sub hx
      obtain ⟨_, _, hy, -⟩ := fin_of_sub hy
      obtain ⟨_, _, hz, -⟩ := fin_of_sub hz
      exact ⟨_, fin3_of hx hy hz⟩
    have b : ∃ w : V3 ℝ, ray.v = w.fin := by
      have := congrArg V3.x e3
      simp only [CoordTransform.forwardVel, V3.fin_x, M3.fin_tr] at this
      exact mulVec_fin_of this
    obtain ⟨a, ha⟩ := a
    obtain ⟨b, hb⟩ := b
    exact ⟨ray, a, b, hi, e1, ha, hb⟩

theorem alive_first {niter : ℕ} {reverse : Bool} {i : ℕ} : ∀ {ds : List (Iface Dbl)} {rv : RayVec Dbl} {cs : CoordSys ℝ}, rv.coordSys = cs.fin →
    (∀ d ∈ ds, (∃ c, Framed d c) ∧ ∀ s, d.kind ≠ .screen s) → Alive (ds.foldl (fun rv d => d.trace niter reverse rv) rv) i → Alive rv i
  | [], _, _, _, _, h => h
  | d :: ds, rv, cs, hcs, hd, h => by
    obtain ⟨⟨c, hc⟩, hk⟩ := hd d (by simp)
    refine alive_before hk hc hcs (alive_first (cs := c) ?_ (fun d' h' => hd d' (by simp [h'])) h)
    rw [(C18_trace_frame_and_order d niter reverse rv).1, hc.2]

/-- What an interface does to light that comes out alive. -/
theorem alive_step {d : Iface Dbl} (hk : ∀ s, d.kind ≠ .screen s) {c : CoordSys ℝ} (hc : Framed d c) {niter : ℕ} {reverse : Bool} {rv : RayVec Dbl}
    {i : ℕ} {P V : V3 ℝ} {t : ℝ} {w : Dbl} {b : Bool} (hin : LightAt rv i P V t w b) (h : Alive (d.trace niter reverse rv) i) :
    ∃ (dt : ℝ) (u : V3 ℝ),
      d.surface.timeToIntersect (c.toLocal P).fin (c.rot.tr.mulVec V).fin 0 niter = (true, .fin dt) ∧
      LightAt (d.trace niter reverse rv) i (P + V.smulR dt) (c.rot.mulVec u) (t + dt) w (b || clips d (c.toLocal (P + V.smulR dt))) ∧
      TurnedBy d w reverse (d.surface.normal (.fin (c.toLocal (P + V.smulR dt)).x) (.fin (c.toLocal (P + V.smulR dt)).y)) (c.rot.tr.mulVec V) u := by
  obtain ⟨out, q, u, h1, h2, h3, h4⟩ := h
  obtain ⟨cs, ray, ho, hcs, hi, hr, hv, ht, hw, hf, hb⟩ := hin
  obtain ⟨out', g1, g2, -⟩ := trace_ray d niter reverse rv i ray hi
  obtain rfl : out = out' := Option.some.inj (h1.symm.trans g1)
  rw [g2] at h2 h3 h4
  obtain ⟨r, v, dt, e1, e2, e3, e4, e5, e6, e7⟩ := alive_onRay hk h2 h3 h4
  have k1 : r = c.toLocal P := by
    rw [hcs, hc.2, hr, CoordTransform.forward_fin, CoordSys.forward_eq ho, CoordSys.toGlobal_toLocal ho, V3.fin_inj] at e2
    exact e2.symm
  have k2 : v = c.rot.tr.mulVec V := by
    rw [hcs, hc.2, hv, CoordTransform.forwardVel_fin, CoordSys.forwardVel_eq, ho.mulVec_tr, V3.fin_inj] at e3
    exact e3.symm
  subst k1 k2
  have k3 : q = c.toLocal (P + V.smulR dt) := by rw [e5, toLocal_step]
  subst k3
  refine ⟨dt, u, e4, ?_, hw ▸ e7⟩
  have := alive_keeps niter reverse (CoordTransform.make rv.coordSys d.coordSys) ray h2
  refine trace_light hi hc.2 hc.1 h3 ?_ ?_ h2 (this.1.trans hb) (this.2.trans hw)
  · rw [h4, hc.1.tr_mulVec]
  · rw [e6, ht, Dbl.add_fin]

/-! ## Straight lines -/

/-- Between equal indices refraction changes nothing, whatever the surface reports as its normal. -/
theorem refractDir_clear {n : ℝ} (hn : 0 < n) {N : V3 Dbl} {v u : V3 ℝ} (hv : speed v = 1 / n) (h : Ray.refractDir (.fin n) N v.fin = some u.fin) : u = v := by
  obtain ⟨m, rfl⟩ := refractDir_fin_of h
  have hv0 : v ≠ ⟨0, 0, 0⟩ := by
    rintro rfl
    have : speed (⟨0, 0, 0⟩ : V3 ℝ) = 0 := by simp [speed, V3.dot]
    rw [this] at hv
    have := one_div_pos.2 hn
    linarith
  have hk : 1 / Real.sqrt (V3.dot v v) = n := by
    change 1 / speed v = n
    rw [hv]; simp
  rw [refractDir_bent hn.ne' _ hv0] at h
  unfold bent at h
  simp only [hk, div_self hn.ne'] at h
  have hs : ∀ α : ℝ, 1 * 1 * (1 - α * (if 0 < α then -1 else 1) * (α * if 0 < α then -1 else 1)) = 1 - α * α := by
    intro α; split_ifs <;> ring
  have hroot : ∀ α : ℝ, 1 * (α * if 0 < α then -1 else 1) + Real.sqrt (1 - (1 - α * α)) = 0 := by
    intro α
    rw [show 1 - (1 - α * α) = α * α by ring, Real.sqrt_mul_self_eq_abs]
    split_ifs with hα
    · rw [abs_of_pos hα]; ring
    · rw [abs_of_nonpos (not_lt.1 hα)]; ring
  simp only [hs, hroot] at h
  split_ifs at h
  · simp at h
  all_goals
    simp only [Option.map_some, Option.some.injEq, V3.fin_inj] at h
    rw [← h]
    ext <;> simp <;> field_simp

theorem clear_no_screen {w : Dbl} {n : ℝ} {reverse : Bool} {d : Iface Dbl} (h : Clear w n reverse d) : ∀ s, d.kind ≠ .screen s := by
  intro s hs
  rcases h with h | h | h | ⟨h, -⟩ <;> simp [h] at hs

theorem clear_step {w : Dbl} {n : ℝ} {reverse : Bool} {d : Iface Dbl} {c : CoordSys ℝ} (hn : 0 < n) (h : Clear w n reverse d) (hc : Framed d c) {niter : ℕ}
    {rv : RayVec Dbl} {i : ℕ} {P V : V3 ℝ} {t : ℝ} {b : Bool} (hV : speed V = 1 / n) (hin : LightAt rv i P V t w b)
    (ha : Alive (d.trace niter reverse rv) i) :
    ∃ dt, LightAt (d.trace niter reverse rv) i (P + V.smulR dt) V (t + dt) w (b || clips d (c.toLocal (P + V.smulR dt))) := by
  obtain ⟨dt, u, h1, h2, h3⟩ := alive_step (clear_no_screen h) hc hin ha
  have hu : u = c.rot.tr.mulVec V := by
    rcases h3 with ⟨-, h3⟩ | ⟨hk, -⟩ | ⟨hk, h3⟩
    · exact h3
    · rcases h with h | h | h | ⟨h, -⟩ <;> simp [h] at hk
    · rcases h with h | h | h | ⟨-, h⟩
      · simp [h] at hk
      · simp [h] at hk
      · simp [h] at hk
      · rw [h] at h3
        refine refractDir_clear hn ?_ h3
        rw [speed, hc.1.tr.dot_mulVec]; exact hV
  rw [hu, hc.1.mulVec_tr] at h2
  exact ⟨dt, h2⟩

/-- C121: whatever comes out of an optic that is clear for the light has gone straight on: it is where the light would be if nothing were there. -/
theorem C121_straight {w : Dbl} {n : ℝ} (hn : 0 < n) (o : Optic Dbl) (niter : ℕ) (reverse : Bool) (ho : ∀ d ∈ visits o, (∃ c, Framed d c) ∧ Clear w n reverse d)
    {rv : RayVec Dbl} {i : ℕ} {P V : V3 ℝ} {t : ℝ} {b : Bool} (hV : speed V = 1 / n) (hin : LightAt rv i P V t w b) (h : Alive (o.trace niter reverse rv) i) :
    ∃ (t' : ℝ) (b' : Bool), LightAt (o.trace niter reverse rv) i (P + V.smulR (t' - t)) V t' w b' ∧ (b = true → b' = true) := by
  have key : ∀ (ds : List (Iface Dbl)) (rv : RayVec Dbl) (P : V3 ℝ) (t : ℝ) (b : Bool), (∀ d ∈ ds, (∃ c, Framed d c) ∧ Clear w n reverse d) →
      LightAt rv i P V t w b → Alive (ds.foldl (fun rv d => d.trace niter reverse rv) rv) i →
      ∃ (t' : ℝ) (b' : Bool), LightAt (ds.foldl (fun rv d => d.trace niter reverse rv) rv) i (P + V.smulR (t' - t)) V t' w b' ∧ (b = true → b' = true) := by
    intro ds
    induction ds with
    | nil =>
      intro rv P t b _ hin _
      refine ⟨t, b, ?_, id⟩
      have : P + V.smulR (t - t) = P := by ext <;> simp
      rw [this]; exact hin
    | cons d ds ih =>
      intro rv P t b hd hin h
      obtain ⟨⟨c, hc⟩, hcl⟩ := hd d (by simp)
      have hfirst : Alive (d.trace niter reverse rv) i :=
        alive_first (cs := c) (by rw [(C18_trace_frame_and_order d niter reverse rv).1, hc.2])
          (fun d' h' => ⟨(hd d' (by simp [h'])).1, clear_no_screen (hd d' (by simp [h'])).2⟩) h
      obtain ⟨dt, hl⟩ := clear_step hn hcl hc hV hin hfirst
      obtain ⟨t', b', g1, g2⟩ := ih _ _ _ _ (fun d' h' => hd d' (by simp [h'])) hl h
      refine ⟨t', b', ?_, fun hb => g2 (by simp [hb])⟩
      have : P + V.smulR dt + V.smulR (t' - (t + dt)) = P + V.smulR (t' - t) := by ext <;> simp <;> ring
      rw [← this]; exact g1
  cases reverse with
  | false => rw [trace_visits] at h ⊢; exact key _ _ _ _ _ ho hin h
  | true => rw [trace_visits_rev] at h ⊢; exact key _ _ _ _ _ (fun d hd => ho d (by simpa using hd)) hin h

/-! ## Parallel faces -/

theorem refractDir_flat {n m : ℝ} (hm : 0 < m) {v u : V3 ℝ} (hv : speed v = 1 / n) (hz : v.z ≠ 0)
    (h : Ray.refractDir (.fin m) ⟨0, 0, 1⟩ v.fin = some u.fin) :
    speed u = 1 / m ∧ m ^ 2 * u.x = n ^ 2 * v.x ∧ m ^ 2 * u.y = n ^ 2 * v.y ∧ 0 ≤ v.z * u.z := by
  have hN : (⟨0, 0, 1⟩ : V3 Dbl) = (⟨0, 0, 1⟩ : V3 ℝ).fin := by ext <;> simp
  have hv0 : v ≠ ⟨0, 0, 0⟩ := by rintro rfl; exact hz rfl
  have hunit : IsUnit' (⟨0, 0, 1⟩ : V3 ℝ) := by simp [IsUnit', V3.dot]
  rw [hN, refractDir_fin hv0 hunit hm] at h
  split_ifs at h with hs
  simp only [Option.some.injEq, V3.fin_inj] at h
  have h1 := refractR_normSq hv0 hunit hm (not_lt.1 hs)
  have h2 := refractR_cross (n2 := m) (n := ⟨0, 0, 1⟩) hv0 hm
  have h3 := refractR_dot (n2 := m) (v := v) hunit hm
  rw [h] at h1 h2 h3
  have hk : 1 / speed v = n := by rw [hv]; simp
  rw [hk] at h2
  refine ⟨?_, ?_, ?_, ?_⟩
  · rw [speed, h1, Real.sqrt_mul_self (by positivity)]
  · have := congrArg V3.y h2
    simp [V3.cross] at this
    linarith
  · have := congrArg V3.x h2
    simp [V3.cross] at this
    linarith
  · have hq := Real.sqrt_nonneg (1 - (1 / speed v / m) * (1 / speed v / m) *
        (1 - V3.dot (v.smulR (1 / speed v)) (against ⟨0, 0, 1⟩ v) * V3.dot (v.smulR (1 / speed v)) (against ⟨0, 0, 1⟩ v)))
    have h4 : V3.dot u (against ⟨0, 0, 1⟩ v) ≤ 0 := by
      rw [h3]
      have := div_nonneg hq hm.le
      rw [neg_div]; linarith
    unfold against at h4
    split_ifs at h4 with hc
    · simp [V3.dot] at hc h4
      exact mul_nonneg hc.le h4
    · simp [V3.dot] at hc h4
      exact mul_nonneg_of_nonpos_of_nonpos hc h4

/-- What light of index `n` and velocity `V` has become where the index is `m`, if only planes across `e` were on its way: Snell's law between the first and
the last medium, and no way back. -/
structure Passed (n m : ℝ) (e V U : V3 ℝ) : Prop where
  speed : speed U = 1 / m
  along : V3.smul (m ^ 2) (tangential U e) = V3.smul (n ^ 2) (tangential V e)
  side : 0 ≤ V3.dot V e * V3.dot U e
  grazing : V3.dot V e = 0 → V3.dot U e = 0

theorem face_turn {n m : ℝ} {c : CoordSys ℝ} (ho : c.rot.Orth) {e V u : V3 ℝ} (he : c.rot.mulVec ⟨0, 0, 1⟩ = e ∨ c.rot.mulVec ⟨0, 0, 1⟩ = -e)
    (h1 : m ^ 2 * u.x = n ^ 2 * (c.rot.tr.mulVec V).x) (h2 : m ^ 2 * u.y = n ^ 2 * (c.rot.tr.mulVec V).y)
    (h3 : 0 ≤ (c.rot.tr.mulVec V).z * u.z) (hz : (c.rot.tr.mulVec V).z ≠ 0) :
    V3.smul (m ^ 2) (tangential (c.rot.mulVec u) e) = V3.smul (n ^ 2) (tangential V e) ∧
    0 ≤ V3.dot V e * V3.dot (c.rot.mulVec u) e ∧ V3.dot V e ≠ 0 := by
  obtain ⟨σ, hσ, rfl⟩ : ∃ σ : ℝ, σ * σ = 1 ∧ e = c.rot.mulVec ⟨0, 0, σ⟩ := by
    rcases he with rfl | he
    · exact ⟨1, by norm_num, rfl⟩
    · refine ⟨-1, by norm_num, ?_⟩
      have : e = -c.rot.mulVec ⟨0, 0, 1⟩ := by rw [he]; ext <;> simp
      rw [this]
      ext <;> simp [M3.mulVec]
  obtain ⟨v, rfl⟩ : ∃ v, V = c.rot.mulVec v := ⟨_, (ho.mulVec_tr V).symm⟩
  rw [ho.tr_mulVec] at h1 h2 h3 hz
  have hσ0 : σ ≠ 0 := by rintro rfl; norm_num at hσ
  have ht : ∀ x : V3 ℝ, tangential (c.rot.mulVec x) (c.rot.mulVec ⟨0, 0, σ⟩) = c.rot.mulVec ⟨x.x, x.y, 0⟩ := by
    intro x
    unfold tangential
    rw [ho.dot_mulVec]
    have : V3.dot x ⟨0, 0, σ⟩ * σ = x.z := by
      simp only [V3.dot]; linear_combination x.z * hσ
    have h : x - V3.smul (V3.dot x ⟨0, 0, σ⟩) ⟨0, 0, σ⟩ = ⟨x.x, x.y, 0⟩ := by
      ext <;> simp [this]
    rw [← h, M3.mulVec_sub]
    congr 1
    ext <;> simp [M3.mulVec] <;> ring
  refine ⟨?_, ?_, ?_⟩
  · rw [ht, ht]
    have : ∀ (k : ℝ) (x : V3 ℝ), V3.smul k (c.rot.mulVec x) = c.rot.mulVec (V3.smul k x) := by
      intro k x; ext <;> simp [M3.mulVec] <;> ring
    rw [this, this]
    congr 1
    ext <;> simp [h1, h2]
  · rw [ho.dot_mulVec, ho.dot_mulVec]
    have : V3.dot v ⟨0, 0, σ⟩ * V3.dot u ⟨0, 0, σ⟩ = v.z * u.z := by
      simp only [V3.dot]; linear_combination v.z * u.z * hσ
    rw [this]; exact h3
  · rw [ho.dot_mulVec]
    simp [V3.dot, hz, hσ0]

theorem flat_meets {d : Iface Dbl} {c : CoordSys ℝ} {e r v : V3 ℝ} {niter : ℕ} {dt : ℝ} (hf : Flat d c e)
    (h : d.surface.timeToIntersect r.fin v.fin 0 niter = (true, .fin dt)) : v.z ≠ 0 := by
  intro hz
  rw [hf.1] at h
  simp [Surface.plane, hz] at h

theorem face_step {w : Dbl} {n m : ℝ} (hm : 0 < m) {reverse : Bool} {d : Iface Dbl} {c : CoordSys ℝ} {e : V3 ℝ} (hk : d.kind = .refractive)
    (hf : Flat d c e) (hc : Framed d c) (hi : (behind d reverse).getN w = .fin m) {niter : ℕ}
    {rv : RayVec Dbl} {i : ℕ} {P V : V3 ℝ} {t : ℝ} {b : Bool} (hV : speed V = 1 / n) (hin : LightAt rv i P V t w b)
    (ha : Alive (d.trace niter reverse rv) i) :
    ∃ (dt : ℝ) (U : V3 ℝ), LightAt (d.trace niter reverse rv) i (P + V.smulR dt) U (t + dt) w (b || clips d (c.toLocal (P + V.smulR dt))) ∧
      Passed n m e V U ∧ V3.dot V e ≠ 0 := by
  obtain ⟨dt, u, h1, h2, h3⟩ := alive_step (by simp [hk]) hc hin ha
  refine ⟨dt, _, h2, ?_⟩
  have hz := flat_meets hf h1
  rcases h3 with ⟨hk', -⟩ | ⟨hk', -⟩ | ⟨-, h3⟩
  · simp [hk] at hk'
  · simp [hk] at hk'
  · rw [hi, hf.1] at h3
    obtain ⟨g1, g2, g3, g4⟩ := refractDir_flat hm (by rw [speed, hc.1.tr.dot_mulVec]; exact hV) hz h3
    obtain ⟨k1, k2, k3⟩ := face_turn hc.1 hf.2 g2 g3 g4 hz
    exact ⟨⟨by rw [speed, hc.1.dot_mulVec]; exact g1, k1, k2, fun h => absurd h k3⟩, k3⟩

theorem Stack.fine {w : Dbl} {e : V3 ℝ} {reverse : Bool} {n m : ℝ} {ds : List (Iface Dbl)} (h : Stack w e reverse n ds m) :
    ∀ d ∈ ds, (∃ c, Framed d c) ∧ ∀ s, d.kind ≠ .screen s := by
  induction h with
  | nil => simp
  | clear c hc h _ ih =>
    intro d hd
    rcases List.mem_cons.1 hd with rfl | hd
    · exact ⟨⟨c, hc⟩, clear_no_screen h⟩
    · exact ih d hd
  | face c hc hk _ _ _ _ ih =>
    intro d hd
    rcases List.mem_cons.1 hd with rfl | hd
    · exact ⟨⟨c, hc⟩, by simp [hk]⟩
    · exact ih d hd

/-- C121: behind any number of parallel plane faces light goes as if only the first and the last medium were there. -/
theorem C121_stack {w : Dbl} {n m : ℝ} {e : V3 ℝ} (hn : 0 < n) (o : Optic Dbl) (niter : ℕ) (reverse : Bool)
    (ho : Stack w e reverse n (if reverse then (visits o).reverse else visits o) m)
    {rv : RayVec Dbl} {i : ℕ} {P V : V3 ℝ} {t : ℝ} {b : Bool} (hV : speed V = 1 / n) (hin : LightAt rv i P V t w b) (h : Alive (o.trace niter reverse rv) i) :
    ∃ (P' U : V3 ℝ) (t' : ℝ) (b' : Bool), LightAt (o.trace niter reverse rv) i P' U t' w b' ∧ Passed n m e V U := by
  have key : ∀ {n : ℝ} {ds : List (Iface Dbl)}, Stack w e reverse n ds m → 0 < n → ∀ (rv : RayVec Dbl) (P V : V3 ℝ) (t : ℝ) (b : Bool), speed V = 1 / n →
      LightAt rv i P V t w b → Alive (ds.foldl (fun rv d => d.trace niter reverse rv) rv) i →
      ∃ (P' U : V3 ℝ) (t' : ℝ) (b' : Bool), LightAt (ds.foldl (fun rv d => d.trace niter reverse rv) rv) i P' U t' w b' ∧ Passed n m e V U := by
    clear hin h hV ho hn
    intro n ds hst
    induction hst with
    | nil => exact fun _ rv P V t b hV hin _ => ⟨P, V, t, b, hin, hV, rfl, mul_self_nonneg _, id⟩
    | clear c hc hcl hs ih =>
      intro hn rv P V t b hV hin h
      have hfirst := alive_first (cs := c) (by rw [(C18_trace_frame_and_order _ niter reverse rv).1, hc.2]) hs.fine h
      obtain ⟨dt, hl⟩ := clear_step hn hcl hc hV hin hfirst
      exact ih hn _ _ _ _ _ hV hl h
    | face c hc hk hf hpos hi hs ih =>
      intro hn rv P V t b hV hin h
      have hfirst := alive_first (cs := c) (by rw [(C18_trace_frame_and_order _ niter reverse rv).1, hc.2]) hs.fine h
      obtain ⟨dt, U, hl, hp, hne⟩ := face_step hpos hk hf hc hi hV hin hfirst
      obtain ⟨P', W, t', b', g1, g2⟩ := ih hpos _ _ _ _ _ hp.speed hl h
      refine ⟨P', W, t', b', g1, g2.speed, g2.along.trans hp.along, ?_, fun h => absurd h hne⟩
      by_cases hu : V3.dot U e = 0
      · rw [g2.grazing hu]; simp
      · have hpp : 0 < V3.dot U e * V3.dot U e := mul_self_pos.2 hu
        have := mul_nonneg hp.side g2.side
        by_contra hlt
        push Not at hlt
        nlinarith
  cases reverse with
  | false => rw [trace_visits] at h ⊢; exact key ho hn _ _ _ _ _ hV hin h
  | true => rw [trace_visits_rev] at h ⊢; exact key ho hn _ _ _ _ _ hV hin h

/-- C121: a plate, however many layers it has, does not turn light, if the media on both sides are the same. -/
theorem C121_plate {w : Dbl} {n : ℝ} {e : V3 ℝ} (he : IsUnit' e) (hn : 0 < n) (o : Optic Dbl) (niter : ℕ) (reverse : Bool)
    (ho : Stack w e reverse n (if reverse then (visits o).reverse else visits o) n)
    {rv : RayVec Dbl} {i : ℕ} {P V : V3 ℝ} {t : ℝ} {b : Bool} (hV : speed V = 1 / n) (hin : LightAt rv i P V t w b) (h : Alive (o.trace niter reverse rv) i) :
    ∃ (P' : V3 ℝ) (t' : ℝ) (b' : Bool), LightAt (o.trace niter reverse rv) i P' V t' w b' := by
  obtain ⟨P', U, t', b', g1, g2⟩ := C121_stack hn o niter reverse ho hV hin h
  have ht : tangential U e = tangential V e := by
    have := g2.along
    have h0 : n ^ 2 ≠ 0 := by positivity
    ext
    · simpa [h0] using congrArg V3.x this
    · simpa [h0] using congrArg V3.y this
    · simpa [h0] using congrArg V3.z this
  have hsplit : ∀ v : V3 ℝ, v = tangential v e + V3.smul (V3.dot v e) e := by intro v; ext <;> simp [tangential]
  have hsq : ∀ v : V3 ℝ, V3.dot v v = V3.dot (tangential v e) (tangential v e) + V3.dot v e ^ 2 := by
    intro v
    unfold IsUnit' at he
    have : V3.dot (tangential v e) (tangential v e) = V3.dot v v - 2 * V3.dot v e ^ 2 + V3.dot v e ^ 2 * V3.dot e e := by
      simp [tangential, V3.dot]; ring
    rw [this, he]; ring
  have hd : V3.dot U U = V3.dot V V := by
    have := g2.speed.trans hV.symm
    unfold speed at this
    exact (Real.sqrt_inj (V3.normSq_nonneg U) (V3.normSq_nonneg V)).1 this
  rw [hsq U, hsq V, ht] at hd
  have hd' : V3.dot U e ^ 2 = V3.dot V e ^ 2 := by linarith
  have : V3.dot U e = V3.dot V e := by
    rcases sq_eq_sq_iff_eq_or_eq_neg.1 hd' with h | h
    · exact h
    · have := g2.side
      rw [h] at this
      have h0 : V3.dot V e = 0 := by nlinarith [mul_self_nonneg (V3.dot V e)]
      rw [h, h0]; simp
  obtain rfl : U = V := by rw [hsplit U, hsplit V, ht, this]
  exact ⟨P', t', b', g1⟩

/-! ## Flat mirrors -/

theorem mirror_step {w : Dbl} {reverse : Bool} {d : Iface Dbl} {c : CoordSys ℝ} {e : V3 ℝ} (hk : d.kind = .mirror)
    (hf : Flat d c e) (hc : Framed d c) {niter : ℕ}
    {rv : RayVec Dbl} {i : ℕ} {P V : V3 ℝ} {t : ℝ} {b : Bool} (hin : LightAt rv i P V t w b) (ha : Alive (d.trace niter reverse rv) i) :
    ∃ dt : ℝ, LightAt (d.trace niter reverse rv) i (P + V.smulR dt) (turnAbout V e) (t + dt) w (b || clips d (c.toLocal (P + V.smulR dt))) := by
  obtain ⟨dt, u, h1, h2, h3⟩ := alive_step (by simp [hk]) hc hin ha
  refine ⟨dt, ?_⟩
  have : c.rot.mulVec u = turnAbout V e := by
    rcases h3 with ⟨hk', -⟩ | ⟨-, h3⟩ | ⟨hk', -⟩
    · simp [hk] at hk'
    · rw [hf.1] at h3
      have hN : (Surface.plane : Surface Dbl).normal (.fin (c.toLocal (P + V.smulR dt)).x) (.fin (c.toLocal (P + V.smulR dt)).y) = (⟨0, 0, 1⟩ : V3 ℝ).fin := by
        ext <;> simp [Surface.plane]
      have h2' : (2 : Dbl) = .fin 2 := by simp
      rw [hN, V3.fin_dot, h2', Dbl.mul_fin, V3.fin_smul, V3.fin_sub, V3.fin_inj] at h3
      rw [← h3, M3.mulVec_sub, hc.1.mulVec_tr]
      have hsm : ∀ (k : ℝ) (x : V3 ℝ), c.rot.mulVec (V3.smul k x) = V3.smul k (c.rot.mulVec x) := by
        intro k x; ext <;> simp [M3.mulVec] <;> ring
      have hdot : V3.dot (c.rot.tr.mulVec V) ⟨0, 0, 1⟩ = V3.dot V (c.rot.mulVec ⟨0, 0, 1⟩) := by
        rw [← hc.1.dot_mulVec, hc.1.mulVec_tr]
      rw [hsm, hdot]
      rcases hf.2 with h | h <;> rw [h]
      · rfl
      · ext <;> simp [turnAbout, V3.dot] <;> ring
    · simp [hk] at hk'
  rw [← this]; exact h2

theorem turnAbout_speed {v e : V3 ℝ} (he : IsUnit' e) : speed (turnAbout v e) = speed v := by
  unfold speed
  congr 1
  unfold IsUnit' at he
  have : V3.dot (turnAbout v e) (turnAbout v e) = V3.dot v v - 4 * V3.dot v e ^ 2 + 4 * V3.dot v e ^ 2 * V3.dot e e := by
    simp [turnAbout, V3.dot]; ring
  rw [this, he]; ring

theorem flat_unit {d : Iface Dbl} {c : CoordSys ℝ} {e : V3 ℝ} (hc : Framed d c) (hf : Flat d c e) : IsUnit' e := by
  have : V3.dot (c.rot.mulVec ⟨0, 0, 1⟩) (c.rot.mulVec ⟨0, 0, 1⟩) = 1 := by rw [hc.1.dot_mulVec]; simp [V3.dot]
  rcases hf.2 with h | h <;> rw [h] at this
  · exact this
  · simpa [IsUnit', V3.dot] using this

theorem Mirrors.fine {w : Dbl} {reverse : Bool} {n : ℝ} {ds : List (Iface Dbl)} {es : List (V3 ℝ)} (h : Mirrors w n reverse ds es) :
    ∀ d ∈ ds, (∃ c, Framed d c) ∧ ∀ s, d.kind ≠ .screen s := by
  induction h with
  | nil => simp
  | clear c hc h _ ih =>
    intro d hd
    rcases List.mem_cons.1 hd with rfl | hd
    · exact ⟨⟨c, hc⟩, clear_no_screen h⟩
    · exact ih d hd
  | mirror c hc hk _ _ ih =>
    intro d hd
    rcases List.mem_cons.1 hd with rfl | hd
    · exact ⟨⟨c, hc⟩, by simp [hk]⟩
    · exact ih d hd

/-- C121: flat mirrors turn light by their directions alone, wherever they stand. -/
theorem C121_mirrors {w : Dbl} {n : ℝ} (hn : 0 < n) (o : Optic Dbl) (niter : ℕ) (reverse : Bool) {es : List (V3 ℝ)}
    (ho : Mirrors w n reverse (if reverse then (visits o).reverse else visits o) es)
    {rv : RayVec Dbl} {i : ℕ} {P V : V3 ℝ} {t : ℝ} {b : Bool} (hV : speed V = 1 / n) (hin : LightAt rv i P V t w b) (h : Alive (o.trace niter reverse rv) i) :
    ∃ (P' : V3 ℝ) (t' : ℝ) (b' : Bool), LightAt (o.trace niter reverse rv) i P' (es.foldl turnAbout V) t' w b' := by
  have key : ∀ {ds : List (Iface Dbl)} {es : List (V3 ℝ)}, Mirrors w n reverse ds es → ∀ (rv : RayVec Dbl) (P V : V3 ℝ) (t : ℝ) (b : Bool), speed V = 1 / n →
      LightAt rv i P V t w b → Alive (ds.foldl (fun rv d => d.trace niter reverse rv) rv) i →
      ∃ (P' : V3 ℝ) (t' : ℝ) (b' : Bool), LightAt (ds.foldl (fun rv d => d.trace niter reverse rv) rv) i P' (es.foldl turnAbout V) t' w b' := by
    intro ds es hst
    induction hst with
    | nil => exact fun rv P V t b hV hin _ => ⟨P, t, b, hin⟩
    | clear c hc hcl hs ih =>
      intro rv P V t b hV hin h
      have hfirst := alive_first (cs := c) (by rw [(C18_trace_frame_and_order _ niter reverse rv).1, hc.2]) hs.fine h
      obtain ⟨dt, hl⟩ := clear_step hn hcl hc hV hin hfirst
      exact ih _ _ _ _ _ hV hl h
    | mirror c hc hk hf hs ih =>
      intro rv P V t b hV hin h
      have hfirst := alive_first (cs := c) (by rw [(C18_trace_frame_and_order _ niter reverse rv).1, hc.2]) hs.fine h
      obtain ⟨dt, hl⟩ := mirror_step hk hf hc hin hfirst
      exact ih _ _ _ _ _ ((turnAbout_speed (flat_unit hc hf)).trans hV) hl h
  cases reverse with
  | false => rw [trace_visits] at h ⊢; exact key ho _ _ _ _ _ hV hin h
  | true => rw [trace_visits_rev] at h ⊢; exact key ho _ _ _ _ _ hV hin h

theorem three_turns {a b c : V3 ℝ} (ha : IsUnit' a) (hb : IsUnit' b) (hc : IsUnit' c) (hab : V3.dot a b = 0) (hbc : V3.dot b c = 0) (hac : V3.dot a c = 0)
    (v : V3 ℝ) : turnAbout (turnAbout (turnAbout v a) b) c = -v := by
  unfold IsUnit' at ha hb hc
  have hM : M3.Orth (⟨a.x, b.x, c.x, a.y, b.y, c.y, a.z, b.z, c.z⟩ : M3 ℝ) := by
    simp only [V3.dot] at ha hb hc hab hbc hac
    constructor <;> simp <;> linarith
  have hv := hM.mulVec_tr v
  have h1 : turnAbout (turnAbout (turnAbout v a) b) c = v - V3.smul (2 * V3.dot v a) a - V3.smul (2 * V3.dot v b) b - V3.smul (2 * V3.dot v c) c := by
    have e1 : V3.dot (turnAbout v a) b = V3.dot v b := by
      have : V3.dot (turnAbout v a) b = V3.dot v b - 2 * V3.dot v a * V3.dot a b := by simp [turnAbout, V3.dot]; ring
      rw [this, hab]; ring
    have e2 : V3.dot (turnAbout (turnAbout v a) b) c = V3.dot v c := by
      have : V3.dot (turnAbout (turnAbout v a) b) c = V3.dot v c - 2 * V3.dot v a * V3.dot a c - 2 * V3.dot (turnAbout v a) b * V3.dot b c := by
        simp [turnAbout, V3.dot]; ring
      rw [this, hbc, hac]; ring
    rw [turnAbout, e2, turnAbout, e1, turnAbout]
  rw [h1]
  have hx := congrArg V3.x hv; have hy := congrArg V3.y hv; have hz := congrArg V3.z hv
  simp only [M3.mulVec, M3.tr] at hx hy hz
  ext <;> simp [V3.dot] <;> linarith

/-- C121: three perpendicular mirrors send light back the way it came. -/
theorem C121_corner {w : Dbl} {n : ℝ} (hn : 0 < n) (o : Optic Dbl) (niter : ℕ) (reverse : Bool) {e1 e2 e3 : V3 ℝ}
    (ho : Mirrors w n reverse (if reverse then (visits o).reverse else visits o) [e1, e2, e3])
    (h1 : IsUnit' e1) (h2 : IsUnit' e2) (h3 : IsUnit' e3) (h12 : V3.dot e1 e2 = 0) (h23 : V3.dot e2 e3 = 0) (h13 : V3.dot e1 e3 = 0)
    {rv : RayVec Dbl} {i : ℕ} {P V : V3 ℝ} {t : ℝ} {b : Bool} (hV : speed V = 1 / n) (hin : LightAt rv i P V t w b) (h : Alive (o.trace niter reverse rv) i) :
    ∃ (P' : V3 ℝ) (t' : ℝ) (b' : Bool), LightAt (o.trace niter reverse rv) i P' (-V) t' w b' := by
  obtain ⟨P', t', b', g⟩ := C121_mirrors hn o niter reverse ho hV hin h
  refine ⟨P', t', b', ?_⟩
  have : [e1, e2, e3].foldl turnAbout V = -V := three_turns h1 h2 h3 h12 h23 h13 V
  rw [← this]; exact g

/-- C121: two parallel mirrors, a periscope, leave the direction as it was. -/
theorem C121_periscope {w : Dbl} {n : ℝ} (hn : 0 < n) (o : Optic Dbl) (niter : ℕ) (reverse : Bool) {e : V3 ℝ}
    (ho : Mirrors w n reverse (if reverse then (visits o).reverse else visits o) [e, e]) (he : IsUnit' e)
    {rv : RayVec Dbl} {i : ℕ} {P V : V3 ℝ} {t : ℝ} {b : Bool} (hV : speed V = 1 / n) (hin : LightAt rv i P V t w b) (h : Alive (o.trace niter reverse rv) i) :
    ∃ (P' : V3 ℝ) (t' : ℝ) (b' : Bool), LightAt (o.trace niter reverse rv) i P' V t' w b' := by
  obtain ⟨P', t', b', g⟩ := C121_mirrors hn o niter reverse ho hV hin h
  refine ⟨P', t', b', ?_⟩
  have : [e, e].foldl turnAbout V = V := by
    have hd : V3.dot (turnAbout V e) e = -V3.dot V e := by
      unfold IsUnit' at he
      have : V3.dot (turnAbout V e) e = V3.dot V e - 2 * V3.dot V e * V3.dot e e := by simp [turnAbout, V3.dot]; ring
      rw [this, he]; ring
    change turnAbout (turnAbout V e) e = V
    rw [turnAbout, hd]
    ext <;> simp [turnAbout]
  rw [← this]; exact g

/-! ### Concrete cases -/

theorem light_alive {rv : RayVec Dbl} {i : ℕ} {P V : V3 ℝ} {t : ℝ} {w : Dbl} {b : Bool} (h : LightAt rv i P V t w b) : Alive rv i := by
  obtain ⟨_, ray, -, -, hi, hr, hv, -, -, hf, -⟩ := h
  exact ⟨ray, _, _, hi, hf, hr, hv⟩

/-- Any plane, met from anywhere. -/
theorem plane_meeting {d : Iface Dbl} {c : CoordSys ℝ} (hs : d.surface = Surface.plane) (hc : Framed d c) {niter : ℕ} {w : Dbl} {P V U : V3 ℝ} {dt : ℝ}
    (hz : (c.rot.tr.mulVec V).z ≠ 0) (ht : (c.toLocal P).z + dt * (c.rot.tr.mulVec V).z = 0) (hu : Turns d w ⟨0, 0, 1⟩ (c.rot.tr.mulVec V) (c.rot.tr.mulVec U)) :
    Meeting niter w d c ⟨0, 0, 1⟩ P V dt U where
  frame := hc.2
  orth := hc.1
  meets := by
    rw [hs]
    simp only [Surface.plane, V3.fin_z, Dbl.zero_dbl, Dbl.eq_fin, hz, decide_false, Bool.false_eq_true, if_false, Dbl.neg_fin, Dbl.div_fin hz]
    have : -(c.toLocal P).z / (c.rot.tr.mulVec V).z = dt := by field_simp; linarith
    rw [this]
  normal := by rw [hs]; ext <;> simp [Surface.plane]
  unit := by simp [IsUnit', V3.dot]
  turns := hu

/-- A plane face at height `z` between two media. -/
noncomputable def demoPane (z n1 n2 : ℝ) : Iface Dbl :=
  { demoMirror with
    kind := .refractive, name := "F".toList, obscuration := none, coordSys := (CoordSys.mk ⟨0, 0, z⟩ M3.one).fin
    inMedium := ⟨fun _ => .fin n1⟩, outMedium := ⟨fun _ => .fin n2⟩ }

/-- A layer of index 4/3 in air, and a detector. -/
noncomputable def demoLayer : Optic Dbl :=
  demoComp "T" [.iface (demoPane 10 1 (4 / 3)), .iface (demoPane 8 (4 / 3) 1), .iface (demoFlat "D" 2)]

theorem demoLayer_visits : visits demoLayer = [demoPane 10 1 (4 / 3), demoPane 8 (4 / 3) 1, demoFlat "D" 2] := by
  simp [demoLayer, demoComp, visits, visitsItems, Optic.skip, demoPane, demoFlat, demoMirror]

theorem demo_framed (nm : String) (z : ℝ) : Framed (demoFlat nm z) ⟨⟨0, 0, z⟩, M3.one⟩ := ⟨M3.orth_one, rfl⟩
theorem pane_framed (z n1 n2 : ℝ) : Framed (demoPane z n1 n2) ⟨⟨0, 0, z⟩, M3.one⟩ := ⟨M3.orth_one, rfl⟩
theorem pane_flat (z n1 n2 : ℝ) : Flat (demoPane z n1 n2) ⟨⟨0, 0, z⟩, M3.one⟩ ⟨0, 0, 1⟩ := ⟨rfl, Or.inl (by ext <;> simp [M3.mulVec, M3.one])⟩

theorem demoLayer_stack : Stack (.fin 1) ⟨0, 0, 1⟩ false 1 (visits demoLayer) 1 := by
  rw [demoLayer_visits]
  refine .face _ (pane_framed _ _ _) rfl (pane_flat _ _ _) (k := 4 / 3) (by norm_num) rfl ?_
  refine .face _ (pane_framed _ _ _) rfl (pane_flat _ _ _) (k := 1) (by norm_num) rfl ?_
  exact .clear _ (demo_framed _ _) (Or.inr (Or.inl rfl)) .nil

/-- Light that falls on the plate at an angle comes out, and `C121_plate` applies. -/
example {rv : RayVec Dbl} {i : ℕ} (hin : LightAt rv i ⟨0, 0, 20⟩ ⟨4 / 5, 0, -3 / 5⟩ 0 (.fin 1) false) :
    Alive (demoLayer.trace 5 false rv) i ∧ ∃ P' t' b', LightAt (demoLayer.trace 5 false rv) i P' ⟨4 / 5, 0, -3 / 5⟩ t' (.fin 1) b' := by
  have ha : Alive (demoLayer.trace 5 false rv) i := by
    rw [trace_visits, demoLayer_visits]
    have m1 : Meeting 5 (.fin 1) (demoPane 10 1 (4 / 3)) ⟨⟨0, 0, 10⟩, M3.one⟩ ⟨0, 0, 1⟩ ⟨0, 0, 20⟩ ⟨4 / 5, 0, -3 / 5⟩ (50 / 3) ⟨9 / 20, 0, -3 / 5⟩ := by
      refine plane_meeting rfl (pane_framed _ _ _) (by simp [frame_tr]) (by simp only [frame_tr, frame_toLocal]; norm_num) ?_
      simp only [frame_tr]
      refine .lens rfl (n1 := 1) (n2 := 4 / 3) rfl rfl ⟨by norm_num, by norm_num, by norm_num [V3.dot], by norm_num [V3.dot], ?_, by norm_num [V3.dot]⟩
      ext <;> norm_num [V3.cross]
    have l1 := cross_forward m1 hin
    have m2 : Meeting 5 (.fin 1) (demoPane 8 (4 / 3) 1) ⟨⟨0, 0, 8⟩, M3.one⟩ ⟨0, 0, 1⟩ ((⟨0, 0, 20⟩ : V3 ℝ) + (⟨4 / 5, 0, -3 / 5⟩ : V3 ℝ).smulR (50 / 3)) ⟨9 / 20, 0, -3 / 5⟩ (10 / 3)
        ⟨4 / 5, 0, -3 / 5⟩ := by
      refine plane_meeting rfl (pane_framed _ _ _) (by simp [frame_tr]) (by simp only [frame_tr, frame_toLocal, V3.add_z, V3.smulR_z]; norm_num) ?_
      simp only [frame_tr]
      refine .lens rfl (n1 := 4 / 3) (n2 := 1) rfl rfl ⟨by norm_num, by norm_num, by norm_num [V3.dot], by norm_num [V3.dot], ?_, by norm_num [V3.dot]⟩
      ext <;> norm_num [V3.cross]
    have l2 := cross_forward m2 l1
    have m3 : Meeting 5 (.fin 1) (demoFlat "D" 2) ⟨⟨0, 0, 2⟩, M3.one⟩ ⟨0, 0, 1⟩
        ((⟨0, 0, 20⟩ : V3 ℝ) + (⟨4 / 5, 0, -3 / 5⟩ : V3 ℝ).smulR (50 / 3) + (⟨9 / 20, 0, -3 / 5⟩ : V3 ℝ).smulR (10 / 3)) ⟨4 / 5, 0, -3 / 5⟩ 10 ⟨4 / 5, 0, -3 / 5⟩ := by
      refine plane_meeting rfl (demo_framed _ _) (by simp [frame_tr]) (by simp only [frame_tr, frame_toLocal, V3.add_z, V3.smulR_z]; norm_num) ?_
      exact .straight (Or.inr (Or.inl rfl)) rfl
    exact light_alive (cross_forward m3 l2)
  have hV : speed (⟨4 / 5, 0, -3 / 5⟩ : V3 ℝ) = 1 / 1 := by
    rw [speed, show V3.dot (⟨4 / 5, 0, -3 / 5⟩ : V3 ℝ) ⟨4 / 5, 0, -3 / 5⟩ = 1 by norm_num [V3.dot]]; norm_num
  exact ⟨ha, C121_plate (by simp [IsUnit', V3.dot]) one_pos demoLayer 5 false demoLayer_stack hV hin ha⟩

/-- Three mirrors in the coordinate planes. -/
noncomputable def demoWall (m : M3 ℝ) : Iface Dbl := { demoMirror with obscuration := none, coordSys := (CoordSys.mk ⟨0, 0, 0⟩ m).fin }

def axisX : M3 ℝ := ⟨0, 0, 1, 1, 0, 0, 0, 1, 0⟩
def axisY : M3 ℝ := ⟨0, 1, 0, 0, 0, 1, 1, 0, 0⟩

noncomputable def demoCorner : Optic Dbl := demoComp "T" [.iface (demoWall axisX), .iface (demoWall axisY), .iface (demoWall M3.one)]

theorem demoCorner_visits : visits demoCorner = [demoWall axisX, demoWall axisY, demoWall M3.one] := by
  simp [demoCorner, demoComp, visits, visitsItems, Optic.skip, demoWall, demoMirror]

theorem axisX_orth : axisX.Orth := by constructor <;> simp [axisX]
theorem axisY_orth : axisY.Orth := by constructor <;> simp [axisY]

theorem demoCorner_mirrors : Mirrors (.fin 1) 1 false (visits demoCorner) [⟨1, 0, 0⟩, ⟨0, 1, 0⟩, ⟨0, 0, 1⟩] := by
  rw [demoCorner_visits]
  refine .mirror ⟨⟨0, 0, 0⟩, axisX⟩ ⟨axisX_orth, rfl⟩ rfl ⟨rfl, Or.inl (by ext <;> simp [M3.mulVec, axisX])⟩ ?_
  refine .mirror ⟨⟨0, 0, 0⟩, axisY⟩ ⟨axisY_orth, rfl⟩ rfl ⟨rfl, Or.inl (by ext <;> simp [M3.mulVec, axisY])⟩ ?_
  exact .mirror ⟨⟨0, 0, 0⟩, M3.one⟩ ⟨M3.orth_one, rfl⟩ rfl ⟨rfl, Or.inl (by ext <;> simp [M3.mulVec, M3.one])⟩ .nil

/-- Light that falls into the corner comes out, and `C121_corner` applies. -/
example {rv : RayVec Dbl} {i : ℕ} (hin : LightAt rv i ⟨2, 4, 3⟩ ⟨-2 / 3, -2 / 3, -1 / 3⟩ 0 (.fin 1) false) :
    ∃ P' t' b', LightAt (demoCorner.trace 5 false rv) i P' ⟨2 / 3, 2 / 3, 1 / 3⟩ t' (.fin 1) b' := by
  have ha : Alive (demoCorner.trace 5 false rv) i := by
    rw [trace_visits, demoCorner_visits]
    have m1 : Meeting 5 (.fin 1) (demoWall axisX) ⟨⟨0, 0, 0⟩, axisX⟩ ⟨0, 0, 1⟩ ⟨2, 4, 3⟩ ⟨-2 / 3, -2 / 3, -1 / 3⟩ 3 ⟨2 / 3, -2 / 3, -1 / 3⟩ := by
      refine plane_meeting rfl ⟨axisX_orth, rfl⟩ (by norm_num [M3.mulVec, M3.tr, axisX]) (by norm_num [CoordSys.toLocal, M3.mulVec, M3.tr, axisX]) ?_
      refine .mirror rfl ?_ (by norm_num [V3.dot, M3.mulVec, M3.tr, axisX])
      ext <;> norm_num [tangential, V3.dot, M3.mulVec, M3.tr, axisX]
    have l1 := cross_forward m1 hin
    have m2 : Meeting 5 (.fin 1) (demoWall axisY) ⟨⟨0, 0, 0⟩, axisY⟩ ⟨0, 0, 1⟩ ((⟨2, 4, 3⟩ : V3 ℝ) + (⟨-2 / 3, -2 / 3, -1 / 3⟩ : V3 ℝ).smulR 3) ⟨2 / 3, -2 / 3, -1 / 3⟩ 3
        ⟨2 / 3, 2 / 3, -1 / 3⟩ := by
      refine plane_meeting rfl ⟨axisY_orth, rfl⟩ (by norm_num [M3.mulVec, M3.tr, axisY]) (by norm_num [CoordSys.toLocal, M3.mulVec, M3.tr, axisY]) ?_
      refine .mirror rfl ?_ (by norm_num [V3.dot, M3.mulVec, M3.tr, axisY])
      ext <;> norm_num [tangential, V3.dot, M3.mulVec, M3.tr, axisY]
    have l2 := cross_forward m2 l1
    have m3 : Meeting 5 (.fin 1) (demoWall M3.one) ⟨⟨0, 0, 0⟩, M3.one⟩ ⟨0, 0, 1⟩
        ((⟨2, 4, 3⟩ : V3 ℝ) + (⟨-2 / 3, -2 / 3, -1 / 3⟩ : V3 ℝ).smulR 3 + (⟨2 / 3, -2 / 3, -1 / 3⟩ : V3 ℝ).smulR 3) ⟨2 / 3, 2 / 3, -1 / 3⟩ 3 ⟨2 / 3, 2 / 3, 1 / 3⟩ := by
      refine plane_meeting rfl ⟨M3.orth_one, rfl⟩ (by norm_num [M3.mulVec, M3.tr, M3.one]) (by norm_num [CoordSys.toLocal, M3.mulVec, M3.tr, M3.one]) ?_
      refine .mirror rfl ?_ (by norm_num [V3.dot, M3.mulVec, M3.tr, M3.one])
      ext <;> norm_num [tangential, V3.dot, M3.mulVec, M3.tr, M3.one]
    exact light_alive (cross_forward m3 l2)
  have hV : speed (⟨-2 / 3, -2 / 3, -1 / 3⟩ : V3 ℝ) = 1 / 1 := by
    rw [speed, show V3.dot (⟨-2 / 3, -2 / 3, -1 / 3⟩ : V3 ℝ) ⟨-2 / 3, -2 / 3, -1 / 3⟩ = 1 by norm_num [V3.dot]]; norm_num
  have := C121_corner one_pos demoCorner 5 false demoCorner_mirrors (by simp [IsUnit', V3.dot]) (by simp [IsUnit', V3.dot]) (by simp [IsUnit', V3.dot])
    (by simp [V3.dot]) (by simp [V3.dot]) (by simp [V3.dot]) hV hin ha
  have e : -(⟨-2 / 3, -2 / 3, -1 / 3⟩ : V3 ℝ) = ⟨2 / 3, 2 / 3, 1 / 3⟩ := by ext <;> norm_num
  rwa [e] at this

/-- A curved face between equal media: `C121_straight` applies. -/
example {rv : RayVec Dbl} {i : ℕ} (hin : LightAt rv i ⟨3, 0, 10⟩ ⟨0, 0, -2 / 3⟩ 0 (.fin 1) false) :
    ∃ t' b', LightAt ((Optic.iface { demoBowl with kind := .refractive }).trace 5 false rv) i (⟨3, 0, 10⟩ + (⟨0, 0, -2 / 3⟩ : V3 ℝ).smulR (t' - 0)) ⟨0, 0, -2 / 3⟩ t' (.fin 1) b' := by
  have hf : Framed { demoBowl with kind := .refractive } ⟨⟨0, 0, 0⟩, M3.one⟩ := ⟨M3.orth_one, bowl_crossing.frame⟩
  have m : Meeting 5 (.fin 1) { demoBowl with kind := .refractive } ⟨⟨0, 0, 0⟩, M3.one⟩ ⟨-3 / 5, 0, 4 / 5⟩ ⟨3, 0, 10⟩ ⟨0, 0, -2 / 3⟩ (213 / 16) ⟨0, 0, -2 / 3⟩ :=
    ⟨bowl_crossing.frame, M3.orth_one, bowl_crossing.meets, bowl_crossing.normal, bowl_crossing.unit,
      .lens rfl (n1 := 3 / 2) (n2 := 3 / 2) rfl rfl ⟨by norm_num, by norm_num, by simp only [frame_tr]; norm_num [V3.dot],
        by simp only [frame_tr]; norm_num [V3.dot], rfl, by simp only [frame_tr]; norm_num [V3.dot]⟩⟩
  have hV : speed (⟨0, 0, -2 / 3⟩ : V3 ℝ) = 1 / (3 / 2) := by
    rw [speed, show V3.dot (⟨0, 0, -2 / 3⟩ : V3 ℝ) ⟨0, 0, -2 / 3⟩ = (2 / 3) ^ 2 by norm_num [V3.dot], Real.sqrt_sq (by norm_num)]; norm_num
  obtain ⟨t', b', h, -⟩ := C121_straight (n := 3 / 2) (by norm_num) (.iface { demoBowl with kind := .refractive }) 5 false
    (by intro d hd
        simp only [visits, List.mem_singleton] at hd
        subst hd
        exact ⟨⟨_, hf⟩, Or.inr (Or.inr (Or.inr ⟨rfl, rfl⟩))⟩) hV hin (light_alive (cross_forward m hin))
  exact ⟨t', b', h⟩

end Batoid.Props
