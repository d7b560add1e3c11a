import Verif.App
import Verif.Props.Edits
import Verif.Props.Sky

/-!
# Property C107: where the viewer draws stars and telescope

The vocabulary is that of C102: `starVector`, `horizonVector` (north, east, up) and `tiltBy`.  The drawing has x to the north, y to the west and z up,
`drawn` turns the one into the other.  `Pointing alt az` is the rigid motion of a telescope that starts upright, with its x axis to the north: it is tipped about the
elevation axis and turned about the vertical.
-/

namespace Batoid.Props
open Batoid Arith Sky

/-- A direction, given by its components to the north, to the east and up, in the drawing. -/
def drawn (v : V3 ℝ) : V3 ℝ := ⟨v.x, -v.y, v.z⟩

theorem radians_eq (x : ℝ) : App.radians x = rad x := rfl

theorem rad_sub (x y : ℝ) : rad (x - y) = rad x - rad y := by unfold rad; ring
theorem rad_add (x y : ℝ) : rad (x + y) = rad x + rad y := by unfold rad; ring
theorem rad_90 : rad 90 = Real.pi / 2 := by unfold rad; ring
theorem rad_180 : rad 180 = Real.pi := by unfold rad; ring

/-! ## Stars -/

/-- C107: a star is drawn in the direction in which it is seen from the latitude `lat` when the sidereal time is `L`. -/
theorem C107_star (lat L ra dec : ℝ) :
    App.onSky lat L (App.starXYZ (rad ra) (rad dec)) = drawn ((tiltBy (rad lat)).mulVec (starVector (rad (L - ra)) (rad dec))) := by
  have e1 : rad (L + 180) = rad L + Real.pi := by rw [rad_add, rad_180]
  have e2 : rad (90 - lat) = Real.pi / 2 - rad lat := by rw [rad_sub, rad_90]
  unfold App.onSky
  rw [CoordSys.forward_eq (show (CoordSys.std ℝ).rot.Orth from M3.orth_one)]
  simp only [App.skyFrame, radians_eq, e1, e2, rad_sub]
  ext <;> simp only [CoordSys.toLocal, CoordSys.toGlobal, CoordSys.std, M3.mulVec, M3.tr, M3.mul, RotZ, RotY, App.starXYZ, drawn, tiltBy, starVector,
    V3.sub_x, V3.sub_y, V3.sub_z, V3.add_x, V3.add_y, V3.add_z, Real.cos_add_pi, Real.sin_add_pi, Real.cos_neg, Real.sin_neg, Real.cos_pi_div_two_sub,
    Real.sin_pi_div_two_sub, Real.cos_sub, Real.sin_sub, Real.cos_pi_div_two, Real.sin_pi_div_two] <;> ring

/-! ## The telescope -/

/-- The turn of the telescope: tipped by the zenith distance, then turned to the azimuth. -/
noncomputable def pointingRot (alt az : ℝ) : M3 ℝ := (RotZ (rad (90 - az))).mul (RotX (rad (90 - alt)))

/-- The centre of the elevation axis. -/
noncomputable def elevationAxis : V3 ℝ := ⟨0, 0, 5425 / 1000⟩

/-- The motion that points an upright telescope. -/
noncomputable def Pointing (alt az : ℝ) : CoordSys ℝ → CoordSys ℝ := rigid (pointingRot alt az) elevationAxis

theorem pointing_isRotation (alt az : ℝ) : IsRotation (pointingRot alt az) := isRotation_mul (rotZ_isRotation _) (rotX_isRotation _)

/-- The third axis of the telescope after the motion. -/
theorem pointing_axis (alt az : ℝ) : (pointingRot alt az).mulVec ⟨0, 0, 1⟩ = drawn (horizonVector (rad alt) (rad az)) := by
  have e1 : rad (90 - az) = Real.pi / 2 - rad az := by rw [rad_sub, rad_90]
  have e2 : rad (90 - alt) = Real.pi / 2 - rad alt := by rw [rad_sub, rad_90]
  simp only [pointingRot, e1, e2]
  ext <;> simp only [M3.mulVec, M3.mul, RotZ, RotX, drawn, horizonVector, Real.cos_pi_div_two_sub, Real.sin_pi_div_two_sub] <;> ring

mutual
theorem moved_trans {F : Type} {m m' : CoordSys F → CoordSys F} : ∀ {a b c : Optic F}, Moved m a b → Moved m' b c → Moved (m' ∘ m) a c
  | .iface d, .iface d', .iface d'', h, h' => by
    simp only [Moved] at h h' ⊢
    refine ⟨h'.kind.trans h.kind, h'.name.trans h.name, h'.surface.trans h.surface, h'.obscuration.trans h.obscuration,
      h'.inMedium.trans h.inMedium, h'.outMedium.trans h.outMedium, ?_, ?_⟩
    · rw [h'.coordSys, h.coordSys]; rfl
    · rw [h'.stop, h.stop, Option.map_map]; rfl
  | .compound d is, .compound d' is', .compound d'' is'', h, h' => by
    simp only [Moved] at h h' ⊢
    obtain ⟨h, hi⟩ := h
    obtain ⟨h', hi'⟩ := h'
    refine ⟨⟨h'.isLens.trans h.isLens, h'.name.trans h.name, h'.inMedium.trans h.inMedium, h'.outMedium.trans h.outMedium, ?_, ?_⟩, movedItems_trans hi hi'⟩
    · rw [h'.coordSys, h.coordSys]; rfl
    · rw [h'.stop, h.stop, Option.map_map]; rfl
  | .iface _, .compound _ _, _, h, _ => by simp [Moved] at h
  | .compound _ _, .iface _, _, h, _ => by simp [Moved] at h
  | .iface _, .iface _, .compound _ _, _, h => by simp [Moved] at h
  | .compound _ _, .compound _ _, .iface _, _, h => by simp [Moved] at h
theorem movedItems_trans {F : Type} {m m' : CoordSys F → CoordSys F} : ∀ {a b c : List (Optic F)}, MovedItems m a b → MovedItems m' b c →
    MovedItems (m' ∘ m) a c
  | [], [], [], _, _ => trivial
  | _ :: _, _ :: _, _ :: _, h, h' => ⟨moved_trans h.1 h'.1, movedItems_trans h.2 h'.2⟩
  | [], _ :: _, _, h, _ => by simp [MovedItems] at h
  | _ :: _, [], _, h, _ => by simp [MovedItems] at h
  | [], [], _ :: _, _, h => by simp [MovedItems] at h
  | _ :: _, _ :: _, [], _, h => by simp [MovedItems] at h
end

theorem movedItems_names {F : Type} {m : CoordSys F → CoordSys F} : ∀ {a b : List (Optic F)}, MovedItems m a b → b.map Optic.name = a.map Optic.name
  | [], [], _ => rfl
  | _ :: _, _ :: _, h => by
    simp only [List.map_cons, (moved_media h.1).2.2, movedItems_names h.2]
  | [], _ :: _, h => by simp [MovedItems] at h
  | _ :: _, [], h => by simp [MovedItems] at h

mutual
theorem wellFormed_moved {F : Type} {m : CoordSys F → CoordSys F} : ∀ {a b : Optic F}, Moved m a b → WellFormed a → WellFormed b
  | .iface d, .iface d', h, hg => by
    simp only [Moved] at h
    simp only [WellFormed] at hg ⊢
    rw [h.kind, h.inMedium, h.outMedium]
    exact hg
  | .compound d is, .compound d' is', h, hw => by
    simp only [Moved] at h
    simp only [WellFormed] at hw ⊢
    refine ⟨?_, wellFormedItems_moved h.2 hw.2⟩
    intro hl
    obtain ⟨u, v, rfl, e⟩ := hw.1 (by rw [← h.1.isLens]; exact hl)
    obtain ⟨u', v', rfl, hu, hv⟩ := movedItems_two h.2
    exact ⟨u', v', rfl, by rw [(moved_media hu).2.1, (moved_media hv).1, e]⟩
  | .iface _, .compound _ _, h, _ => by simp [Moved] at h
  | .compound _ _, .iface _, h, _ => by simp [Moved] at h
theorem wellFormedItems_moved {F : Type} {m : CoordSys F → CoordSys F} : ∀ {a b : List (Optic F)}, MovedItems m a b →
    WellFormedItems a → WellFormedItems b
  | [], [], _, h => h
  | _ :: _, _ :: _, h, hw => ⟨wellFormed_moved h.1 hw.1, wellFormedItems_moved h.2 hw.2⟩
  | [], _ :: _, h, _ => by simp [MovedItems] at h
  | _ :: _, [], h, _ => by simp [MovedItems] at h
end

mutual
theorem moved_good {F : Type} {m : CoordSys F → CoordSys F} : ∀ {a b : Optic F}, Moved m a b → Good a ∧ PrefixFree a → Good b ∧ PrefixFree b
  | .iface d, .iface d', h, hg => by
    simp only [Moved] at h
    simp only [Good, PrefixFree, and_true] at hg ⊢
    rw [h.name]
    exact hg
  | .compound d is, .compound d' is', h, ⟨hg, hp⟩ => by
    simp only [Moved] at h
    simp only [Good, PrefixFree] at hg hp ⊢
    obtain ⟨g, p⟩ := movedItems_good h.2 ⟨hg.2.2, hp.2⟩
    have hn := movedItems_names h.2
    refine ⟨⟨by rw [h.1.name]; exact hg.1, by rw [hn]; exact hg.2.1, g⟩, ?_, p⟩
    have h1 := hp.1
    rw [← List.pairwise_map (f := Optic.name) (R := fun a b => ¬ a <+: b)] at h1 ⊢
    rw [hn]; exact h1
  | .iface _, .compound _ _, h, _ => by simp [Moved] at h
  | .compound _ _, .iface _, h, _ => by simp [Moved] at h
theorem movedItems_good {F : Type} {m : CoordSys F → CoordSys F} : ∀ {a b : List (Optic F)}, MovedItems m a b →
    GoodItems a ∧ PrefixFreeItems a → GoodItems b ∧ PrefixFreeItems b
  | [], [], _, h => h
  | _ :: _, _ :: _, h, ⟨hg, hp⟩ => by
    obtain ⟨g, p⟩ := moved_good h.1 ⟨hg.1, hp.1⟩
    obtain ⟨g', p'⟩ := movedItems_good h.2 ⟨hg.2, hp.2⟩
    exact ⟨⟨g, g'⟩, ⟨p, p'⟩⟩
  | [], _ :: _, h, _ => by simp [MovedItems] at h
  | _ :: _, [], h, _ => by simp [MovedItems] at h
end

theorem wellFormedItems_append {F : Type} : ∀ {a b : List (Optic F)}, WellFormedItems (a ++ b) ↔ WellFormedItems a ∧ WellFormedItems b
  | [], b => by simp [WellFormedItems]
  | x :: a, b => by simp [WellFormedItems, wellFormedItems_append (a := a), and_assoc]

theorem edited_wellFormed {F : Type} {R : Optic F → Optic F → Prop}
    (hR : ∀ o o', R o o' → o'.inMedium = o.inMedium ∧ o'.outMedium = o.outMedium ∧ o'.name = o.name)
    (hW : ∀ o o', R o o' → WellFormed o → WellFormed o') {p : List Name} {o o' : Optic F} (h : EditedAt R p o o') (hw : WellFormed o) :
    WellFormed o' := by
  induction h with
  | here h => exact hW _ _ h hw
  | @inside d a b it it' p h ih =>
    simp only [WellFormed] at hw ⊢
    rw [wellFormedItems_append] at hw ⊢
    exact ⟨fun hl => editedAt_lens hR h (hw.1 hl), hw.2.1, ih hw.2.2.1, hw.2.2.2⟩

mutual
theorem moved_nodes {F : Type} {m : CoordSys F → CoordSys F} : ∀ {a b : Optic F}, Moved m a b →
    List.Forall₂ (fun q q' => q'.1 = q.1 ∧ Moved m q.2 q'.2) (nodes a) (nodes b)
  | .iface d, .iface d', h => by
    simp only [nodes, List.forall₂_cons, List.forall₂_nil_left_iff, and_true]
    refine ⟨?_, h⟩
    simp only [Moved] at h
    rw [h.name]
  | .compound d is, .compound d' is', h => by
    have h' := h
    simp only [Moved] at h'
    simp only [nodes, List.forall₂_cons]
    refine ⟨⟨by rw [h'.1.name], h⟩, ?_⟩
    rw [List.forall₂_map_left_iff, List.forall₂_map_right_iff]
    refine (movedItems_nodes h'.2).imp ?_
    rintro q q' ⟨h1, h2⟩
    exact ⟨by rw [h1, h'.1.name], h2⟩
  | .iface _, .compound _ _, h => by simp [Moved] at h
  | .compound _ _, .iface _, h => by simp [Moved] at h
theorem movedItems_nodes {F : Type} {m : CoordSys F → CoordSys F} : ∀ {a b : List (Optic F)}, MovedItems m a b →
    List.Forall₂ (fun q q' => q'.1 = q.1 ∧ Moved m q.2 q'.2) (nodesItems a) (nodesItems b)
  | [], [], _ => by simp [nodesItems]
  | _ :: _, _ :: _, h => List.rel_append (moved_nodes h.1) (movedItems_nodes h.2)
  | [], _ :: _, h => by simp [MovedItems] at h
  | _ :: _, [], h => by simp [MovedItems] at h
end

theorem forall₂_mem_left {α β : Type} {R : α → β → Prop} : ∀ {l : List α} {l' : List β}, List.Forall₂ R l l' → ∀ {x}, x ∈ l → ∃ y ∈ l', R x y
  | _, _, .cons h t, x, hx => by
    rcases List.mem_cons.1 hx with rfl | hx
    · exact ⟨_, List.mem_cons_self, h⟩
    · obtain ⟨y, hy, hr⟩ := forall₂_mem_left t hx
      exact ⟨y, List.mem_cons_of_mem _ hy, hr⟩

/-- A moved telescope finds under a key what the original finds under it, moved. -/
theorem moved_denotes {F : Type} {m : CoordSys F → CoordSys F} {a b : Optic F} (h : Moved m a b) {key : Name} {p : List Name} {x : Optic F}
    (hd : Denotes a key p x) : ∃ x', Denotes b key p x' ∧ Moved m x x' := by
  have hn := moved_nodes h
  obtain ⟨⟨p', x'⟩, hm, e, hx⟩ := forall₂_mem_left hn hd.1
  simp only at e hx
  subst e
  refine ⟨x', ⟨hm, ?_⟩, hx⟩
  rcases hd.2 with e | ⟨q, hq, e, hs, hu⟩
  · exact .inl e
  · refine .inr ⟨q, hq, e, hs, fun p'' x'' hm' hs' => ?_⟩
    obtain ⟨⟨r, y⟩, hr, e', -⟩ := forall₂_mem_left hn.flip hm'
    simp only at e'
    rw [e'] at hs' ⊢
    exact hu r y hr hs'

mutual
theorem nodes_size {F : Type} : ∀ (o : Optic F) (q : List Name × Optic F), q ∈ nodes o → sizeOf q.2 ≤ sizeOf o
  | .iface d, q, h => by simp [nodes] at h; subst h; exact le_rfl
  | .compound d items, q, h => by
    simp only [nodes, List.mem_cons, List.mem_map] at h
    rcases h with rfl | ⟨r, hr, rfl⟩
    · exact le_rfl
    · have := nodesItems_size items r hr
      simp only [Optic.compound.sizeOf_spec]
      omega
theorem nodesItems_size {F : Type} : ∀ (items : List (Optic F)) (q : List Name × Optic F), q ∈ nodesItems items → sizeOf q.2 ≤ sizeOf items
  | [], q, h => by simp [nodesItems] at h
  | o :: os, q, h => by
    simp only [nodesItems, List.mem_append] at h
    simp only [List.cons.sizeOf_spec]
    rcases h with h | h
    · have := nodes_size o q h
      omega
    · have := nodesItems_size os q h
      omega
end

theorem nodesItems_path {F : Type} : ∀ (items : List (Optic F)) (q : List Name × Optic F), q ∈ nodesItems items → q.1 ≠ []
  | [], q, h => by simp [nodesItems] at h
  | o :: os, q, h => by
    simp only [nodesItems, List.mem_append] at h
    rcases h with h | h
    · exact (nodes_ne_nil o q h).1
    · exact nodesItems_path os q h

/-- The height at which the telescope is put: every frame is raised by as much. -/
noncomputable def raised (c : CoordSys ℝ) : CoordSys ℝ := ⟨c.origin + ⟨0, 0, 353 / 100⟩, c.rot⟩

theorem rotZ_vertical (t z : ℝ) : (RotZ t).mulVec ⟨0, 0, z⟩ = ⟨0, 0, z⟩ := by ext <;> simp [RotZ, M3.mulVec]

theorem pointing_steps (alt az : ℝ) (c : CoordSys ℝ) :
    (c.rotateGlobal (RotZ (rad (90 - az))) ⟨0, 0, 0⟩ (some ⟨⟨0, 0, 353 / 100⟩, M3.one⟩)).rotateGlobal
      (((RotZ (rad (90 - az))).mul (RotX (rad (90 - alt)))).mul (RotZ (rad (90 - az))).tr) ⟨0, 0, 5425 / 1000⟩ (some (CoordSys.std ℝ)) = Pointing alt az c := by
  generalize hs : rad (90 - az) = s
  generalize ht : rad (90 - alt) = t
  have h := Real.sin_sq_add_cos_sq s
  simp only [Pointing, pointingRot, elevationAxis, hs, ht, rigid, rotateAbout, CoordSys.rotateGlobal, CoordSys.rotateGlobalIn, Option.getD_some]
  rw [CoordSys.mk.injEq]
  constructor
  · have hZ := (rotZ_isRotation s).orth
    have e1 : (CoordSys.std ℝ).toGlobal ⟨0, 0, 5425 / 1000⟩ = ⟨0, 0, 5425 / 1000⟩ := by
      ext <;> simp [CoordSys.toGlobal, CoordSys.std, M3.mulVec]
    have e2 : (⟨⟨0, 0, 353 / 100⟩, M3.one⟩ : CoordSys ℝ).toGlobal ⟨0, 0, 0⟩ = ⟨0, 0, 353 / 100⟩ := by
      ext <;> simp [CoordSys.toGlobal, M3.one, M3.mulVec]
    have e3 : (RotZ s).mulVec (c.origin - ⟨0, 0, 353 / 100⟩) + ⟨0, 0, 353 / 100⟩ = (RotZ s).mulVec c.origin := by
      ext <;> simp [RotZ, M3.mulVec]
    have e4 : (RotZ s).mulVec c.origin - ⟨0, 0, 5425 / 1000⟩ = (RotZ s).mulVec (c.origin - ⟨0, 0, 5425 / 1000⟩) := by
      ext <;> simp [RotZ, M3.mulVec]
    rw [e1, e2, e3, e4, M3.mul_mulVec _ (RotZ s).tr, hZ.tr_mulVec]
  · rw [M3.mul_assoc' _ (RotZ s).tr, ← M3.mul_assoc' (RotZ s).tr, (rotZ_isRotation s).1, M3.one_mul']

/-- C107: the telescope is drawn as the telescope of the configuration file, raised to its place, with the camera and all that is in it turned about the axis of the
camera by `rtp`, and the whole pointed: tipped about the elevation axis and turned to the azimuth.  Its optical axis then points to the given altitude and azimuth, and the
vertex of the telescope is as far from the elevation axis as before.  The root of the tree has the global frame. -/
theorem C107_aim (d : Comp ℝ) (items : List (Optic ℝ)) (ht : Tidy (.compound d items)) (hd : d.coordSys = CoordSys.std ℝ) (camera : Name) (cam : Optic ℝ)
    (hcam : (Optic.compound d items).getItem camera = .ok cam) (hne : cam ≠ .compound d items) (hrot : IsRotation cam.coordSys.rot) (hstop : StopAligned cam)
    (alt az rtp : ℝ) :
    ∃ t₁ t₂ T cam₁ p Q, App.aim (.compound d items) camera alt az rtp = .ok T ∧
      Moved raised (.compound d items) t₁ ∧ Moved raised cam cam₁ ∧
      IsRotation Q ∧ (∀ v, Q.mulVec (cam.coordSys.rot.mulVec v) = cam.coordSys.rot.mulVec ((RotZ (rad rtp)).mulVec v)) ∧
      EditedAt (fun a b => a = cam₁ ∧ Moved (rigid Q (raised cam.coordSys).origin) a b) p t₁ t₂ ∧
      Moved (Pointing alt az) t₂ T ∧
      T.coordSys.zhat = drawn (horizonVector (rad alt) (rad az)) ∧
      T.coordSys.origin = elevationAxis - T.coordSys.zhat.smulR (1895 / 1000) := by
  obtain ⟨p, hden⟩ := ((C48_lookup_partial d items ht.good camera).1 cam).1 hcam
  obtain ⟨t₁, h1, hm1⟩ := withGlobalShift_moved (⟨0, 0, 353 / 100⟩ : V3 ℝ) (.compound d items) ht.wellFormed
  have hm1' : Moved raised (.compound d items) t₁ := hm1
  obtain ⟨cam₁, hden1, hmc⟩ := moved_denotes hm1' hden
  obtain ⟨g1, p1⟩ := moved_good hm1' ⟨ht.good, ht.prefixFree⟩
  have w1 := wellFormed_moved hm1' ht.wellFormed
  obtain ⟨d1, i1, rfl⟩ : ∃ d1 i1, t₁ = .compound d1 i1 := by
    cases t₁ with
    | iface _ => simp [Moved] at hm1
    | compound d1 i1 => exact ⟨d1, i1, rfl⟩
  have hget1 : (Optic.compound d1 i1).getItem camera = .ok cam₁ := ((C48_lookup_partial d1 i1 g1 camera).1 cam₁).2 ⟨p, hden1⟩
  have hcs : cam₁.coordSys = raised cam.coordSys ∧ StopAligned cam₁ := by
    cases cam with
    | iface c =>
      cases cam₁ with
      | iface c1 =>
        simp only [Moved] at hmc
        refine ⟨hmc.coordSys, ?_⟩
        intro s hs
        rw [hmc.stop] at hs
        cases hst : c.stop with
        | none => rw [hst] at hs; cases hs
        | some s0 =>
          rw [hst] at hs
          simp only [Option.map_some, Option.some.injEq] at hs
          subst hs
          have := hstop s0 hst
          rw [hmc.coordSys]
          exact this
      | compound _ _ => simp [Moved] at hmc
    | compound c ci =>
      cases cam₁ with
      | iface _ => simp [Moved] at hmc
      | compound c1 ci1 => exact ⟨by simp only [Moved] at hmc; exact hmc.1.coordSys, trivial⟩
  have hrot1 : IsRotation cam₁.coordSys.rot := by rw [hcs.1]; exact hrot
  obtain ⟨p', t₂, Q, g, hp', hQ, hQv, hg, h2, hed⟩ :=
    (C49_withLocallyRotatedOptic_partial d1 i1 ⟨g1, w1, p1⟩ camera (RotZ (rad rtp)) (rotZ_isRotation _) ⟨0, 0, 0⟩ none).1 cam₁ hget1 hrot1 hcs.2
  have hg' : g = (raised cam.coordSys).origin := by
    rw [hg, ← hcs.1]
    ext <;> simp [centreAt, CoordSys.toGlobal, M3.mulVec]
  subst hg'
  have hd1 : d1.coordSys = ⟨⟨0, 0, 353 / 100⟩, M3.one⟩ := by
    simp only [Moved] at hm1'
    rw [hm1'.1.coordSys, hd]
    ext <;> simp [raised, CoordSys.std, M3.one]
  have w2 : WellFormed t₂ := edited_wellFormed (fun o o' h => moved_media h.2)
    (fun o o' h hw => wellFormed_moved h.2 hw) hed w1
  obtain ⟨d2, i2, rfl, hd2⟩ : ∃ d2 i2, t₂ = .compound d2 i2 ∧ d2.coordSys = d1.coordSys := by
    generalize hT : Optic.compound d1 i1 = o1 at hed
    cases hed with
    | here h =>
      exfalso
      obtain ⟨rfl, -⟩ := h
      subst hT
      have hpath : p = [d1.name] := by
        have hmem := hden1.1
        simp only [nodes, List.mem_cons, Prod.mk.injEq, and_true, List.mem_map] at hmem
        rcases hmem with h | ⟨q, hq, -, e⟩
        · exact h
        · have := nodesItems_size i1 q hq
          rw [e] at this
          simp at this
      have hn : d1.name = d.name := (moved_media hm1').2.2
      have hmem := hden.1
      rw [hpath, hn] at hmem
      simp only [nodes, List.mem_cons, Prod.mk.injEq, true_and, List.mem_map] at hmem
      rcases hmem with h | ⟨q, hq, e, -⟩
      · exact hne h
      · simp only [List.cons.injEq, true_and] at e
        exact nodesItems_path items q hq e
    | @inside dd a b it it' q hin =>
      simp only [Optic.compound.injEq] at hT
      exact ⟨_, _, rfl, by rw [hT.1]⟩
  rw [hd1] at hd2
  obtain ⟨t₃, h3, hm3⟩ := withGlobalRotation_moved (RotZ (rad (90 - az))) ⟨0, 0, 0⟩ (some ⟨⟨0, 0, 353 / 100⟩, M3.one⟩) (.compound d2 i2) w2
  have w3 := wellFormed_moved hm3 w2
  obtain ⟨d3, i3, rfl⟩ : ∃ d3 i3, t₃ = .compound d3 i3 := by
    cases t₃ with
    | iface _ => simp [Moved] at hm3
    | compound d3 i3 => exact ⟨d3, i3, rfl⟩
  have hd3 : d3.coordSys.rot = RotZ (rad (90 - az)) := by
    simp only [Moved] at hm3
    rw [hm3.1.coordSys, hd2]
    simp only [CoordSys.rotateGlobal, CoordSys.rotateGlobalIn]
    exact M3.mul_one' _
  obtain ⟨T, h4, hm4⟩ := withGlobalRotation_moved (((RotZ (rad (90 - az))).mul (RotX (rad (90 - alt)))).mul (RotZ (rad (90 - az))).tr) ⟨0, 0, 5425 / 1000⟩
    (some (CoordSys.std ℝ)) (.compound d3 i3) w3
  have hm : Moved (Pointing alt az) (.compound d2 i2) T := by
    have := moved_trans hm3 hm4
    have e : ((fun c : CoordSys ℝ => c.rotateGlobal (((RotZ (rad (90 - az))).mul (RotX (rad (90 - alt)))).mul (RotZ (rad (90 - az))).tr) ⟨0, 0, 5425 / 1000⟩
        (some (CoordSys.std ℝ))) ∘ fun c : CoordSys ℝ => c.rotateGlobal (RotZ (rad (90 - az))) ⟨0, 0, 0⟩ (some ⟨⟨0, 0, 353 / 100⟩, M3.one⟩)) = Pointing alt az := by
      funext c
      exact pointing_steps alt az c
    rwa [e] at this
  obtain ⟨d4, i4, rfl⟩ : ∃ d4 i4, T = .compound d4 i4 := by
    cases T with
    | iface _ => simp [Moved] at hm
    | compound d4 i4 => exact ⟨d4, i4, rfl⟩
  have hd4 : d4.coordSys = Pointing alt az ⟨⟨0, 0, 353 / 100⟩, M3.one⟩ := by
    simp only [Moved] at hm
    rw [hm.1.coordSys, hd2]
  have hz : d4.coordSys.zhat = drawn (horizonVector (rad alt) (rad az)) := by
    rw [← pointing_axis, hd4]
    simp only [Pointing, rigid, M3.mul_one']
    ext <;> simp [CoordSys.zhat, M3.mulVec]
  refine ⟨_, _, _, cam₁, p', Q, ?_, hm1', hmc, hQ, ?_, hed, hm, hz, ?_⟩
  · simp only [App.aim, radians_eq, h1, h2, bind, Except.bind, Optic.withLocalRotation, Option.getD_none, Option.getD_some, hd2, M3.one_mul']
    have e : (RotZ (rad (90 - az))).mul M3.one.tr = RotZ (rad (90 - az)) := by
      ext <;> simp [M3.mul, M3.tr, M3.one]
    rw [e, h3]
    simp only [hd3, h4]
  · intro v
    have := hQv v
    rw [hcs.1] at this
    exact this
  · show d4.coordSys.origin = _ - d4.coordSys.zhat.smulR _
    rw [hz, ← pointing_axis, hd4]
    simp only [Pointing, rigid, rotateAbout, elevationAxis]
    generalize pointingRot alt az = R
    ext <;> simp [M3.mulVec] <;> ring

/-- C107: the telescope is drawn pointing to where the star is drawn that has the right ascension and declination of the controls, if altitude and azimuth are computed by
`eq_to_az`; except for stars in the zenith and the nadir. -/
theorem C107_pointing (d : Comp ℝ) (items : List (Optic ℝ)) (ht : Tidy (.compound d items)) (hd : d.coordSys = CoordSys.std ℝ) (camera : Name) (cam : Optic ℝ)
    (hcam : (Optic.compound d items).getItem camera = .ok cam) (hne : cam ≠ .compound d items) (hrot : IsRotation cam.coordSys.rot) (hstop : StopAligned cam)
    {ra dec jd lat lon L : ℝ} (rtp : ℝ) (hL : lst (Dbl.fin jd) (.fin lon) = .fin L) (hlat : |lat| < 90)
    (hz : (App.onSky lat L (App.starXYZ (rad ra) (rad dec))).z ^ 2 ≠ 1) :
    ∃ alt az : ℝ, eqToAz (Dbl.fin ra) (.fin dec) (.fin jd) (.fin lat) (.fin lon) = (.fin alt, .fin az) ∧
      ∃ T, App.aim (.compound d items) camera alt az rtp = .ok T ∧ T.coordSys.zhat = App.onSky lat L (App.starXYZ (rad ra) (rad dec)) := by
  rw [C107_star] at hz ⊢
  obtain ⟨alt, az, e1, -, -, -, e2⟩ := C102_to_horizon (ra := ra) (dec := dec) hL hlat hz
  obtain ⟨t₁, t₂, T, cam₁, p, Q, h1, -, -, -, -, -, -, h2, -⟩ := C107_aim d items ht hd camera cam hcam hne hrot hstop alt az rtp
  exact ⟨alt, az, e1, T, h1, by rw [h2, e2]⟩

/-! ## Frames -/

/-- A turn about the own origin keeps the origin. -/
theorem rotateLocal_here (c : CoordSys ℝ) (R : M3 ℝ) : c.rotateLocal R ⟨0, 0, 0⟩ none = ⟨c.origin, c.rot.mul R⟩ := by
  have e : c.origin - c.toGlobal ⟨0, 0, 0⟩ = ⟨0, 0, 0⟩ := by ext <;> simp [CoordSys.toGlobal, M3.mulVec]
  have e' : c.toGlobal ⟨0, 0, 0⟩ = c.origin := by ext <;> simp [CoordSys.toGlobal, M3.mulVec]
  simp only [CoordSys.rotateLocal, Option.getD_none, e, e']
  congr 1
  ext <;> simp [M3.mulVec]

/-- C107: the data visualisation frame is the engineering frame with x and y exchanged, the Zernike frame is the optical frame seen from behind (x and z reversed), and
the detector is drawn on the sky upside down, far out along its axis. -/
theorem C107_frames (c : CoordSys ℝ) :
    ((App.visualFrame c).origin = c.origin ∧ (App.visualFrame c).xhat = c.yhat ∧ (App.visualFrame c).yhat = c.xhat ∧
      (App.visualFrame c).zhat = c.zhat.smulR (-1)) ∧
    ((App.zernikeFrame c).origin = c.origin ∧ (App.zernikeFrame c).xhat = c.xhat.smulR (-1) ∧ (App.zernikeFrame c).yhat = c.yhat ∧
      (App.zernikeFrame c).zhat = c.zhat.smulR (-1)) ∧
    ((App.detectorOnSky c).origin = c.zhat.smulR 15000 ∧ (App.detectorOnSky c).xhat = c.xhat.smulR (-1) ∧ (App.detectorOnSky c).yhat = c.yhat.smulR (-1) ∧
      (App.detectorOnSky c).zhat = c.zhat) := by
  refine ⟨?_, ?_, ?_⟩
  · simp only [App.visualFrame, rotateLocal_here]
    refine ⟨trivial, ?_, ?_, ?_⟩ <;> ext <;> simp [CoordSys.xhat, CoordSys.yhat, CoordSys.zhat, M3.mul, RotZ, RotX]
  · simp only [App.zernikeFrame, rotateLocal_here]
    refine ⟨trivial, ?_, ?_, ?_⟩ <;> ext <;> simp [CoordSys.xhat, CoordSys.yhat, CoordSys.zhat, M3.mul, RotY]
  · simp only [App.detectorOnSky, rotateLocal_here]
    refine ⟨?_, ?_, ?_, ?_⟩ <;> ext <;> simp [CoordSys.xhat, CoordSys.yhat, CoordSys.zhat, M3.mul, RotZ, App.skyDist] <;> ring

/-- C107: the lines drawn for a frame start at its origin and go along its axes; in the frame they are the axes. -/
theorem C107_axes (c : CoordSys ℝ) (hc : IsRotation c.rot) (ℓ : ℝ) :
    (App.axes c ℓ).map (fun q => (c.toLocal q.1, c.toLocal q.2)) = [(⟨0, 0, 0⟩, ⟨ℓ, 0, 0⟩), (⟨0, 0, 0⟩, ⟨0, ℓ, 0⟩), (⟨0, 0, 0⟩, ⟨0, 0, ℓ⟩)] := by
  have h0 : c.toGlobal ⟨0, 0, 0⟩ = c.origin := by ext <;> simp [CoordSys.toGlobal, M3.mulVec]
  have hx : c.toGlobal ⟨ℓ, 0, 0⟩ = c.origin + ⟨c.xhat.x * ℓ, c.xhat.y * ℓ, c.xhat.z * ℓ⟩ := by
    ext <;> simp [CoordSys.toGlobal, M3.mulVec, CoordSys.xhat] <;> ring
  have hy : c.toGlobal ⟨0, ℓ, 0⟩ = c.origin + ⟨c.yhat.x * ℓ, c.yhat.y * ℓ, c.yhat.z * ℓ⟩ := by
    ext <;> simp [CoordSys.toGlobal, M3.mulVec, CoordSys.yhat] <;> ring
  have hz : c.toGlobal ⟨0, 0, ℓ⟩ = c.origin + ⟨c.zhat.x * ℓ, c.zhat.y * ℓ, c.zhat.z * ℓ⟩ := by
    ext <;> simp [CoordSys.toGlobal, M3.mulVec, CoordSys.zhat] <;> ring
  have l := CoordSys.toLocal_toGlobal hc.orth
  simp only [App.axes, List.map_cons, List.map_nil, ← hx, ← hy, ← hz, l]
  rw [← h0, l]

/-! ## The focal plane -/

/-- C107: the grid of rafts is drawn in the plane of the detector, and on the sky turned by half a turn about the axis of the detector, far out along this axis. -/
theorem C107_grid (det : CoordSys ℝ) (hd : IsRotation det.rot) (x y : ℝ) :
    App.onDetector det x y = det.toGlobal ⟨x * App.raftDet, y * App.raftDet, 0⟩ ∧
    App.detectorPointOnSky det x y = det.zhat.smulR 15000 + (det.xhat.smulR (-(x * App.raftSky)) + det.yhat.smulR (-(y * App.raftSky))) := by
  have hl : ∀ v, (CoordSys.std ℝ).toLocal v = v := fun v => by ext <;> simp [CoordSys.toLocal, CoordSys.std, M3.mulVec, M3.tr]
  have hs : IsRotation (App.detectorOnSky det).rot := by
    simp only [App.detectorOnSky, rotateLocal_here]
    exact isRotation_mul hd (rotZ_isRotation _)
  constructor
  · rw [App.onDetector, CoordSys.forward_eq hd.orth, hl]
  · rw [App.detectorPointOnSky, CoordSys.forward_eq hs.orth, hl]
    simp only [App.detectorOnSky, rotateLocal_here]
    ext <;> simp [CoordSys.toGlobal, CoordSys.xhat, CoordSys.yhat, CoordSys.zhat, M3.mul, M3.mulVec, RotZ, App.skyDist] <;> ring

/-! ## The rays -/

theorem chunk_get {A : Type} (c : ℕ) (f : ℕ → List A) (hf : ∀ i, (f i).length = c) : ∀ (n i j : ℕ), i < n → j < c →
    ((List.range n).flatMap f)[i * c + j]? = (f i)[j]?
  | 0, _, _, h, _ => absurd h (Nat.not_lt_zero _)
  | n + 1, i, j, hi, hj => by
    have hl : ((List.range n).flatMap f).length = n * c := by simp [List.length_flatMap, hf]
    rw [List.range_succ, List.flatMap_append]
    rcases Nat.lt_succ_iff_lt_or_eq.1 hi with h | h
    · rw [List.getElem?_append_left (by rw [hl]; nlinarith), chunk_get c f hf n i j h hj]
    · subst h
      rw [List.getElem?_append_right (by rw [hl]; omega), hl]
      simp

/-- C107: the line of a ray runs through its positions behind all surfaces, in order, and is followed by a gap; where the ray is vignetted it is interrupted. -/
theorem C107_rays {P : Type} (gap : P) (n : ℕ) (first : List P) (outs : List (List (P × Bool))) (hf : first.length = n) (ho : ∀ o ∈ outs, o.length = n) :
    (App.rayLines gap n (App.vertices gap first outs)).length = n * (outs.length + 2) ∧
    ∀ i, i < n →
      (App.rayLines gap n (App.vertices gap first outs))[i * (outs.length + 2)]? = first[i]? ∧
      (∀ j o, outs[j]? = some o → ∀ q, o[i]? = some q →
        (App.rayLines gap n (App.vertices gap first outs))[i * (outs.length + 2) + 1 + j]? = some (if q.2 = true then gap else q.1)) ∧
      (App.rayLines gap n (App.vertices gap first outs))[i * (outs.length + 2) + 1 + outs.length]? = some gap := by
  have hc : ∀ i, (((App.vertices gap first outs) ++ [List.replicate n gap]).map fun row => row.getD i gap).length = outs.length + 2 := by
    intro i; simp [App.vertices]
  refine ⟨?_, fun i hi => ⟨?_, ?_, ?_⟩⟩
  · simp only [App.rayLines, List.length_flatMap, hc]; simp
  · have := chunk_get (outs.length + 2) _ hc n i 0 hi (by omega)
    rw [add_zero] at this
    rw [App.rayLines, this]
    simp [App.vertices, hf, hi]
  · intro j o hj q hq
    have hjl : j < outs.length := (List.getElem?_eq_some_iff.1 hj).1
    have := chunk_get (outs.length + 2) _ hc n i (1 + j) hi (by omega)
    rw [App.rayLines, add_assoc, this]
    simp only [App.vertices, List.cons_append, List.map_cons, Nat.add_comm 1 j, List.getElem?_cons_succ, List.map_append, List.map_map]
    rw [List.getElem?_append_left (by simpa using hjl)]
    simp [hj, hq]
  · have := chunk_get (outs.length + 2) _ hc n i (1 + outs.length) hi (by omega)
    rw [App.rayLines, add_assoc, this]
    simp only [App.vertices, List.cons_append, List.map_cons, Nat.add_comm 1, List.getElem?_cons_succ, List.map_append, List.map_map]
    rw [List.getElem?_append_right (by simp)]
    simp [hi]

/-! ## Cases that meet the hypotheses -/

theorem treeR_U_ne : Optic.compound (compR "U") [.iface (flatR "A" 1), .iface (flatR "B" 2)] ≠ .compound (compR "T") treeR := by
  intro h
  injection h with h1 h2
  have := congrArg Comp.name h1
  simp [compR] at this

/-- A telescope with a camera `U`, pointed to the north at half height. -/
example (rtp : ℝ) : ∃ T, App.aim (.compound (compR "T") treeR) "U".toList 45 0 rtp = .ok T ∧ T.coordSys.zhat = ⟨√2 / 2, 0, √2 / 2⟩ := by
  obtain ⟨t₁, t₂, T, cam₁, p, Q, h1, -, -, -, -, -, -, h2, -⟩ := C107_aim (compR "T") treeR treeR_tidy rfl "U".toList _ treeR_U treeR_U_ne isRotation_one trivial 45 0 rtp
  refine ⟨T, h1, ?_⟩
  have e : rad 45 = Real.pi / 4 := by unfold rad; ring
  have e0 : rad 0 = 0 := by unfold rad; ring
  rw [h2, e, e0]
  ext <;> simp [drawn, horizonVector]

/-- The same, pointed to a star on the horizon. -/
example {jd L : ℝ} (hL : lst (Dbl.fin jd) (.fin 0) = .fin L) : ∃ alt az : ℝ, ∃ T, App.aim (.compound (compR "T") treeR) "U".toList alt az 0 = .ok T ∧
    T.coordSys.zhat = App.onSky 0 L (App.starXYZ (rad (L - 90)) (rad 0)) := by
  have e0 : rad 0 = 0 := by unfold rad; ring
  obtain ⟨alt, az, -, T, h1, h2⟩ := C107_pointing (compR "T") treeR treeR_tidy rfl "U".toList _ treeR_U treeR_U_ne isRotation_one trivial (ra := L - 90) (dec := 0) (lat := 0) 0 hL
    (by norm_num) (by
      rw [C107_star]
      have e : L - (L - 90) = 90 := by ring
      rw [e, e0, rad_90]
      simp [drawn, tiltBy, M3.mulVec, starVector])
  exact ⟨alt, az, T, h1, h2⟩

/-- Two rays and two surfaces; the second ray is vignetted at the second surface. -/
example : App.rayLines 0 2 (App.vertices 0 [1, 2] [[(3, false), (4, false)], [(5, false), (6, true)]]) = [1, 3, 5, 0, 2, 4, 0, 0] ∧
    ([1, 2] : List ℕ).length = 2 ∧ ∀ o ∈ [[((3 : ℕ), false), (4, false)], [(5, false), (6, true)]], o.length = 2 := by decide

end Batoid.Props
