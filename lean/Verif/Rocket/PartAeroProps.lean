import Verif.Rocket.PartAeroModel
import Verif.Rocket.AeroForceProps
import Verif.Rocket.BodyProps
import Verif.Rocket.FinPowerProps

/-!
# C84: forces of nose cones, transitions and boat tails
-/

namespace Mapleaf.Rocket
open Mapleaf.Motion V3

/-! ## What a force is, in terms of coefficients -/

/-- dynamic pressure -/
noncomputable def Flow.q (f : Flow) : ℝ := f.v.length ^ 2 * f.rho / 2

/-- the force with drag coefficient `cd`, normal force coefficient `cn`, at `cp`, with a rolling moment, at angle of attack `a` -/
noncomputable def assembled (f : Flow) (aref a cd cn : ℝ) (cp : V3 ℝ) (roll : ℝ) : FMS ℝ :=
  ⟨⟨cn * aref * f.q * (Aero.normalOf f.v).x, cn * aref * f.q * (Aero.normalOf f.v).y, -(dragToAxial a * cd * aref * f.q)⟩, cp,
    ⟨0, 0, roll⟩⟩

/-- friction drag coefficient: flat plate coefficient, corrected for the body's fineness, on the reference area -/
noncomputable def frictionCd (s : Ship) (f : Flow) (len roughness wetted fr : ℝ) : ℝ :=
  skinFriction (f.unitRe * len) len f.mach roughness s.turbulent * (1 + 0.5 / fr) * (wetted / s.aref)

/-- roll damping moment of a cylinder with the same length and wetted area -/
noncomputable def rollMoment (s : Ship) (f : Flow) (len wetted cd : ℝ) : ℝ :=
  -(cd * f.rho * s.aref / 2 * (wetted / len / (2 * Real.pi)) ^ 2 *
    Real.sqrt (f.v.length ^ 2 + (wetted / len / (2 * Real.pi) * f.omega.z) ^ 2)) * f.omega.z

theorem cdcn_iff (f : Flow) (cd cn aref roll a : ℝ) (cp : V3 ℝ) (ha : Aero.totalAOAOf f.v = .ok a) :
    forceFromCdCN f.v f.rho cd cn cp aref (some ⟨0, 0, roll⟩) = .ok (assembled f aref a cd cn cp roll) := by
  obtain ⟨a', F, h1, h2, fz, fx, fy, hl, hm⟩ := cdcn_spec f.v f.rho cd cn cp aref (some ⟨0, 0, roll⟩)
  obtain rfl : a = a' := Except.ok.inj (ha.symm.trans h1)
  rw [h2]
  congr 1
  obtain ⟨fo, lo, mo⟩ := F
  simp only [Option.getD_some] at fz fx fy hl hm
  unfold assembled Flow.q
  rw [hl, hm]
  congr 1
  exact V3.ext' fx fy fz

theorem surfaceDrag_ok_iff (s : Ship) (f : Flow) (len roughness wetted : ℝ) (r : ℝ × V3 ℝ) :
    surfaceDrag s f len roughness wetted = .ok r ↔ s.aref ≠ 0 ∧ len ≠ 0 ∧ ∃ fr, s.fineness = some fr ∧ fr ≠ 0 ∧
      r = (frictionCd s f len roughness wetted fr, ⟨0, 0, rollMoment s f len wetted (frictionCd s f len roughness wetted fr)⟩) := by
  have h := roll_damping (skinFriction (f.unitRe * len) len f.mach roughness s.turbulent) len wetted s.aref s.fineness f.omega f.v.length f.rho
  have hval : ∀ r, surfaceDrag s f len roughness wetted = .ok r → ∃ fr, s.fineness = some fr ∧
      r = (frictionCd s f len roughness wetted fr, ⟨0, 0, rollMoment s f len wetted (frictionCd s f len roughness wetted fr)⟩) := by
    rintro ⟨cd, m⟩ hr
    obtain ⟨fr, h1, h2, h3, h4, h5, -⟩ := h.2 cd m hr
    refine ⟨fr, h1, ?_⟩
    have : cd = frictionCd s f len roughness wetted fr := h2
    rw [← this]
    congr 1
    exact V3.ext' h3 h4 h5
  constructor
  · intro hr
    obtain ⟨⟨fr, e1, e2⟩, e3, e4⟩ := h.1.1 ⟨r, hr⟩
    obtain ⟨fr', g1, g2⟩ := hval r hr
    exact ⟨e3, e4, fr', g1, by rw [e1] at g1; cases g1; exact e2, g2⟩
  · rintro ⟨e3, e4, fr, e1, e2, e5⟩
    obtain ⟨r', hr'⟩ := h.1.2 ⟨⟨fr, e1, e2⟩, e3, e4⟩
    obtain ⟨fr', g1, g2⟩ := hval r' hr'
    obtain rfl : fr = fr' := Option.some.inj (e1.symm.trans g1)
    rw [e5, ← g2]
    exact hr'

theorem barrowmanCN_ok_iff (a aref top bottom c : ℝ) :
    barrowmanCN a aref top bottom = .ok c ↔ aref ≠ 0 ∧ c = 2 * Real.sin a * (bottom - top) / aref := by
  unfold barrowmanCN
  split
  · simp [*]
  · simp [*, eq_comm]

theorem build_ok_iff (n : Nose) (g : ℝ × V3 ℝ) :
    n.build = .ok g ↔ ∃ vol pl, n.volume = .ok vol ∧ n.planform = .ok pl ∧ n.wetted = .ok g.1 ∧ n.baseDiameter * n.aspectRatio ≠ 0 ∧
      g.2 = barrowmanCP (n.baseDiameter * n.aspectRatio) 0 (n.baseDiameter ^ 2 * Real.pi / 4) vol ⟨0, 0, 0⟩ := by
  unfold Nose.build
  cases hv : n.volume with
  | error e => simp [bind, Except.bind]
  | ok vol =>
    cases hp : n.planform with
    | error e => simp [bind, Except.bind]
    | ok pl =>
      cases hw : n.wetted with
      | error e => simp [bind, Except.bind]
      | ok w =>
        simp only [bind, Except.bind]
        unfold Nose.length Nose.baseArea
        split
        · rename_i h
          constructor
          · intro h'; cases h'
          · rintro ⟨_, _, -, -, -, h', -⟩; exact absurd h h'
        · rename_i h
          simp only [Except.ok.injEq]
          constructor
          · rintro rfl; exact ⟨vol, pl, rfl, rfl, rfl, h, rfl⟩
          · rintro ⟨_, _, rfl, rfl, rfl, -, h'⟩
            rw [← h']

/-! ## The three components -/

/-- **C84.** The force of a nose cone, with everything it needs: friction plus cone pressure drag on its base area, normal force
`2 sin(AOA) A_base / Aref` at its centre of pressure, roll damping, nothing else. -/
theorem noseForce_iff (n : Nose) (roughness : ℝ) (s : Ship) (f : Flow) (F : FMS ℝ) :
    noseForce n roughness s f = .ok F ↔ ∃ w cp a fr p, n.build = .ok (w, cp) ∧ Aero.totalAOAOf f.v = .ok a ∧ s.aref ≠ 0 ∧
      s.fineness = some fr ∧ fr ≠ 0 ∧
      conePressureCd |Real.arctan (n.baseDiameter / 2 / (n.baseDiameter * n.aspectRatio))| f.mach = .ok p ∧
      F = assembled f s.aref a (p * (n.baseDiameter ^ 2 * Real.pi / 4) / s.aref + frictionCd s f (n.baseDiameter * n.aspectRatio) roughness w fr)
        (2 * Real.sin a * (n.baseDiameter ^ 2 * Real.pi / 4) / s.aref) cp
        (rollMoment s f (n.baseDiameter * n.aspectRatio) w (frictionCd s f (n.baseDiameter * n.aspectRatio) roughness w fr)) := by
  unfold noseForce
  simp only [bind, Except.bind]
  cases hg : n.build with
  | error e => simp
  | ok g =>
    obtain ⟨a, ha⟩ := aoa_ok f.v
    rw [ha]
    have hlen : n.length ≠ 0 := ((build_ok_iff n g).1 hg).choose_spec.choose_spec.2.2.2.1
    dsimp only
    cases hc : barrowmanCN a s.aref 0 n.baseArea with
    | error e =>
      have : s.aref = 0 := by
        by_contra h
        unfold barrowmanCN at hc
        rw [if_neg h] at hc
        cases hc
      simp [this]
    | ok c =>
      obtain ⟨h0, hc'⟩ := (barrowmanCN_ok_iff ..).1 hc
      dsimp only
      cases hf : surfaceDrag s f n.length roughness g.1 with
      | error e =>
        dsimp only
        constructor
        · intro h; cases h
        · rintro ⟨w, cp, a', fr, p, -, -, -, h1, h2, -, -⟩
          have := (surfaceDrag_ok_iff s f n.length roughness g.1 _).2 ⟨h0, hlen, fr, h1, h2, rfl⟩
          rw [hf] at this
          cases this
      | ok r =>
        obtain ⟨-, -, fr, h1, h2, rfl⟩ := (surfaceDrag_ok_iff ..).1 hf
        dsimp only
        cases hp : conePressureCd n.halfAngle f.mach with
        | error e =>
          dsimp only
          constructor
          · intro h; cases h
          · rintro ⟨w, cp, a', fr', p, -, -, -, -, -, h, -⟩
            have : conePressureCd n.halfAngle f.mach = .ok p := h
            rw [hp] at this
            cases this
        | ok p =>
          dsimp only
          rw [cdcn_iff f _ _ _ _ a _ ha]
          constructor
          · intro h
            refine ⟨g.1, g.2, a, fr, p, rfl, rfl, h0, h1, h2, hp, ?_⟩
            rw [← Except.ok.inj h, hc', sub_zero]
            rfl
          · rintro ⟨w, cp, a', fr', p', e1, e2, -, e3, -, e4, rfl⟩
            have e4 : conePressureCd n.halfAngle f.mach = .ok p' := e4
            rw [hp] at e4
            rw [h1] at e3
            cases e1; cases e2; cases e3; cases e4
            rw [hc', sub_zero]
            rfl

theorem frictionCd_zero (s : Ship) (f : Flow) (len roughness fr : ℝ) : frictionCd s f len roughness 0 fr = 0 := by
  unfold frictionCd; simp

theorem rollMoment_zero (s : Ship) (f : Flow) (len wetted : ℝ) : rollMoment s f len wetted 0 = 0 := by
  unfold rollMoment; simp

theorem transFriction_ok_iff (t : Trans) (wetted roughness : ℝ) (s : Ship) (f : Flow) (r : ℝ × V3 ℝ) (h0 : s.aref ≠ 0) :
    transFriction t wetted roughness s f = .ok r ↔ ∃ fr, (wetted ≠ 0 → t.length ≠ 0 ∧ s.fineness = some fr ∧ fr ≠ 0) ∧
      r = (frictionCd s f t.length roughness wetted fr,
        ⟨0, 0, rollMoment s f t.length wetted (frictionCd s f t.length roughness wetted fr)⟩) := by
  unfold transFriction
  split
  · rename_i h
    subst h
    simp only [frictionCd_zero, rollMoment_zero, Except.ok.injEq, ne_eq, not_true_eq_false, false_implies, true_and, exists_const]
    exact eq_comm
  · rename_i h
    rw [surfaceDrag_ok_iff]
    constructor
    · rintro ⟨-, h1, fr, h2, h3, h4⟩; exact ⟨fr, fun _ => ⟨h1, h2, h3⟩, h4⟩
    · rintro ⟨fr, h1, h2⟩; exact ⟨h0, (h1 h).1, fr, (h1 h).2.1, (h1 h).2.2, h2⟩

/-- the common frame of both kinds of transition -/
theorem trans_frame (t : Trans) (roughness : ℝ) (s : Ship) (f : Flow) (press : Except PyErr ℝ) (k : ℝ → ℝ) (F : FMS ℝ) :
    (do
      let g ← t.geometry
      let aoa ← Aero.totalAOAOf f.v
      let cn ← barrowmanCN aoa s.aref t.topArea t.bottomArea
      let p ← press
      let fr ← transFriction t g.1 roughness s f
      forceFromCdCN f.v f.rho (k p + fr.1) cn g.2.2 s.aref (some fr.2)) = .ok F ↔
    ∃ w vol cp a fr p, t.geometry = .ok (w, vol, cp) ∧ Aero.totalAOAOf f.v = .ok a ∧ s.aref ≠ 0 ∧ press = .ok p ∧
      (w ≠ 0 → t.length ≠ 0 ∧ s.fineness = some fr ∧ fr ≠ 0) ∧
      F = assembled f s.aref a (k p + frictionCd s f t.length roughness w fr)
        (2 * Real.sin a * (t.endDiameter ^ 2 * Real.pi / 4 - t.startDiameter ^ 2 * Real.pi / 4) / s.aref) cp
        (rollMoment s f t.length w (frictionCd s f t.length roughness w fr)) := by
  simp only [bind, Except.bind]
  cases hg : t.geometry with
  | error e => simp
  | ok g =>
    obtain ⟨w, vol, cp⟩ := g
    obtain ⟨a, ha⟩ := aoa_ok f.v
    rw [ha]
    dsimp only
    cases hc : barrowmanCN a s.aref t.topArea t.bottomArea with
    | error e =>
      have : s.aref = 0 := by
        by_contra h
        unfold barrowmanCN at hc
        rw [if_neg h] at hc
        cases hc
      simp [this]
    | ok c =>
      obtain ⟨h0, hc'⟩ := (barrowmanCN_ok_iff ..).1 hc
      dsimp only
      cases press with
      | error e => simp
      | ok p =>
        dsimp only
        cases hf : transFriction t w roughness s f with
        | error e =>
          dsimp only
          constructor
          · intro h; cases h
          · rintro ⟨w', vol', cp', a', fr, p', e1, -, -, -, h, -⟩
            cases e1
            have := (transFriction_ok_iff t w roughness s f _ h0).2 ⟨fr, h, rfl⟩
            rw [hf] at this
            cases this
        | ok r =>
          obtain ⟨fr, h1, rfl⟩ := (transFriction_ok_iff _ _ _ _ _ _ h0).1 hf
          dsimp only
          rw [cdcn_iff f _ _ _ _ a _ ha]
          constructor
          · intro h
            refine ⟨w, vol, cp, a, fr, p, rfl, rfl, h0, rfl, h1, ?_⟩
            rw [← Except.ok.inj h, hc']
            rfl
          · rintro ⟨w', vol', cp', a', fr', p', e1, e2, -, e3, e4, rfl⟩
            cases e1; cases e2; cases e3
            rw [hc']
            by_cases hw : w = 0
            · subst hw
              simp only [frictionCd_zero]
              rfl
            · have := (h1 hw).2.1.symm.trans (e4 hw).2.1
              cases this
              rfl

/-- **C84.** The force of a transition: friction (none without wetted area), pressure drag on its frontal area, normal force
`2 sin(AOA) (A_bottom - A_top) / Aref`, roll damping. -/
theorem transForce_iff (t : Trans) (roughness : ℝ) (s : Ship) (f : Flow) (F : FMS ℝ) :
    transForce t roughness s f = .ok F ↔
    ∃ w vol cp a fr p, t.geometry = .ok (w, vol, cp) ∧ Aero.totalAOAOf f.v = .ok a ∧ s.aref ≠ 0 ∧ t.pressureCd f.mach = .ok p ∧
      (w ≠ 0 → t.length ≠ 0 ∧ s.fineness = some fr ∧ fr ≠ 0) ∧
      F = assembled f s.aref a
        (p * (|t.startDiameter ^ 2 * Real.pi / 4 - t.endDiameter ^ 2 * Real.pi / 4| / s.aref) + frictionCd s f t.length roughness w fr)
        (2 * Real.sin a * (t.endDiameter ^ 2 * Real.pi / 4 - t.startDiameter ^ 2 * Real.pi / 4) / s.aref) cp
        (rollMoment s f t.length w (frictionCd s f t.length roughness w fr)) :=
  trans_frame t roughness s f (t.pressureCd f.mach) (fun p => p * (|t.topArea - t.bottomArea| / s.aref)) F

/-- **C84.** The force of a boat tail: as a transition, with base drag on its lower end exactly while the engine is off (or there is none). -/
theorem boatTailForce_iff (t : Trans) (roughness : ℝ) (s : Ship) (f : Flow) (shutOff : Option ℝ) (time : ℝ) (F : FMS ℝ) :
    boatTailForce t roughness s f shutOff time = .ok F ↔
    ∃ w vol cp a fr k, t.geometry = .ok (w, vol, cp) ∧ Aero.totalAOAOf f.v = .ok a ∧ s.aref ≠ 0 ∧ t.cdFactor = some k ∧
      (w ≠ 0 → t.length ≠ 0 ∧ s.fineness = some fr ∧ fr ≠ 0) ∧
      ∃ base : ℝ, ((∀ off, shutOff = some off → off < time) → base = t.endDiameter ^ 2 * Real.pi / 4) ∧
        ((∃ off, shutOff = some off ∧ time ≤ off) → base = 0) ∧
      F = assembled f s.aref a
        (baseDragCd f.mach * (k * |t.startDiameter ^ 2 * Real.pi / 4 - t.endDiameter ^ 2 * Real.pi / 4| + base) / s.aref +
          frictionCd s f t.length roughness w fr)
        (2 * Real.sin a * (t.endDiameter ^ 2 * Real.pi / 4 - t.startDiameter ^ 2 * Real.pi / 4) / s.aref) cp
        (rollMoment s f t.length w (frictionCd s f t.length roughness w fr)) := by
  have hoff : (engineOff shutOff time = true ↔ ∀ off, shutOff = some off → off < time) := by
    unfold engineOff
    cases shutOff with
    | none => simp
    | some x => simp
  have hcd : ∀ p, s.aref ≠ 0 → (t.boatTailCd f.mach s.aref (engineOff shutOff time) = .ok p ↔ ∃ k, t.cdFactor = some k ∧
      p = baseDragCd f.mach * (k * |t.startDiameter ^ 2 * Real.pi / 4 - t.endDiameter ^ 2 * Real.pi / 4| +
        if engineOff shutOff time then t.endDiameter ^ 2 * Real.pi / 4 else 0) / s.aref) := by
    intro p h0
    unfold Trans.boatTailCd Trans.topArea Trans.bottomArea
    cases t.cdFactor with
    | none => simp
    | some k =>
      simp only [if_neg h0, Option.some.injEq, exists_eq_left', Except.ok.injEq]
      rw [eq_comm]
      apply Eq.congr_right
      cases engineOff shutOff time <;> simp <;> ring
  refine (trans_frame t roughness s f (t.boatTailCd f.mach s.aref (engineOff shutOff time)) (fun p => p) F).trans ?_
  constructor
  · rintro ⟨w, vol, cp, a, fr, p, e1, e2, h0, e3, e4, e5⟩
    obtain ⟨k, hk, rfl⟩ := (hcd p h0).1 e3
    refine ⟨w, vol, cp, a, fr, k, e1, e2, h0, hk, e4, _, ?_, ?_, e5⟩
    · intro h; rw [if_pos (hoff.2 h)]
    · rintro ⟨off, h, h'⟩
      rw [if_neg]
      intro h''
      exact absurd (hoff.1 h'' off h) (not_lt.2 h')
  · rintro ⟨w, vol, cp, a, fr, k, e1, e2, h0, hk, e4, base, b1, b2, e5⟩
    refine ⟨w, vol, cp, a, fr, _, e1, e2, h0, (hcd _ h0).2 ⟨k, hk, rfl⟩, e4, ?_⟩
    rw [e5]
    have : base = if engineOff shutOff time then t.endDiameter ^ 2 * Real.pi / 4 else 0 := by
      split
      · rename_i h; exact b1 (hoff.1 h)
      · rename_i h
        apply b2
        rw [hoff] at h
        push Not at h
        exact h
    rw [this]

end Mapleaf.Rocket
