import Verif.Rocket.StabilityFinProps
import Verif.Rocket.AscentProps

/-!
# C97: a rocket whose centre of pressure is behind its centre of gravity turns into the wind, one whose centre of pressure is ahead turns away
-/

namespace Mapleaf.Rocket
open Mapleaf.Motion V3 ENV

/-! ## Parts -/

/-- a part that is symmetric about the axis, with an even number of straight fins, and whose tabulated force, if it is one, makes no pitching
moment of its own -/
def Part.Plain (t : ℝ) : Part → Prop
  | .mass _ | .nose _ _ _ | .motor _ | .jet _ _ _ | .table _ | .recovery _ | .damping .. => True
  | .tube _ pos _ _ _ => OnAxis pos
  | .trans _ tr _ | .boatTail _ tr _ _ => OnAxis tr.position
  | .fins _ p => p.Regular ∧ Even p.shape.geom.numFins ∧ ∀ i < p.shape.geom.numFins, p.deflection i t = 0
  | .force f => OnAxis f.force ∧ OnAxis f.loc ∧ OnAxis f.moment
  | .aero pos _ _ _ _ cmx cmy _ => OnAxis pos ∧ cmx = 0 ∧ cmy = 0

/-- the height at which the side force of a part acts: the centres of pressure of nose cone, transition, boat tail and fins (at the Mach
number of the moment), the middle of a body tube, the position of a tabulated force; no other part has a side force -/
noncomputable def Part.centre (mach : ℝ) : Part → ℝ
  | .nose _ n _ => match n.build with | .ok g => g.2.z | .error _ => 0
  | .tube _ pos len _ _ => pos.z - len / 2
  | .trans _ t _ | .boatTail _ t _ _ => match t.geometry with | .ok g => g.2.2.z | .error _ => 0
  | .fins _ p => match cpXPos p.cpCoeffs p.shape.geom.aspectRatio p.shape.mac p.macX mach with | .ok x => p.position.z - x | .error _ => 0
  | .aero pos _ _ _ _ _ _ _ => pos.z
  | _ => 0

theorem coeff_acts (v : V3 ℝ) (rho cd cl cmz : ℝ) (cp : V3 ℝ) (aref lref : ℝ) (hp : OnAxis cp) (F : FMS ℝ)
    (h : forceFromCoefficients v rho cd cl 0 0 cmz cp aref lref = .ok F) : ActsAt F v cp.z := by
  unfold forceFromCoefficients at h
  dsimp only at h
  split at h
  · obtain rfl := Except.ok.inj h
    exact (actsAt_axial (axial_of _ ⟨rfl, rfl⟩ ⟨rfl, rfl⟩ ⟨rfl, rfl⟩) v _).1
  split at h
  · cases h
  split at h
  · cases h
  obtain rfl := Except.ok.inj h
  exact actsAt_of _ v hp ⟨by simp [FMS.make], by simp [FMS.make]⟩

theorem damping_still (cx cy cz v : V3 ℝ) (rho aref lref : ℝ) (F : FMS ℝ) (h : aeroDamping cx cy cz 0 v rho aref lref = .ok F) : Axial F := by
  unfold aeroDamping at h
  have e : ∀ c : V3 ℝ, dot c 0 = 0 := fun c => by simp [dot]
  dsimp only at h
  rw [e, e, e, zero_mul] at h
  unfold forceFromCoefficients at h
  dsimp only at h
  split at h
  · obtain rfl := Except.ok.inj h
    exact axial_of _ ⟨rfl, rfl⟩ ⟨rfl, rfl⟩ ⟨rfl, rfl⟩
  split at h
  · cases h
  split at h
  · cases h
  obtain rfl := Except.ok.inj h
  refine axial_of _ ?_ ?_ ⟨rfl, rfl⟩ <;> simp [FMS.make, OnAxis]

theorem tube_acts (position cg v : V3 ℝ) (rho len d aref cf : ℝ) (fin : Option ℝ) (hp : OnAxis position) (hc : OnAxis cg) (F : FMS ℝ)
    (h : bodyTubeForce position cg 0 v rho len d aref cf fin = .ok F) :
    ActsAt F v (position.z - len / 2) ∧ ∃ a, Aero.totalAOAOf v = .ok a ∧
      push F v = 1.1 * Real.sin a ^ 2 * (d * len) * (v.length ^ 2 * rho / 2) * Real.sqrt (v.x ^ 2 + v.y ^ 2) := by
  obtain ⟨a, ha⟩ := aoa_ok v
  unfold bodyTubeForce at h
  rw [ha] at h
  dsimp only at h
  split at h
  · cases h
  rename_i hA
  rw [longitudinal_axial _ _ _ _ _ _ _ hp hc ⟨rfl, rfl⟩] at h
  split at h
  · cases h
  rename_i cd roll hroll
  have hr : OnAxis roll := by
    unfold cylinderFriction at hroll
    dsimp only at hroll
    repeat' split at hroll
    all_goals first
      | cases hroll; done
      | (have := Except.ok.inj hroll
         obtain rfl := (Prod.mk.inj this).2
         exact ⟨rfl, rfl⟩)
  obtain ⟨a', f, -, h2, -, fx, fy, hl, hm⟩ := cdcn_spec v rho cd (1.1 * Real.sin a ^ 2 * (d * len / aref)) (position - ⟨0, 0, len / 2⟩) aref
    (some (0 + roll))
  obtain rfl := Except.ok.inj (h.symm.trans h2)
  have := actsAt_of F v (by rw [hl]; exact ⟨by simp [hp.1], by simp [hp.2]⟩) (by rw [hm]; simpa [OnAxis] using hr)
  rw [hl] at this
  refine ⟨this, a, ha, ?_⟩
  obtain ⟨-, -, -, -, hn⟩ := normal_spec v
  unfold push
  rw [fx, fy, ← hn]
  have hz : (Aero.normalOf v).z = 0 := (normal_spec v).1
  simp only [dot, hz]
  field_simp
  ring

theorem assembled_push (f : Flow) (aref a cd cn : ℝ) (cp : V3 ℝ) (roll : ℝ) :
    push (assembled f aref a cd cn cp roll) f.v = cn * aref * f.q * Real.sqrt (f.v.x ^ 2 + f.v.y ^ 2) := by
  obtain ⟨hz, -, -, -, hn⟩ := normal_spec f.v
  rw [← hn]
  simp only [push, assembled, dot, hz]
  ring

theorem assembled_acts (f : Flow) (aref a cd cn : ℝ) (cp : V3 ℝ) (roll : ℝ) (h : OnAxis cp) :
    ActsAt (assembled f aref a cd cn cp roll) f.v cp.z := actsAt_of _ _ h ⟨rfl, rfl⟩

/-- **C97.** Without rotation the side force of every part acts at one height of the axis, the same for every angle of attack. -/
theorem Part.acts_at (p : Part) (c : Scene) (hp : p.Plain c.time) (hm : 0 ≤ c.flow.mach) (ho : c.flow.omega = 0) (hc : OnAxis c.cg)
    (hv : Real.sqrt (c.flow.v.x ^ 2 + c.flow.v.y ^ 2) ≤ (1 - 1e-14) * c.flow.v.length) (F : FMS ℝ) (h : p.applied c = .ok F) :
    ActsAt F c.flow.v (p.centre c.flow.mach) := by
  have z : ∀ m : Option (V3 ℝ), (∀ v, m = some v → OnAxis v) → Axial (FMS.make ⟨0, 0, 0⟩ none m) := by
    intro m hm
    refine axial_of _ ⟨rfl, rfl⟩ ?_ ⟨rfl, rfl⟩
    cases m with
    | none => exact ⟨rfl, rfl⟩
    | some v => exact hm v rfl
  cases p with
  | mass i => obtain rfl := Except.ok.inj h; exact (actsAt_axial (z none (by simp)) _ _).1
  | nose i n r =>
    obtain ⟨w, cp, a, fr, q, hb, ha, -, -, -, -, rfl⟩ := (noseForce_iff ..).1 (show noseForce n r c.ship c.flow = .ok F from h)
    have := assembled_acts c.flow c.ship.aref a (q * (n.baseDiameter ^ 2 * Real.pi / 4) / c.ship.aref +
      frictionCd c.ship c.flow (n.baseDiameter * n.aspectRatio) r w fr) (2 * Real.sin a * (n.baseDiameter ^ 2 * Real.pi / 4) / c.ship.aref) cp
      (rollMoment c.ship c.flow (n.baseDiameter * n.aspectRatio) w (frictionCd c.ship c.flow (n.baseDiameter * n.aspectRatio) r w fr))
      (nose_cp n w cp hb)
    simp only [Part.centre, hb]
    exact this
  | tube i pos len d r =>
    have h' : bodyTubeForce pos c.cg c.flow.omega c.flow.v c.flow.rho len d c.ship.aref
      (skinFriction (c.flow.unitRe * len) len c.flow.mach r c.ship.turbulent) c.ship.fineness = .ok F := h
    rw [ho] at h'
    exact (tube_acts pos c.cg c.flow.v _ _ _ _ _ _ hp hc F h').1
  | trans i t r =>
    obtain ⟨w, vol, cp, a, fr, q, hb, ha, -, -, -, rfl⟩ := (transForce_iff ..).1 (show transForce t r c.ship c.flow = .ok F from h)
    simp only [Part.centre, hb]
    exact assembled_acts _ _ _ _ _ _ _ (trans_cp t w vol cp hp hb)
  | boatTail i t r so =>
    obtain ⟨w, vol, cp, a, fr, q, hb, ha, -, -, -, base, -, -, rfl⟩ :=
      (boatTailForce_iff ..).1 (show boatTailForce t r c.ship c.flow so c.time = .ok F from h)
    simp only [Part.centre, hb]
    exact assembled_acts _ _ _ _ _ _ _ (trans_cp t w vol cp hp hb)
  | fins i p =>
    obtain ⟨cpx, h1, h2⟩ := p.acts_at_cp hp.1 c.ship c.flow c.cg c.time hp.2.2 hp.2.1 hm ho hv F h
    simp only [Part.centre, h1]
    exact h2
  | motor m =>
    change m.force c.time = .ok F at h
    unfold Motor.force at h
    split at h
    · cases h
    obtain rfl := Except.ok.inj h
    exact (actsAt_axial (axial_of _ ⟨rfl, rfl⟩ ⟨rfl, rfl⟩ ⟨rfl, rfl⟩) _ _).1
  | force f => obtain rfl := Except.ok.inj h; exact (actsAt_axial (axial_of _ hp.1 hp.2.2 hp.2.1) _ _).1
  | aero pos aref lref cd cl cmx cmy cmz =>
    obtain ⟨h1, rfl, rfl⟩ := hp
    exact coeff_acts _ _ _ _ _ _ _ _ h1 F h
  | damping cx cy cz aref lref =>
    have h' : aeroDamping cx cy cz c.flow.omega c.flow.v c.flow.rho aref lref = .ok F := h
    rw [ho] at h'
    exact (actsAt_axial (damping_still _ _ _ _ _ _ _ F h') _ _).1
  | jet ign off frac =>
    unfold Part.applied at h
    simp only [bind, Except.bind] at h
    split at h
    · rename_i hon
      split at h
      · cases h
      split at h
      · cases h
      obtain rfl := Except.ok.inj h
      unfold jetDamping
      rw [if_pos hon]
      refine (actsAt_axial (z _ ?_) _ _).1
      rintro v ⟨⟩
      rw [ho]
      exact ⟨by simp, by simp⟩
    · obtain rfl := Except.ok.inj h; exact (actsAt_axial (z _ (by simp)) _ _).1
  | table t => obtain rfl := Except.ok.inj h; exact (actsAt_axial (z none (by simp)) _ _).1
  | recovery i => obtain rfl := Except.ok.inj h; exact (actsAt_axial (z none (by simp)) _ _).1

/-! ## How large the side forces are -/

/-- the sine of the angle of attack is the lateral share of the air speed, except that angles below about 0.008 degrees count as none -/
theorem aoa_lateral (v : V3 ℝ) (hv : v ≠ 0) (a : ℝ) (h : Aero.totalAOAOf v = .ok a) :
    Real.sin a * v.length = Real.sqrt (v.x ^ 2 + v.y ^ 2) ∨ a = 0 ∧ |-v.z / v.length - 1| < 0.00000001 := by
  have hl : v.length ≠ 0 := fun h0 => hv ((V3.length_zero_iff v).1 h0)
  have hp : 0 < v.length := lt_of_le_of_ne (V3.length_nonneg v) (Ne.symm hl)
  unfold Aero.totalAOAOf V3.angle at h
  have h1 : (⟨0, 0, -1⟩ : V3 ℝ).length = 1 := by rw [length_axis, abs_neg, abs_one]
  have h2 : dot v ⟨0, 0, -1⟩ = -v.z := by simp [dot]
  rw [if_neg hl, h1, mul_one, if_neg hl, h2] at h
  dsimp only at h
  split at h
  · rename_i hlt
    obtain rfl := Except.ok.inj h
    exact .inr ⟨Real.arccos_one, hlt⟩
  · obtain rfl := Except.ok.inj h
    left
    rw [Real.sin_arccos]
    have hsq : v.length ^ 2 = v.x ^ 2 + v.y ^ 2 + v.z ^ 2 := by
      have := V3.length_sq v
      simp only [dot] at this
      linear_combination this
    have e : v.length = Real.sqrt (v.length ^ 2) := (Real.sqrt_sq hp.le).symm
    conv_lhs => rw [show Real.sqrt (1 - (-v.z / v.length) ^ 2) * v.length = Real.sqrt (1 - (-v.z / v.length) ^ 2) * Real.sqrt (v.length ^ 2) by
      rw [← e]]
    rw [← Real.sqrt_mul' _ (by positivity)]
    congr 1
    have : (1 - (-v.z / v.length) ^ 2) * v.length ^ 2 = v.length ^ 2 - v.z ^ 2 := by field_simp
    rw [this, hsq]; ring

/-- **C97.** The side forces of the hull: nose cones and body tubes push with the wind, transitions with it where they widen and against it
where they narrow. -/
theorem hull_push (c : Scene) (ho : c.flow.omega = 0) (hc : OnAxis c.cg) (F : FMS ℝ) :
    ∃ a, Aero.totalAOAOf c.flow.v = .ok a ∧
      (∀ i n r, Part.applied c (.nose i n r) = .ok F →
        push F c.flow.v = 2 * Real.sin a * (n.baseDiameter ^ 2 * Real.pi / 4) * c.flow.q * Real.sqrt (c.flow.v.x ^ 2 + c.flow.v.y ^ 2)) ∧
      (∀ i pos len d r, OnAxis pos → Part.applied c (.tube i pos len d r) = .ok F →
        push F c.flow.v = 1.1 * Real.sin a ^ 2 * (d * len) * c.flow.q * Real.sqrt (c.flow.v.x ^ 2 + c.flow.v.y ^ 2)) ∧
      (∀ i t r, Part.applied c (.trans i t r) = .ok F →
        push F c.flow.v = 2 * Real.sin a * (t.endDiameter ^ 2 * Real.pi / 4 - t.startDiameter ^ 2 * Real.pi / 4) * c.flow.q *
          Real.sqrt (c.flow.v.x ^ 2 + c.flow.v.y ^ 2)) ∧
      (∀ i t r so, Part.applied c (.boatTail i t r so) = .ok F →
        push F c.flow.v = 2 * Real.sin a * (t.endDiameter ^ 2 * Real.pi / 4 - t.startDiameter ^ 2 * Real.pi / 4) * c.flow.q *
          Real.sqrt (c.flow.v.x ^ 2 + c.flow.v.y ^ 2)) := by
  obtain ⟨a, ha⟩ := aoa_ok c.flow.v
  refine ⟨a, ha, ?_, ?_, ?_, ?_⟩
  · intro i n r h
    obtain ⟨w, cp, a', fr, q, -, ha', hA, -, -, -, rfl⟩ := (noseForce_iff ..).1 (show noseForce n r c.ship c.flow = .ok F from h)
    obtain rfl := Except.ok.inj (ha.symm.trans ha')
    rw [assembled_push]
    field_simp
  · intro i pos len d r hp h
    have h' : bodyTubeForce pos c.cg c.flow.omega c.flow.v c.flow.rho len d c.ship.aref
      (skinFriction (c.flow.unitRe * len) len c.flow.mach r c.ship.turbulent) c.ship.fineness = .ok F := h
    rw [ho] at h'
    obtain ⟨-, a', ha', e⟩ := tube_acts pos c.cg c.flow.v _ _ _ _ _ _ hp hc F h'
    obtain rfl := Except.ok.inj (ha.symm.trans ha')
    exact e
  · intro i t r h
    obtain ⟨w, vol, cp, a', fr, q, -, ha', hA, -, -, rfl⟩ := (transForce_iff ..).1 (show transForce t r c.ship c.flow = .ok F from h)
    obtain rfl := Except.ok.inj (ha.symm.trans ha')
    rw [assembled_push]
    field_simp
  · intro i t r so h
    obtain ⟨w, vol, cp, a', fr, q, -, ha', hA, -, -, base, -, -, rfl⟩ :=
      (boatTailForce_iff ..).1 (show boatTailForce t r c.ship c.flow so c.time = .ok F from h)
    obtain rfl := Except.ok.inj (ha.symm.trans ha')
    rw [assembled_push]
    field_simp

/-! ## Whole rockets -/

/-- the side force of a part along the lateral air velocity -/
noncomputable def Part.side (c : Scene) (p : Part) : ℝ :=
  match p.applied c with
  | .ok F => push F c.flow.v
  | .error _ => 0

/-- all parts of a rocket -/
def Craft.parts (c : Craft) : List Part := c.stages.flatMap StageP.parts

theorem sumForces_sum {X : Type} (A : FMS ℝ → ℝ) (hadd : ∀ a b, A (a.add b) = A a + A b) (cg : V3 ℝ)
    (h0 : A (FMS.make ⟨0, 0, 0⟩ (some cg) none) = 0) (force : X → Except PyErr (FMS ℝ)) (xs : List X) (a : X → ℝ)
    (hx : ∀ x ∈ xs, ∀ F, force x = .ok F → A F = a x) (F : FMS ℝ) (h : sumForces cg force xs = .ok F) : A F = (xs.map a).sum := by
  unfold sumForces at h
  split at h
  · cases h
  rename_i fs hfs
  obtain rfl := Except.ok.inj h
  have key : ∀ (fs : List (FMS ℝ)) (t : FMS ℝ), A (fs.foldl FMS.add t) = A t + (fs.map A).sum := by
    intro fs
    induction fs with
    | nil => intro t; simp
    | cons f fs ih => intro t; rw [List.foldl_cons, ih, hadd, List.map_cons, List.sum_cons, add_assoc]
  rw [key, h0, zero_add]
  clear h
  induction xs generalizing fs with
  | nil => cases hfs; rfl
  | cons x xs ih =>
    unfold Body.mapE at hfs
    cases h1 : force x with
    | error e => rw [h1] at hfs; cases hfs
    | ok y =>
      rw [h1] at hfs
      cases h2 : Body.mapE force xs with
      | error e => rw [h2] at hfs; cases hfs
      | ok ys =>
        rw [h2] at hfs
        obtain rfl := Except.ok.inj hfs
        rw [List.map_cons, List.map_cons, List.sum_cons, List.sum_cons, hx x (by simp) y h1, ih (fun x' hx' => hx x' (by simp [hx'])) ys h2]

/-- **C97.** The side force of the whole rocket is the sum of its parts', and about any point of the axis it tilts the rocket as if every
part's side force acted at its centre. -/
theorem Craft.tilt_sum (c : Craft) (sc : Scene) (hp : ∀ p ∈ c.parts, p.Plain sc.time) (hm : 0 ≤ sc.flow.mach) (ho : sc.flow.omega = 0)
    (hc : OnAxis sc.cg) (hv : Real.sqrt (sc.flow.v.x ^ 2 + sc.flow.v.y ^ 2) ≤ (1 - 1e-14) * sc.flow.v.length) (F : FMS ℝ)
    (h : c.force sc = .ok F) :
    push F sc.flow.v = (c.parts.map (Part.side sc)).sum ∧
    ∀ z, tilt F z sc.flow.v = (c.parts.map fun p => (p.centre sc.flow.mach - z) * p.side sc).sum := by
  have hzero : Axial (FMS.make ⟨0, 0, 0⟩ (some sc.cg) none) := axial_of _ ⟨rfl, rfl⟩ ⟨rfl, rfl⟩ hc
  have hmem : ∀ s ∈ c.stages, ∀ p ∈ s.parts, p ∈ c.parts := fun s hs p hp => List.mem_flatMap.2 ⟨s, hs, hp⟩
  have flat : ∀ (g : Part → ℝ), (c.stages.map fun s => (s.parts.map g).sum).sum = (c.parts.map g).sum := by
    intro g
    unfold Craft.parts
    induction c.stages with
    | nil => rfl
    | cons s l ih => rw [List.map_cons, List.sum_cons, List.flatMap_cons, List.map_append, List.sum_append, ih]
  constructor
  · rw [← flat]
    refine sumForces_sum (fun F => push F sc.flow.v) (fun a b => push_add a b _) sc.cg (actsAt_axial hzero _ 0).2 _ _ _ ?_ F h
    intro s hs G hG
    refine sumForces_sum (fun F => push F sc.flow.v) (fun a b => push_add a b _) sc.cg (actsAt_axial hzero _ 0).2 _ _ _ ?_ G hG
    intro p hp' H hH
    simp only [Part.side, hH]
  · intro z
    rw [← flat]
    have hz : tilt (FMS.make ⟨0, 0, 0⟩ (some sc.cg) none) z sc.flow.v = 0 := by
      rw [(actsAt_axial hzero sc.flow.v 0).1 z, (actsAt_axial hzero sc.flow.v 0).2, mul_zero]
    refine sumForces_sum (fun F => tilt F z sc.flow.v) (fun a b => tilt_add a b _ _) sc.cg hz _ _ _ ?_ F h
    intro s hs G hG
    refine sumForces_sum (fun F => tilt F z sc.flow.v) (fun a b => tilt_add a b _ _) sc.cg hz _ _ _ ?_ G hG
    intro p hp' H hH
    have := p.acts_at sc (hp p (hmem s hs p hp')) hm ho hc hv H hH z
    simp only [Part.side, hH]
    exact this

theorem flow_of {s : RBState} {c : Conditions} {f : Flow} (h : flowOf s c = .ok f) : 0 ≤ f.mach ∧ f.omega = s.angVel := by
  unfold flowOf at h
  simp only [bind, Except.bind] at h
  split at h
  · cases h
  rename_i mach hmach
  split at h
  · cases h
  split at h
  · cases h
  obtain rfl := Except.ok.inj h
  refine ⟨?_, rfl⟩
  unfold Aero.machOf at hmach
  split at hmach
  · cases hmach
  split at hmach
  · cases hmach
  obtain rfl := Except.ok.inj hmach
  exact div_nonneg (V3.length_nonneg _) (Real.sqrt_nonneg _)

/-- **C97.** Off the rail and not yet rotating, the axis of a rocket with equal lateral moments of inertia is accelerated, in the plane of
the wind, by the sum of the parts' side forces times their lever arms about the centre of gravity, divided by the moment of inertia. Gravity
and thrust do not turn it. -/
theorem Craft.turn_rate (c : Craft) (E : Env) (t : ℝ) (s : RBState) (d : RBDeriv) (h : c.rhs E t s = .ok d) (hr : E.rail = none)
    (hw : s.angVel = 0) (hp : ∀ p ∈ c.parts, p.Plain t) :
    ∃ air i flow, E.conditions false s.pos (some t) = .ok air ∧ c.inertia t = .ok i ∧ flowOf s air = .ok flow ∧
      (OnAxis i.cg → i.moi.x = i.moi.y → Real.sqrt (flow.v.x ^ 2 + flow.v.y ^ 2) ≤ (1 - 1e-14) * flow.v.length →
        dot (cross d.angAcc ⟨0, 0, 1⟩) flow.v = (c.parts.map fun p => (p.centre flow.mach - i.cg.z) *
          p.side ⟨c.ship, flow, t, i.cg, fun t => (c.inertia t).map (·.moi.x)⟩).sum / i.moi.x) := by
  unfold Craft.rhs at h
  simp only [bind, Except.bind] at h
  split at h
  · cases h
  rename_i F hF
  split at h
  · cases h
  rename_i i hi
  split at h
  · cases h
  rename_i i' hi'
  unfold Craft.appliedForce at hF
  simp only [bind, Except.bind] at hF
  split at hF
  · cases hF
  rename_i air hair
  rw [hi] at hF
  dsimp only at hF
  split at hF
  · cases hF
  rename_i flow hflow
  split at hF
  · cases hF
  split at hF
  · cases hF
  rename_i parts hparts
  split at hF
  · cases hF
  rename_i g hg
  rw [hr] at hF
  obtain rfl := Except.ok.inj hF
  refine ⟨air, i, flow, hair, hi, hflow, fun hcg hI hv => ?_⟩
  obtain ⟨hm, ho⟩ := flow_of hflow
  rw [hw] at ho
  obtain ⟨-, htilt⟩ := c.tilt_sum ⟨c.ship, flow, t, i.cg, fun t => (c.inertia t).map (·.moi.x)⟩ hp hm ho hcg hv parts hparts
  have hgr : g.loc = i.cg ∧ g.moment = ⟨0, 0, 0⟩ := by
    unfold Env.gravityForce at hg
    split at hg
    · cases hg
    split at hg
    · cases hg
    obtain rfl := Except.ok.inj hg
    exact ⟨rfl, rfl⟩
  have hmom : ((parts.getAt i.cg).add g).moment = parts.momentAbout ⟨0, 0, i.cg.z⟩ := by
    rw [← onAxis_form hcg]
    show (parts.getAt i.cg).moment + (g.moment + cross (g.loc - (parts.getAt i.cg).loc) g.force) = _
    rw [hgr.1, hgr.2]
    have : i.cg - (parts.getAt i.cg).loc = 0 := sub_self i.cg
    rw [this]
    show parts.momentAbout i.cg + _ = _
    apply V3.ext' <;> simp [cross]
  rw [← htilt i.cg.z, tilt_form]
  unfold rigidBodyDerivative at h
  split at h
  · cases h
  split at h
  · cases h
  split at h
  · cases h
  split at h
  · cases h
  split at h
  · cases h
  obtain rfl := Except.ok.inj h
  dsimp only
  rw [hmom, hw, ← hI]
  simp only [dot, cross, V3.zero_x, V3.zero_y, V3.zero_z]
  ring

/-- **C97.** Hence the sign of static stability: with a side force along the wind whose weighted centre `Z` lies below the centre of gravity
the axis turns into the wind, with `Z` above it turns away, and with both at the same height it does not turn. -/
theorem Craft.static_stability (c : Craft) (E : Env) (t : ℝ) (s : RBState) (d : RBDeriv) (h : c.rhs E t s = .ok d) (hr : E.rail = none)
    (hw : s.angVel = 0) (hp : ∀ p ∈ c.parts, p.Plain t) :
    ∃ air i flow, E.conditions false s.pos (some t) = .ok air ∧ c.inertia t = .ok i ∧ flowOf s air = .ok flow ∧
      (OnAxis i.cg → i.moi.x = i.moi.y → 0 < i.moi.x → Real.sqrt (flow.v.x ^ 2 + flow.v.y ^ 2) ≤ (1 - 1e-14) * flow.v.length →
        ∀ S Z, (c.parts.map (Part.side ⟨c.ship, flow, t, i.cg, fun t => (c.inertia t).map (·.moi.x)⟩)).sum = S → 0 < S →
        (c.parts.map fun p => p.centre flow.mach * p.side ⟨c.ship, flow, t, i.cg, fun t => (c.inertia t).map (·.moi.x)⟩).sum = Z * S →
        (dot (cross d.angAcc ⟨0, 0, 1⟩) flow.v < 0 ↔ Z < i.cg.z) ∧ (0 < dot (cross d.angAcc ⟨0, 0, 1⟩) flow.v ↔ i.cg.z < Z) ∧
        (dot (cross d.angAcc ⟨0, 0, 1⟩) flow.v = 0 ↔ Z = i.cg.z)) := by
  obtain ⟨air, i, flow, h1, h2, h3, h4⟩ := c.turn_rate E t s d h hr hw hp
  refine ⟨air, i, flow, h1, h2, h3, fun hcg hI hI0 hv S Z hS hS0 hZ => ?_⟩
  have e : dot (cross d.angAcc ⟨0, 0, 1⟩) flow.v = (Z - i.cg.z) * (S / i.moi.x) := by
    rw [h4 hcg hI hv]
    have : (c.parts.map fun p => (p.centre flow.mach - i.cg.z) *
        p.side ⟨c.ship, flow, t, i.cg, fun t => (c.inertia t).map (·.moi.x)⟩).sum = Z * S - i.cg.z * S := by
      rw [← hZ, ← hS, ← List.sum_map_mul_left]
      induction c.parts with
      | nil => simp
      | cons p l ih => simp only [List.map_cons, List.sum_cons, ih]; ring
    rw [this]; ring
  have hk : 0 < S / i.moi.x := div_pos hS0 hI0
  rw [e]
  refine ⟨?_, ?_, ?_⟩
  · rw [mul_neg_iff]
    constructor
    · rintro (⟨-, h0⟩ | ⟨h0, -⟩)
      · exact absurd h0 (not_lt.2 hk.le)
      · linarith
    · intro h0; exact .inr ⟨by linarith, hk⟩
  · rw [mul_pos_iff_of_pos_right hk, sub_pos]
  · rw [mul_eq_zero, or_iff_left hk.ne', sub_eq_zero]

/-- **C97.** The height the simulation logs as centre of pressure is that weighted centre, when the total side force is along the wind. -/
theorem Craft.logged_cp (c : Craft) (sc : Scene) (hp : ∀ p ∈ c.parts, p.Plain sc.time) (hm : 0 ≤ sc.flow.mach) (ho : sc.flow.omega = 0)
    (hc : OnAxis sc.cg) (hv : Real.sqrt (sc.flow.v.x ^ 2 + sc.flow.v.y ^ 2) ≤ (1 - 1e-14) * sc.flow.v.length) (F : FMS ℝ)
    (h : c.force sc = .ok F) (hl : OnAxis F.loc) (k : ℝ) (hk : k ≠ 0) (hx : F.force.x = k * sc.flow.v.x) (hy : F.force.y = k * sc.flow.v.y)
    (hside : ¬ OnAxis sc.flow.v) :
    cpz F * (c.parts.map (Part.side sc)).sum = (c.parts.map fun p => p.centre sc.flow.mach * p.side sc).sum := by
  obtain ⟨h1, h2⟩ := c.tilt_sum sc hp hm ho hc hv F h
  have hne : ¬ (F.force.x = 0 ∧ F.force.y = 0) := by
    rintro ⟨a, b⟩
    rw [hx] at a
    rw [hy] at b
    exact hside ⟨(mul_eq_zero.1 a).resolve_left hk, (mul_eq_zero.1 b).resolve_left hk⟩
  have h3 := ((cpz_spec F).2 hne).1
  have h4 : tilt F (cpz F) sc.flow.v = 0 := by
    rw [tilt_form]
    have e : (F.getAt ⟨F.loc.x, F.loc.y, cpz F⟩).moment = F.momentAbout ⟨0, 0, cpz F⟩ := by
      rw [hl.1, hl.2]; rfl
    rw [e] at h3
    simp only [dot, hx, hy] at h3
    have : k * ((F.momentAbout ⟨0, 0, cpz F⟩).y * sc.flow.v.x - (F.momentAbout ⟨0, 0, cpz F⟩).x * sc.flow.v.y) = 0 := by
      linear_combination -h3
    exact (mul_eq_zero.1 this).resolve_left hk
  rw [h2] at h4
  have : (c.parts.map fun p => (p.centre sc.flow.mach - cpz F) * p.side sc).sum =
      (c.parts.map fun p => p.centre sc.flow.mach * p.side sc).sum - cpz F * (c.parts.map (Part.side sc)).sum := by
    rw [← List.sum_map_mul_left]
    induction c.parts with
    | nil => simp
    | cons p l ih => simp only [List.map_cons, List.sum_cons, ih]; ring
  linarith

end Mapleaf.Rocket
