import Verif.Rocket.AscentProps

/-!
# C95, last part: from the launch definition to the flight; flights without roll
-/

namespace Mapleaf.Rocket
open Mapleaf.Motion V3 ENV

/-! ## The launch -/

theorem orientation_yaw {rotation : Option (V3 ℝ × ℝ)} {dir : V3 ℝ} {q : Quat ℝ} (hr : ∀ p, rotation = some p → OnAxis p.1) (hd : OnAxis dir)
    (h : initialOrientation rotation dir = .ok q) : Yaw q := by
  unfold initialOrientation at h
  split at h
  · obtain rfl := Except.ok.inj h
    exact yaw_axisAngle (hr _ rfl) _
  · dsimp only at h
    split at h
    · cases h
    obtain rfl := Except.ok.inj h
    have := normalize_onAxis hd
    exact yaw_axisAngle ⟨by simp [cross, this.2], by simp [cross, this.1]⟩ _

/-- **C95.** What a definition with vertical launch direction, velocity and spin starts: a vertical flight over the launch position. -/
theorem launch_vertical (E : Env) (hE : Calm E) (pos vel w dir cg : V3 ℝ) (rotation : Option (V3 ℝ × ℝ)) (len : ℝ)
    (hr : ∀ p, rotation = some p → OnAxis p.1) (hd : OnAxis dir) (hv : OnAxis vel) (hw : OnAxis w) (hc : OnAxis cg)
    (hrail : makeRail E.earth E.elevation E.lat E.lon len pos rotation dir = .ok E.rail) (s : RBState)
    (h : E.initialState pos vel w rotation dir cg = .ok s) : Vertical pos.x pos.y ⟨0, s, E.rail, none⟩ := by
  have hglob : ∀ (s : RBState) a b, E.earth.toGlobal s a b = .ok s := by
    intro s a b
    rcases hE.earth with e | e <;> rw [e] <;> rfl
  refine ⟨?_, ?_, by simp⟩
  · unfold Env.initialState at h
    split at h
    · cases h
    rename_i q hq
    have hy := orientation_yaw hr hd hq
    unfold Env.initialToGlobal at h
    dsimp only at h
    rw [hglob] at h
    dsimp only at h
    unfold moveToCG at h
    split at h
    · cases h
    rename_i c o hrot
    obtain rfl := Except.ok.inj h
    have hori : (if E.rail.isSome = true then ({ pos := pos + ⟨0, 0, E.elevation⟩, vel := vel, ori := q, angVel := ⟨0, 0, 0⟩ } : RBState)
        else ⟨pos + ⟨0, 0, E.elevation⟩, vel, q, w⟩).ori = q := by split <;> rfl
    rw [hori] at hrot
    obtain ⟨rfl, hy'⟩ := yaw_rotate hy hc hrot
    refine ⟨?_, ?_, ?_, hy'.1, hy'.2, ?_⟩
    · show ((if E.rail.isSome = true then _ else _ : RBState).pos + c).x = _
      split <;> simp [hc.1]
    · show ((if E.rail.isSome = true then _ else _ : RBState).pos + c).y = _
      split <;> simp [hc.2]
    · show OnAxis (if E.rail.isSome = true then _ else _ : RBState).vel
      split <;> exact hv
    · show OnAxis (if E.rail.isSome = true then _ else _ : RBState).angVel
      split
      · exact ⟨rfl, rfl⟩
      · exact hw
  · intro r hr'
    change E.rail = some r at hr'
    rw [hr'] at hrail
    unfold makeRail at hrail
    split at hrail
    · split at hrail
      · cases hrail
      rename_i q hq
      have hy : Yaw q := orientation_yaw (rotation := rotation) (dir := dir) hr hd hq
      rw [hglob] at hrail
      dsimp only at hrail
      split at hrail
      · cases hrail
      rename_i d o hrot
      obtain rfl := Option.some.inj (Except.ok.inj hrail)
      obtain ⟨rfl, -⟩ := yaw_rotate hy (v := ⟨0, 0, 1⟩) ⟨rfl, rfl⟩ hrot
      exact ⟨normalize_onAxis ⟨rfl, rfl⟩, by simp [Rail.make], by simp [Rail.make], calm_rate hE⟩
    · cases hrail

/-! ## No roll -/

/-- a part that makes no rolling moment of its own -/
def Part.Rolless : Part → Prop
  | .fins _ p => ∀ t, ∀ i < p.shape.geom.numFins, p.deflection i t = 0
  | .force f => f.moment.z = 0
  | .aero _ _ _ _ _ _ _ cmz => cmz = 0
  | _ => True

/-- a rocket whose fins are not canted, and whose other parts are told to make no rolling moment -/
def Craft.Rolless (c : Craft) : Prop := ∀ s ∈ c.stages, ∀ p ∈ s.parts, p.Rolless

theorem FinP.law_zero (p : FinP) (mach : ℝ) (s : FinSlice) : p.law mach s 0 = 0 := by
  unfold FinP.law
  split
  · simp [FinP.subLaw]
  · split
    · simp [FinP.subLaw, FinP.supLaw, finBlend]
    · simp [FinP.supLaw]

theorem rawAOA_zero (v : ℝ) : rawAOA 0 v = 0 := by
  unfold rawAOA
  rw [zero_mul, zero_sub, abs_neg, abs_one, if_neg (show ¬ (1 : ℝ) < 1e-14 by norm_num)]
  simp

/-- a fin that is not deflected, in axial flow without roll, makes no rolling moment -/
theorem FinP.still (p : FinP) (h : p.Ok) (mach q aref vz cpx cd : ℝ) (hm : 0 ≤ mach) (f : FMS ℝ)
    (hf : p.force mach q aref ⟨0, 0, vz⟩ 0 0 cpx cd = .ok f) (z : ℝ) : (f.momentAbout ⟨0, 0, z⟩).z = 0 := by
  have h1 := FinP.roll_moment p h mach q aref ⟨0, 0, vz⟩ 0 cpx cd hm f hf z
  have h2 : p.aoa ⟨0, 0, vz⟩ p.normal0 0 = fun _ => 0 := by
    have := FinP.turned_aoa p h p.spanwise h.sz h.unit vz 0 1 0
    rw [show (⟨1 * p.spanwise.y, -(1 * p.spanwise.x), -0⟩ : V3 ℝ) = p.normal0 by simp [FinP.normal0]] at this
    rw [show p.turned p.spanwise = p from rfl] at this
    rw [this]
    funext s
    rw [show (1 : ℝ) * (s.radius * 0) - 0 * vz = 0 by ring]
    exact rawAOA_zero _
  rw [h2] at h1
  simp only [FinP.law_zero, zero_mul] at h1
  rw [show (f.momentAbout ⟨0, 0, z⟩).z = (f.getAt ⟨0, 0, z⟩).moment.z from rfl, h1]
  simp

theorem FinSet.force_still (p : FinSet) (h : p.Regular) (hd : ∀ t, ∀ i < p.shape.geom.numFins, p.deflection i t = 0) (s : Ship) (f : Flow)
    (cg : V3 ℝ) (t : ℝ) (hm : 0 ≤ f.mach) (hv : OnAxis f.v) (ho : f.omega = 0) (hc : OnAxis cg) (F : FMS ℝ)
    (hF : p.force s f cg t = .ok F) : F.moment.z = 0 := by
  unfold FinSet.force at hF
  simp only [bind, Except.bind] at hF
  split at hF
  · cases hF
  rename_i cd _
  split at hF
  · cases hF
  rename_i cpx _
  split at hF
  · cases hF
  rename_i dirs hdir
  split at hF
  · cases hF
  rename_i fins hfins
  obtain rfl := Except.ok.inj hF
  have hvel : finAirVel f.v f.omega p.position cg = ⟨0, 0, f.v.z⟩ := by
    rw [ho]
    apply V3.ext' <;> simp [finAirVel, cross, hv.1, hv.2]
  have h0 : p.shape.geom.numFins ≠ 0 := by have := h.two; omega
  obtain ⟨hl, hunit, -⟩ := (directions_spec p.shape.geom).2 h0
  rw [hdir] at hl
  have hl := Except.ok.inj hl
  obtain ⟨-, -, e3⟩ := finSet_sum p.position p.factor fins
  have e : (finSetForce p.position p.factor fins).moment.z = ((finSetForce p.position p.factor fins).momentAbout p.position).z := by
    have e1 := (finSet_sum p.position p.factor fins).1
    simp [FMS.momentAbout, e1, cross]
  rw [e, e3]
  show (fins.map fun f => (f.momentAbout p.position).z).sum = 0
  apply List.sum_eq_zero
  intro x hx
  obtain ⟨g, hg, rfl⟩ := List.mem_map.1 hx
  obtain ⟨⟨d, i⟩, hd1, hd2⟩ := mapE_mem _ _ _ hfins g hg
  have hmem : d ∈ dirs ∧ i < p.shape.geom.numFins := by
    have h1 := List.mem_zipIdx hd1
    have hlen : dirs.length = p.shape.geom.numFins := by rw [hl]; simp
    refine ⟨?_, by omega⟩
    rw [h1.2.2]; exact List.getElem_mem _
  have hu : d.z = 0 ∧ d.x ^ 2 + d.y ^ 2 = 1 := by
    have := hmem.1
    rw [hl] at this
    obtain ⟨j, -, rfl⟩ := List.mem_map.1 this
    exact hunit j
  dsimp only at hd2
  rw [hvel, ho, hd t i hmem.2] at hd2
  have hok : (p.fin d).Ok := FinP.turned_ok (p.fin ⟨1, 0, 0⟩) (p.fin_ok h) d hu.1 hu.2
  rw [onAxis_form h.onAxis]
  exact FinP.still (p.fin d) hok _ _ _ _ _ _ hm g hd2 _

theorem assembled_roll (s : Ship) (f : Flow) (aref a cd cn : ℝ) (cp : V3 ℝ) (len w fr : ℝ) (ho : f.omega = 0) :
    (assembled f aref a cd cn cp (rollMoment s f len w fr)).moment.z = 0 := by
  simp [assembled, rollMoment, ho]

theorem Part.applied_still (p : Part) (hp : p.Symmetric) (hr : p.Rolless) (c : Scene) (hm : 0 ≤ c.flow.mach) (hv : OnAxis c.flow.v)
    (ho : c.flow.omega = 0) (hc : OnAxis c.cg) (F : FMS ℝ) (h : p.applied c = .ok F) : F.moment.z = 0 := by
  cases p with
  | mass i => obtain rfl := Except.ok.inj h; rfl
  | nose i n r =>
    obtain ⟨w, cp, a, fr, p, -, -, -, -, -, -, rfl⟩ := (noseForce_iff ..).1 h
    exact assembled_roll _ _ _ _ _ _ _ _ _ _ ho
  | tube i pos len d r =>
    change bodyTubeForce _ _ _ _ _ _ _ _ _ _ = .ok F at h
    obtain ⟨a, h1, h2⟩ := aoa_sin c.flow.v.z
    rw [← onAxis_form hv] at h1
    unfold bodyTubeForce at h
    rw [h1, ho] at h
    dsimp only at h
    split at h
    · cases h
    rw [h2, longitudinal_axial _ _ _ _ _ _ _ hp.2 hc ⟨rfl, rfl⟩] at h
    split at h
    · cases h
    rename_i cd roll hroll
    have hr : roll.z = 0 := by
      unfold cylinderFriction at hroll
      dsimp only at hroll
      repeat' split at hroll
      all_goals first
        | cases hroll; done
        | (have := Except.ok.inj hroll
           obtain rfl := (Prod.mk.inj this).2
           simp)
    unfold forceFromCdCN at h
    rw [h1] at h
    obtain rfl := Except.ok.inj h
    simp [FMS.make, hr]
  | trans i t r =>
    obtain ⟨w, vol, cp, a, fr, p, -, -, -, -, -, rfl⟩ := (transForce_iff ..).1 h
    exact assembled_roll _ _ _ _ _ _ _ _ _ _ ho
  | boatTail i t r so =>
    obtain ⟨w, vol, cp, a, fr, p, -, -, -, -, -, base, -, -, rfl⟩ := (boatTailForce_iff ..).1 h
    exact assembled_roll _ _ _ _ _ _ _ _ _ _ ho
  | fins i p => exact p.force_still hp.2 hr _ _ _ _ hm hv ho hc F h
  | motor m =>
    change m.force c.time = .ok F at h
    unfold Motor.force at h
    split at h
    · cases h
    obtain rfl := Except.ok.inj h
    rfl
  | force f => obtain rfl := Except.ok.inj h; exact hr
  | aero pos aref lref cd cl cmx cmy cmz =>
    obtain rfl : cmz = 0 := hr
    obtain ⟨-, rfl, rfl, rfl⟩ := hp
    change forceFromCoefficients _ _ _ _ _ _ _ _ _ _ = .ok F at h
    unfold forceFromCoefficients at h
    dsimp only at h
    split at h
    · obtain rfl := Except.ok.inj h; rfl
    split at h
    · cases h
    split at h
    · cases h
    obtain rfl := Except.ok.inj h
    simp [FMS.make]
  | damping cx cy cz aref lref =>
    change aeroDamping _ _ _ _ _ _ _ _ = .ok F at h
    unfold aeroDamping at h
    have e : ∀ v : V3 ℝ, dot v c.flow.omega = 0 := by intro v; rw [ho]; simp [dot]
    dsimp only at h
    rw [e, e, e, zero_mul] at h
    unfold forceFromCoefficients at h
    dsimp only at h
    split at h
    · obtain rfl := Except.ok.inj h; rfl
    split at h
    · cases h
    split at h
    · cases h
    obtain rfl := Except.ok.inj h
    simp [FMS.make]
  | jet ign off frac =>
    unfold Part.applied at h
    simp only [bind, Except.bind] at h
    split at h
    · rename_i hon
      split at h
      · cases h
      split at h
      · cases h
      obtain rfl := Except.ok.inj h
      unfold jetDamping
      rw [if_pos hon, ho]
      simp [FMS.make]
    · obtain rfl := Except.ok.inj h; rfl
  | table t => obtain rfl := Except.ok.inj h; rfl
  | recovery i => obtain rfl := Except.ok.inj h; rfl

/-- what pushes along the axis without twisting -/
def Plain (f : FMS ℝ) : Prop := Axial f ∧ (f.momentAbout ⟨0, 0, 0⟩).z = 0

theorem plain_of {f : FMS ℝ} (h : Axial f) (hz : f.moment.z = 0) : Plain f :=
  ⟨h, by simp [FMS.momentAbout, cross, h.1, h.2.1, hz]⟩

theorem plain_moment {f : FMS ℝ} (h : Plain f) : f.moment.z = 0 := by
  have := h.2
  simpa [FMS.momentAbout, cross, h.1.1, h.1.2.1] using this

theorem plain_add {a b : FMS ℝ} (ha : Plain a) (hb : Plain b) : Plain (a.add b) :=
  ⟨axial_add ha.1 hb.1, by rw [(FMS.add_spec a b _).2, add_z, ha.2, hb.2, add_zero]⟩

theorem sumForces_plain {X : Type} (cg : V3 ℝ) (hc : OnAxis cg) (force : X → Except PyErr (FMS ℝ)) (xs : List X)
    (hx : ∀ x ∈ xs, ∀ F, force x = .ok F → Plain F) (F : FMS ℝ) (h : sumForces cg force xs = .ok F) : Plain F := by
  unfold sumForces at h
  split at h
  · cases h
  rename_i fs hfs
  obtain rfl := Except.ok.inj h
  have hall : ∀ f ∈ fs, Plain f := by
    intro f hf
    obtain ⟨x, h1, h2⟩ := mapE_mem force xs fs hfs f hf
    exact hx x h1 f h2
  clear hfs h
  have h0 : Plain (FMS.make ⟨0, 0, 0⟩ (some cg) none) := plain_of (axial_of _ ⟨rfl, rfl⟩ ⟨rfl, rfl⟩ hc) rfl
  generalize FMS.make (⟨0, 0, 0⟩ : V3 ℝ) (some cg) none = acc at h0
  induction fs generalizing acc with
  | nil => exact h0
  | cons f fs ih => exact ih (fun g hg => hall g (by simp [hg])) _ (plain_add h0 (hall f (by simp)))

/-- **C95.** In axial flow without roll the parts of a symmetric rocket with straight fins make no rolling moment. -/
theorem Craft.force_plain (c : Craft) (hs : c.Symmetric) (hr : c.Rolless) (sc : Scene) (hm : 0 ≤ sc.flow.mach) (hv : OnAxis sc.flow.v)
    (ho : sc.flow.omega = 0) (hc : OnAxis sc.cg) (F : FMS ℝ) (h : c.force sc = .ok F) : Plain F :=
  sumForces_plain sc.cg hc _ _ (fun s hmem G hG => sumForces_plain sc.cg hc _ _
    (fun p hp H hH => plain_of (p.applied_axial ((hs s hmem).2 p hp) sc hm hv (by rw [ho]; exact ⟨rfl, rfl⟩) hc H hH)
      (p.applied_still ((hs s hmem).2 p hp) (hr s hmem p hp) sc hm hv ho hc H hH)) G hG) F h

/-- upright, not turning, in the orientation `o` -/
structure Fixed (x y : ℝ) (o : Quat ℝ) (s : RBState) : Prop where
  up : Upright x y s
  still : s.angVel = 0
  ori : s.ori = o

/-- a derivative along the vertical, without any rotation -/
structure Sliding (d : RBDeriv) : Prop where
  straight : Straight d
  still : d.angVel = 0
  steady : d.angAcc = 0

theorem unit_normalize {q : Quat ℝ} (h : q.norm = 1) : q.normalize = .ok q := by
  unfold Quat.normalize; simp [h]

theorem norm_idq : (⟨1, 0, 0, 0⟩ : Quat ℝ).norm = 1 := by simp [Quat.norm]

theorem fixed_keeps (x y : ℝ) (o : Quat ℝ) (ho : o.norm = 1) :
    Body.Keeps Body.bodyArith (Fixed x y o) (Fixed 0 0 ⟨1, 0, 0, 0⟩) Sliding where
  add a b c ha hb e := by
    refine ⟨(upright_keeps x y).add a b c ha.up hb.up e, ?_, ?_⟩
    all_goals
      change a.add b = .ok c at e
      unfold RBState.add at e
      rw [ha.ori, hb.ori, unit_normalize ho] at e
      dsimp only at e
      rw [show Quat.mul ⟨1, 0, 0, 0⟩ o = o by simp [Quat.mul], unit_normalize ho] at e
      obtain rfl := Except.ok.inj e
    · show a.angVel + b.angVel = 0
      rw [ha.still, hb.still, add_zero]
    · rfl
  aug a b c ha hb e := by
    refine ⟨(upright_keeps x y).aug a b c ha.up hb.up e, ?_, ?_⟩
    all_goals
      change a.add b = .ok c at e
      unfold RBState.add at e
      rw [ha.ori, hb.ori, unit_normalize norm_idq] at e
      dsimp only at e
      rw [show Quat.mul (⟨1, 0, 0, 0⟩ : Quat ℝ) ⟨1, 0, 0, 0⟩ = ⟨1, 0, 0, 0⟩ by simp [Quat.mul], unit_normalize norm_idq] at e
      obtain rfl := Except.ok.inj e
    · show a.angVel + b.angVel = 0
      rw [ha.still, hb.still, add_zero]
    · rfl
  smul a k c ha e := by
    refine ⟨(upright_keeps x y).smul a k c ha.up e, ?_, ?_⟩
    all_goals
      change a.mul k = .ok c at e
      unfold RBState.mul at e
      have hs : (⟨1, 0, 0, 0⟩ : Quat ℝ).scaleRotation k = .ok ⟨1, 0, 0, 0⟩ := by
        unfold Quat.scaleRotation Quat.rotationAngle
        rw [unit_normalize norm_idq]
        have : Quat.atan2 0 1 = 0 := by unfold Quat.atan2; simp
        simp [this]
      rw [ha.ori, hs] at e
      obtain rfl := Except.ok.inj e
    · show k • a.angVel = 0
      rw [ha.still, smul_zero]
    · rfl
  dmul d k c hd e := by
    refine ⟨(upright_keeps x y).dmul d k c hd.straight e, ?_, ?_⟩
    all_goals
      change d.mul k = .ok c at e
      unfold RBDeriv.mul at e
      rw [hd.still, smul_zero] at e
      have hl : (0 : V3 ℝ).length = 0 := by
        have := length_axis 0
        rw [abs_zero] at this
        exact this
      unfold Quat.ofRotationVector at e
      rw [hl, show ∀ v : V3 ℝ, Quat.axisAngle v 0 = ⟨1, 0, 0, 0⟩ by intro v; simp [Quat.axisAngle], unit_normalize norm_idq] at e
      obtain rfl := Except.ok.inj e
    · show k • d.angAcc = 0
      rw [hd.steady, smul_zero]
    · rfl
  ddiv d k c hd e := by
    refine ⟨(upright_keeps x y).ddiv d k c hd.straight e, ?_, ?_⟩
    all_goals
      change d.div k = .ok c at e
      unfold RBDeriv.div at e
      split at e
      · cases e
      obtain rfl := Except.ok.inj e
    · show (1 / k) • d.angVel = 0
      rw [hd.still, smul_zero]
    · show (1 / k) • d.angAcc = 0
      rw [hd.steady, smul_zero]
  dadd a b c ha hb e := by
    refine ⟨(upright_keeps x y).dadd a b c ha.straight hb.straight e, ?_, ?_⟩
    all_goals obtain rfl : a.add b = c := Except.ok.inj e
    · show a.angVel + b.angVel = 0
      rw [ha.still, hb.still, add_zero]
    · show a.angAcc + b.angAcc = 0
      rw [ha.steady, hb.steady, add_zero]
  daug a b c ha hb e := by
    refine ⟨(upright_keeps x y).daug a b c ha.straight hb.straight e, ?_, ?_⟩
    all_goals obtain rfl : a.add b = c := Except.ok.inj e
    · show a.angVel + b.angVel = 0
      rw [ha.still, hb.still, add_zero]
    · show a.angAcc + b.angAcc = 0
      rw [ha.steady, hb.steady, add_zero]

theorem Craft.applied_plain (c : Craft) (hc : c.Symmetric) (hn : c.Rolless) (E : Env) (hE : Calm E) {x y : ℝ} {o : Quat ℝ}
    (t : ℝ) (s : RBState) (hs : Fixed x y o s) (F : FMS ℝ) (h : c.appliedForce E t s = .ok F) :
    F.moment.z = 0 := by
  unfold Craft.appliedForce at h
  simp only [bind, Except.bind] at h
  split at h
  · cases h
  rename_i air hair
  split at h
  · cases h
  rename_i i hi
  split at h
  · cases h
  rename_i flow hflow
  split at h
  · cases h
  split at h
  · cases h
  rename_i parts hparts
  split at h
  · cases h
  rename_i g hg
  obtain ⟨f1, f2, -⟩ := flow_axial hs.up (calm_wind hE _ _ _ hair) hflow
  have f3 : flow.omega = 0 := by
    unfold flowOf at hflow
    simp only [bind, Except.bind] at hflow
    repeat' split at hflow
    all_goals first
      | cases hflow; done
      | (obtain rfl := Except.ok.inj hflow
         exact hs.still)
  have hcg := c.cg_onAxis hc t i hi
  have hp := c.force_plain hc hn _ f1 f2 f3 hcg _ hparts
  have hgr : OnAxis g.force ∧ g.loc = i.cg ∧ g.moment = ⟨0, 0, 0⟩ := by
    unfold Env.gravityForce at hg
    split at hg
    · cases hg
    rename_i gv hgv
    split at hg
    · cases hg
    rename_i gv' q' hrot
    obtain rfl := Except.ok.inj hg
    have hax := calm_gravity hE _ _ _ hgv
    obtain ⟨rfl, -⟩ := yaw_rotate (yaw_conj ⟨hs.up.q1, hs.up.q2⟩) hax hrot
    exact ⟨hax, rfl, rfl⟩
  have hF : ((parts.getAt i.cg).add g).moment.z = 0 := by
    obtain ⟨g1, g2, g3⟩ := hgr
    have hz := plain_moment hp
    show (parts.moment + cross (parts.loc - i.cg) parts.force + (g.moment + cross (g.loc - i.cg) g.force)).z = 0
    rw [g2, g3]
    simp [cross, hz, hp.1.1, hp.1.2.1]
  unfold envForce at h
  split at h
  · obtain rfl := Except.ok.inj h; exact hF
  · unfold Rail.applyForce at h
    repeat' split at h
    all_goals first
      | cases h; done
      | (obtain rfl := Except.ok.inj h
         first | exact hF | rfl)

theorem Craft.rhs_sliding (c : Craft) (hc : c.Symmetric) (hn : c.Rolless) (E : Env) (hE : Calm E) {x y : ℝ}
    (hr : ∀ r, E.rail = some r → RailUp x y r) {o : Quat ℝ} (t : ℝ) (s : RBState) (d : RBDeriv) (hs : Fixed x y o s)
    (h : c.rhs E t s = .ok d) : Sliding d := by
  have h0 := c.rhs_straight hc E hE hr t s d hs.up h
  unfold Craft.rhs at h
  simp only [bind, Except.bind] at h
  split at h
  · cases h
  rename_i F hF
  split at h
  · cases h
  split at h
  · cases h
  have hz := c.applied_plain hc hn E hE t s hs F hF
  unfold rigidBodyDerivative at h
  split at h
  · cases h
  rename_i cv q hq
  split at h
  · cases h
  rename_i fG q' hq'
  split at h
  · cases h
  split at h
  · cases h
  rename_i wG q'' hq''
  split at h
  · cases h
  obtain rfl := Except.ok.inj h
  refine ⟨h0, ?_, ?_⟩
  · show wG = 0
    have hy : Yaw q' := by
      have e1 := Quat.rotate_ok hq
      have e2 := Quat.rotate_ok hq'
      obtain ⟨-, -, rfl⟩ := e1
      obtain ⟨-, -, rfl⟩ := e2
      constructor <;> simp [Quat.scale, hs.up.q1, hs.up.q2]
    obtain ⟨e, -⟩ := yaw_rotate hy hs.up.spin hq''
    rw [e, hs.still]
  · have := h0.angAcc
    apply V3.ext' this.1 this.2
    simp [hz, hs.still]

/-- a vertical flight without any rotation so far -/
structure Still (x y : ℝ) (o : Quat ℝ) (w : InFlight) : Prop where
  state : Fixed x y o w.state
  rail : ∀ r, w.rail = some r → RailUp x y r
  kept : ∀ k, w.kept = some k → Sliding k

theorem integrate_fixed {x y : ℝ} {o : Quat ℝ} (ho : o.norm = 1) (method : String) (f : ℝ → RBState → Except PyErr RBDeriv) (w : InFlight)
    (dt : ℝ) (hf : ∀ t s d, Fixed x y o s → f t s = .ok d → Sliding d) (hs : Fixed x y o w.state) (hk : ∀ k, w.kept = some k → Sliding k)
    (r : RBState × Option RBDeriv) (h : integrateStep method f w dt = .ok r) : Fixed x y o r.1 ∧ ∀ k, r.2 = some k → Sliding k := by
  have K := fixed_keeps x y o ho
  unfold integrateStep at h
  split at h
  · simp only [bind, Except.bind] at h
    split at h
    · cases h
    split at h
    · cases h
    rename_i a ha
    obtain rfl := Except.ok.inj h
    obtain ⟨h1, h2⟩ := K.attempt hf hs _ _ hk a ha
    refine ⟨h1, fun k hk' => ?_⟩
    dsimp only at hk'
    split at hk'
    · obtain rfl := Option.some.inj hk'; exact h2
    · exact hk k hk'
  · simp only [bind, Except.bind] at h
    split at h
    · cases h
    rename_i a ha
    obtain rfl := Except.ok.inj h
    exact ⟨K.classicalStep hf hs _ a ha, by simp⟩

/-- **C95.** A symmetric rocket with straight fins that starts upright without rotation in air without lateral wind never rotates at all: its
orientation is the initial one, exactly, for the whole flight. -/
theorem fly_still (E : Env) (hE : Calm E) (method : String) {x y : ℝ} {o : Quat ℝ} (ho : o.norm = 1) (steps : List (Craft × ℝ))
    (hc : ∀ p ∈ steps, p.1.Symmetric ∧ p.1.Rolless) (w : InFlight) (hw : Still x y o w) (w' : InFlight)
    (h : fly E method w steps = .ok w') : Still x y o w' := by
  induction steps generalizing w with
  | nil => obtain rfl := Except.ok.inj h; exact hw
  | cons p rest ih =>
    obtain ⟨c, dt⟩ := p
    unfold fly at h
    split at h
    · cases h
    rename_i w1 hw1
    refine ih (fun q hq => hc q (by simp [hq])) w1 ?_ h
    unfold Craft.timeStep at hw1
    simp only [bind, Except.bind] at hw1
    split at hw1
    · cases hw1
    rename_i p hp
    split at hw1
    · cases hw1
    rename_i r hr
    obtain rfl := Except.ok.inj hw1
    obtain ⟨hcs, hcr⟩ := hc (c, dt) (by simp)
    obtain ⟨h1, h2⟩ := constrain_upright hw.state.up hw.rail
      (show envConstrain w.rail ⟨w.state.pos, w.state.vel⟩ w.time = .ok (p.1, p.2) from hp)
    obtain ⟨h3, h4⟩ := integrate_fixed (x := x) (y := y) ho method _
      { w with state := { w.state with pos := p.1.pos, vel := p.1.vel } } dt
      (fun t s d hs hd => c.rhs_sliding hcs hcr { E with rail := p.2 } ⟨hE.earth, hE.mean, hE.turb⟩ h2 t s d hs hd)
      ⟨h1, hw.state.still, hw.state.ori⟩ hw.kept r hr
    exact ⟨h3, h2, h4⟩

/-- **C95.** From the launch definition to the end of the flight: a rocket whose parts are symmetric at every step, launched vertically from
`pos`, flies above `pos` with its axis vertical; with straight fins, and no spin (or a launch rail, which takes the spin away), it does not
rotate at all. -/
theorem launch_flight (E : Env) (hE : Calm E) (pos vel w dir cg : V3 ℝ) (rotation : Option (V3 ℝ × ℝ)) (len : ℝ)
    (hr : ∀ p, rotation = some p → OnAxis p.1) (hd : OnAxis dir) (hv : OnAxis vel) (hw : OnAxis w) (hc : OnAxis cg)
    (hrail : makeRail E.earth E.elevation E.lat E.lon len pos rotation dir = .ok E.rail) (s : RBState)
    (h : E.initialState pos vel w rotation dir cg = .ok s) (method : String) (steps : List (Craft × ℝ)) (hs : ∀ p ∈ steps, p.1.Symmetric)
    (w' : InFlight) (hf : fly E method ⟨0, s, E.rail, none⟩ steps = .ok w') :
    (w'.state.pos.x = pos.x ∧ w'.state.pos.y = pos.y ∧ w'.state.vel.x = 0 ∧ w'.state.vel.y = 0 ∧
      (∀ v q, w'.state.ori.rotate ⟨0, 0, 1⟩ = .ok (v, q) → v = ⟨0, 0, 1⟩) ∧ w'.state.angVel.x = 0 ∧ w'.state.angVel.y = 0) ∧
    ((∀ p ∈ steps, p.1.Rolless) → (w = 0 ∨ 0 < len) → w'.state.angVel = 0 ∧ w'.state.ori = s.ori) := by
  have h0 := launch_vertical E hE pos vel w dir cg rotation len hr hd hv hw hc hrail s h
  constructor
  · have h1 := (fly_vertical E hE method steps hs _ h0 w' hf).state
    exact ⟨h1.px, h1.py, h1.vel.1, h1.vel.2, fun v q e => (yaw_rotate ⟨h1.q1, h1.q2⟩ ⟨rfl, rfl⟩ e).1, h1.spin.1, h1.spin.2⟩
  · intro hn hlen
    have hunit : s.ori.norm = 1 ∧ s.angVel = 0 := by
      unfold Env.initialState at h
      split at h
      · cases h
      unfold Env.initialToGlobal at h
      dsimp only at h
      have hglob : ∀ (s : RBState) a b, E.earth.toGlobal s a b = .ok s := by
        intro s a b
        rcases hE.earth with e | e <;> rw [e] <;> rfl
      rw [hglob] at h
      dsimp only at h
      unfold moveToCG at h
      split at h
      · cases h
      rename_i c o hrot
      obtain rfl := Except.ok.inj h
      refine ⟨?_, ?_⟩
      · show o.norm = 1
        obtain ⟨v', r, h1, -, h2, -⟩ := (Quat.rotate_spec _ cg).2 (Quat.rotate_ok hrot).1
        obtain ⟨-, rfl⟩ := Prod.mk.inj (Except.ok.inj (h1.symm.trans hrot))
        exact h2
      · show (if E.rail.isSome = true then _ else _ : RBState).angVel = 0
        split
        · rfl
        · rename_i hnone
          rcases hlen with rfl | hlen
          · rfl
          · exfalso
            unfold makeRail at hrail
            rw [if_pos hlen] at hrail
            repeat' split at hrail
            all_goals first
              | cases hrail; done
              | (rw [← Except.ok.inj hrail] at hnone; simp at hnone)
    have h2 := fly_still E hE method hunit.1 steps (fun p hp => ⟨hs p hp, hn p hp⟩) _
      ⟨⟨h0.state, hunit.2, rfl⟩, h0.rail, by simp⟩ w' hf
    exact ⟨h2.state.still, h2.state.ori⟩

end Mapleaf.Rocket
