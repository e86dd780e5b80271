import Verif.Rocket.CarryMissionProps
import Verif.Rocket.TurnedPlaceProps

/-!
# C96: whole missions turned about the vertical and moved along the ground
-/

namespace Mapleaf.Rocket
open Mapleaf.Motion V3 ENV
open Mapleaf.Motion.Body (Sim)
open Mapleaf.Motion.Stepper (RBDeriv3 add3 mul3 neg3 abs3 dAdd3 dMul3 dDiv3)

/-! ## States without orientation -/

noncomputable def turn3 (r : Quat ℝ) (a : V3 ℝ) (s : RBState3) : RBState3 := ⟨r.rotF s.pos + a, r.rotF s.vel⟩
noncomputable def turnD3 (r : Quat ℝ) (d : RBDeriv3) : RBDeriv3 := ⟨r.rotF d.vel, r.rotF d.acc⟩

theorem turn_hom3 {r : Quat ℝ} (hr : r.nsq = 1) (a : V3 ℝ) :
    Body.Hom arith3 arith3 (turn3 r a) (turn3 r 0) (turn3 r ((-1 : ℝ) • a)) (turnD3 r) where
  add s c := by
    change Except.ok (add3 _ _) = .ok (turn3 r a (add3 s c))
    simp only [add3, turn3, ENV.rotF_add, Except.ok.injEq, RBState3.mk.injEq, and_true]
    apply V3.ext' <;> simp <;> ring
  aug s c := by
    change Except.ok (add3 _ _) = .ok (turn3 r 0 (add3 s c))
    simp only [add3, turn3, ENV.rotF_add, Except.ok.injEq, RBState3.mk.injEq, and_true]
    apply V3.ext' <;> simp
  smul s k := by
    change Except.ok (mul3 _ _) = .ok (turn3 r 0 (mul3 s k))
    simp only [mul3, turn3, ENV.rotF_smul, Except.ok.injEq, RBState3.mk.injEq, and_true]
    apply V3.ext' <;> simp
  neg s := by
    change Except.ok (neg3 _) = .ok (turn3 r _ (neg3 s))
    simp only [neg3, mul3, turn3, ENV.rotF_smul, Except.ok.injEq, RBState3.mk.injEq, and_true]
    apply V3.ext' <;> simp <;> ring
  diff s c := by
    change Except.ok (add3 _ _) = .ok (turn3 r 0 (add3 s c))
    simp only [add3, turn3, ENV.rotF_add, Except.ok.injEq, RBState3.mk.injEq, and_true]
    apply V3.ext' <;> simp <;> ring
  mag s := by
    change Except.ok (abs3 _) = .ok (abs3 s)
    have e : (turn3 r 0 s).pos = r.rotF s.pos := by unfold turn3; apply V3.ext' <;> simp
    rw [abs3, e, show (turn3 r 0 s).vel = r.rotF s.vel from rfl, ENV.rotF_length (ENV.unit_ne hr), ENV.rotF_length (ENV.unit_ne hr)]
    rfl
  dmul d k := by
    change Except.ok (dMul3 _ _) = .ok (turn3 r 0 (dMul3 d k))
    simp only [dMul3, turn3, turnD3, ENV.rotF_smul, Except.ok.injEq, RBState3.mk.injEq, and_true]
    apply V3.ext' <;> simp
  ddiv d k := by
    change dDiv3 _ _ = (dDiv3 _ _).map _
    unfold dDiv3
    split
    · rfl
    · simp only [Except.map, turnD3, ENV.rotF_smul]
  dadd d k := by
    change Except.ok (dAdd3 _ _) = .ok (turnD3 r (dAdd3 d k))
    simp only [dAdd3, turnD3, ENV.rotF_add]
  daug d k := by
    change Except.ok (dAdd3 _ _) = .ok (turnD3 r (dAdd3 d k))
    simp only [dAdd3, turnD3, ENV.rotF_add]

noncomputable def turnFlight3 (r : Quat ℝ) (a : V3 ℝ) (w : InFlight3) : InFlight3 :=
  ⟨w.time, turn3 r a w.state, w.rail.map (turnRail r a), w.kept.map (turnD3 r)⟩

theorem integrate_turn3 {b : Bool} {r : Quat ℝ} (hr : r.nsq = 1) (a : V3 ℝ) (method : String) {f f' : ℝ → RBState3 → Except PyErr RBDeriv3}
    (hf : ∀ t y, Sim b ((f t y).map (turnD3 r)) (f' t (turn3 r a y))) (w : InFlight3) (dt : ℝ) :
    Sim b ((integrateStep3 method f w dt).map fun x => (turn3 r a x.1, x.2.map (turnD3 r)))
      (integrateStep3 method f' (turnFlight3 r a w) dt) := by
  unfold integrateStep3
  cases RK.adaptiveTableau method with
  | ok x =>
    obtain ⟨tab, fsal⟩ := x
    dsimp only
    refine Sim.bind (m := id) (Or.inl (map_same _)) fun tab' _ => ?_
    refine Sim.bind ((turn_hom3 hr a).attempt hf tab' w.kept w.time w.state dt) fun x _ => ?_
    refine Or.inl ?_
    cases fsal <;> rfl
  | error e =>
    dsimp only
    refine Sim.bind ((turn_hom3 hr a).classicalStep hf method w.time w.state dt) fun x _ => ?_
    exact Or.inl rfl

/-! ## Under parachute -/

/-- the surroundings `E'` are the surroundings `E` over flat ground (or none), turned by `r` about the vertical and moved by `a` along the ground -/
structure Swung (E E' : Env) (r : Quat ℝ) (a : V3 ℝ) : Prop where
  moved : Moved true E E' r a
  flat : E.earth = flatEarth ∨ E.earth = noEarth
  earth : E'.earth = E.earth
  upright : ∀ v, (r.rotF v).z = v.z
  level : a.z = 0

theorem winds_swung {ψ : ℝ} {E E' : Env} (h : WindsTurned ψ E E') (x y : ℝ) : Swung E E' (yawQ ψ) ⟨x, y, 0⟩ :=
  ⟨flat_moved h x y, h.flat, h.earth, fun v => by rw [yawQ_rotF]; rfl, rfl⟩

theorem conditions_moved_any {E E' : Env} {r : Quat ℝ} {a : V3 ℝ} (h : Moved true E E' r a) (off : Bool) (pos : V3 ℝ) (time : Option ℝ) :
    E'.conditions off (r.rotF pos + a) time = (E.conditions off pos time).map (turnAir r) := by
  rw [conditions_quiet E', conditions_quiet E, ← (h.air pos time).strict]
  cases E.conditions false pos time with
  | error e => rfl
  | ok c =>
    cases off
    · rfl
    · simp only [Except.map, if_true, turnAir, Except.ok.injEq]
      rw [show (⟨0, 0, 0⟩ : V3 ℝ) = 0 from rfl, ENV.rotF_zero]

theorem chuteForce_turn {r : Quat ℝ} (hr : r.nsq = 1) (cs : List (Chute ℝ)) (k : Int) (vel wind : V3 ℝ) (density : ℝ) :
    (chuteForce cs k (r.rotF vel) (r.rotF wind) density).map FMS.force = (chuteForce cs k vel wind density).map fun f => r.rotF f.force := by
  unfold chuteForce
  split
  · change Except.ok (⟨0, 0, 0⟩ : V3 ℝ) = .ok (r.rotF ⟨0, 0, 0⟩)
    rw [show (⟨0, 0, 0⟩ : V3 ℝ) = 0 from rfl, ENV.rotF_zero]
  · have e : (-1 : ℝ) • (r.rotF vel - r.rotF wind) = r.rotF ((-1 : ℝ) • (vel - wind)) := by rw [ENV.rotF_smul, rotF_sub']
    dsimp only
    rw [e, ENV.rotF_length (ENV.unit_ne hr), Quat.normalize_rotF hr]
    cases pyGet (0 :: cs.map (·.cd)) k with
    | error e => rfl
    | ok cd =>
      cases pyGet (0 :: cs.map (·.area)) k with
      | error e => rfl
      | ok area =>
        change Except.ok _ = Except.ok _
        rw [← ENV.rotF_smul]
        rfl

/-- the force on the rail in global axes -/
theorem rail_force_turn3 {r : Quat ℝ} (hr : r.nsq = 1) (a : V3 ℝ) (l : Option Rail) (hl : ∀ x, l = some x → Plumb r x) (pos : V3 ℝ) (t : ℝ)
    (f f' : FMS ℝ) (hf : f'.force = r.rotF f.force) :
    (envForce (l.map (turnRail r a)) (r.rotF pos + a) t f').map FMS.force = (envForce l pos t f).map fun g => r.rotF g.force := by
  cases l with
  | none => exact congrArg Except.ok hf
  | some x =>
    rw [rail_force_turn hr a (some x) hl]
    obtain ⟨hrate, hdir⟩ := hl x rfl
    have h0 : ∀ v, turnZ (x.rate * t) v = v := by intro v; rw [hrate, zero_mul, turnZ_zero]
    change (x.applyForce _ t f').map _ = (x.applyForce _ t f).map _
    unfold Rail.applyForce
    rw [Rail.getPosition_ok, Rail.getDirection_ok, h0, h0]
    dsimp only
    split
    · change Except.ok (V3.dot f'.force x.dir • x.dir) = .ok (r.rotF (V3.dot f.force x.dir • x.dir))
      have : V3.dot f'.force x.dir = V3.dot f.force x.dir := by
        rw [hf]
        conv_lhs => rw [← hdir]
        rw [ENV.rotF_dot (ENV.unit_ne hr)]
      rw [this, ENV.rotF_smul, hdir]
    · exact congrArg Except.ok hf

theorem chuteRhs_turn {E E' : Env} {r : Quat ℝ} {a : V3 ℝ} (h : Moved true E E' r a) (hl : E'.rail = E.rail.map (turnRail r a))
    (hp : ∀ x, E.rail = some x → Plumb r x) (v v' : Vessel)
    (hv : v'.craft = v.craft ∧ v'.quietChute = v.quietChute ∧ v'.chutes = v.chutes ∧ v'.current = v.current) (t : ℝ) (s : RBState3) :
    v'.chuteRhs E' t (turn3 r a s) = (v.chuteRhs E t s).map (turnD3 r) := by
  obtain ⟨h1, h2, h3, h4⟩ := hv
  unfold Vessel.chuteRhs
  rw [h1, h2, h3, h4, show (turn3 r a s).pos = r.rotF s.pos + a from rfl, show (turn3 r a s).vel = r.rotF s.vel from rfl,
    conditions_moved_any h]
  cases E.conditions v.quietChute s.pos (some t) with
  | error e => rfl
  | ok air =>
    simp only [Except.map, bind, Except.bind]
    cases v.craft.inertia t with
    | error e => rfl
    | ok i =>
      dsimp only
      cases v.chutes.getLast? with
      | none => rfl
      | some cs =>
      cases v.current.getLast? with
      | none => rfl
      | some k =>
      dsimp only
      have hc := chuteForce_turn h.unit cs k s.vel air.wind air.density
      rw [show (turnAir r air).wind = r.rotF air.wind from rfl, show (turnAir r air).density = air.density from rfl]
      rcases c1 : chuteForce cs k (r.rotF s.vel) (r.rotF air.wind) air.density with e1 | f' <;>
        rcases c2 : chuteForce cs k s.vel air.wind air.density with e2 | f <;> rw [c1, c2] at hc <;>
        simp only [Except.map, reduceCtorEq, Except.error.injEq, Except.ok.injEq] at hc
      · rw [hc]
      · dsimp only
        rw [h.gravity]
        cases E.earth.gravity i.mass s.pos with
        | error e => rfl
        | ok g =>
          dsimp only [Except.map]
          have ht := rail_force_turn3 h.unit a E.rail hp s.pos t ((f.getAt i.cg).add ⟨g, i.cg, ⟨0, 0, 0⟩⟩)
            ((f'.getAt i.cg).add ⟨r.rotF g, i.cg, ⟨0, 0, 0⟩⟩) (by
              change f'.force + r.rotF g = r.rotF (f.force + g)
              rw [hc, ENV.rotF_add])
          rw [hl]
          rcases c3 : envForce (E.rail.map (turnRail r a)) (r.rotF s.pos + a) t ((f'.getAt i.cg).add ⟨r.rotF g, i.cg, ⟨0, 0, 0⟩⟩) with e3 | tot' <;>
            rcases c4 : envForce E.rail s.pos t ((f.getAt i.cg).add ⟨g, i.cg, ⟨0, 0, 0⟩⟩) with e4 | tot <;> rw [c3, c4] at ht <;>
            simp only [Except.map, reduceCtorEq, Except.error.injEq, Except.ok.injEq] at ht
          · rw [ht]
          · dsimp only
            unfold rigidBodyDerivative3
            by_cases hm : i.mass = 0
            · rw [if_pos hm, if_pos hm]
            · rw [if_neg hm, if_neg hm]
              simp only [turnD3, turn3, ht, ENV.rotF_smul]

/-! ## Bodies -/

/-- the body of a flight, turned and moved -/
noncomputable def Phase.swing (r : Quat ℝ) (a : V3 ℝ) : Phase → Phase
  | .six w => .six (turnFlight r a w)
  | .three w => .three (turnFlight3 r a w)

noncomputable def Vessel.swing (r : Quat ℝ) (a : V3 ℝ) (v : Vessel) : Vessel := { v with phase := v.phase.swing r a }

noncomputable def Live.swing (r : Quat ℝ) (a : V3 ℝ) (w : Live) : Live :=
  ⟨w.vessel.swing r a, w.dropped.map (Vessel.swing r a), w.failed⟩

section
variable {r : Quat ℝ} {a : V3 ℝ}

theorem swing_time (p : Phase) : (p.swing r a).time = p.time := by cases p <;> rfl
theorem swing_rail (p : Phase) : (p.swing r a).rail = p.rail.map (turnRail r a) := by cases p <;> rfl
theorem swing_copy (p : Phase) : (p.swing r a).copy = p.copy.swing r a := by cases p <;> rfl
theorem swing_three (p : Phase) : (p.swing r a).toThree = p.toThree.swing r a := by cases p <;> rfl
theorem swing_onRail (p : Phase) (l : Option Rail) : (p.swing r a).onRail (l.map (turnRail r a)) = (p.onRail l).swing r a := by cases p <;> rfl
theorem swing_moved (p : Phase) (m : RBState3) (l : Option Rail) :
    (p.swing r a).moved (turn3 r a m) (l.map (turnRail r a)) = (p.moved m l).swing r a := by cases p <;> rfl
theorem swing_pos (p : Phase) : (p.swing r a).pos = r.rotF p.pos + a := by cases p <;> rfl
theorem swing_vel (p : Phase) : (p.swing r a).vel = r.rotF p.vel := by cases p <;> rfl
theorem swing_posZ {E E' : Env} (h : Swung E E' r a) (p : Phase) : (p.swing r a).pos.z = p.pos.z := by
  rw [swing_pos]; simp [h.upright, h.level]
theorem swing_velZ {E E' : Env} (h : Swung E E' r a) (p : Phase) : (p.swing r a).vel.z = p.vel.z := by
  rw [swing_vel, h.upright]

theorem enuZ_swing {E E' : Env} (h : Swung E E' r a) (p : Phase) : enuZ E' (p.swing r a) = enuZ E p := by
  have h1 : ∀ q, E.earth.altitude q = .ok q.z := by intro q; rcases h.flat with h | h <;> rw [h] <;> rfl
  unfold enuZ
  rw [h.earth, h1, h1, swing_posZ h]

theorem enuVz_swing {E E' : Env} (h : Swung E E' r a) (p : Phase) : enuVz E' (p.swing r a) = enuVz E p := by
  have h1 : ∀ q, E.earth.enu q = .ok ⟨1, 0, 0, 0⟩ := by intro q; rcases h.flat with h | h <;> rw [h] <;> rfl
  have h2 : (⟨1, 0, 0, 0⟩ : Quat ℝ).conj = ⟨1, 0, 0, 0⟩ := by simp [Quat.conj]
  unfold enuVz
  rw [h.earth, h1, h1]
  dsimp only
  rw [h2, id_rotate, id_rotate]
  exact swing_velZ h p

/-! ## Events -/

theorem separate_swing {P P' : Setup} (hs : P'.src = P.src) (hd : P'.dropPaths = P.dropPaths) (v : Vessel) :
    (v.swing r a).separate P' = (v.separate P).map fun x => (x.1.swing r a, x.2.map (Vessel.swing r a)) := by
  unfold Vessel.separate
  rw [hs, hd]
  have e : readVessel P.src (some (v.swing r a).dropIndex) (v.swing r a).phase.copy =
      (readVessel P.src (some v.dropIndex) v.phase.copy).map (Vessel.swing r a) := by
    rw [show (v.swing r a).dropIndex = v.dropIndex from rfl, show (v.swing r a).phase.copy = v.phase.copy.swing r a from swing_copy _,
      readVessel_phase P.src (some v.dropIndex) v.phase.copy (v.phase.copy.swing r a)]
    rcases hv : readVessel P.src (some v.dropIndex) v.phase.copy with e | d
    · rfl
    · have hp : d.phase = v.phase.copy := by
        have := readVessel_phase P.src (some v.dropIndex) v.phase.copy v.phase.copy
        rw [hv] at this
        exact congrArg Vessel.phase (Except.ok.inj this)
      simp only [Except.map, Vessel.swing, hp]
  rw [e, show (v.swing r a).stages = v.stages from rfl, show (v.swing r a).phase.time = v.phase.time from swing_time _]
  have e2 : (if P.dropPaths = true then Except.map (fun x => [x]) ((readVessel P.src (some v.dropIndex) v.phase.copy).map (Vessel.swing r a))
      else .ok []) = (if P.dropPaths = true then Except.map (fun x => [x]) (readVessel P.src (some v.dropIndex) v.phase.copy)
      else .ok []).map (List.map (Vessel.swing r a)) := by
    split
    · cases readVessel P.src (some v.dropIndex) v.phase.copy <;> rfl
    · rfl
  rw [e2]
  generalize (if P.dropPaths = true then Except.map (fun x => [x]) (readVessel P.src (some v.dropIndex) v.phase.copy) else .ok []) = ds
  cases ds with
  | error e => rfl
  | ok ds =>
    simp only [bind, Except.bind, Except.map]
    cases v.stages.dropLast with
    | nil => rfl
    | cons top rest =>
      dsimp only
      cases top.ignite v.phase.time with
      | error e => rfl
      | ok top' =>
        dsimp only
        rw [show (v.swing r a).diameter = v.diameter from rfl, show (v.swing r a).roughness = v.roughness from rfl,
          show (v.swing r a).addTails = v.addTails from rfl]
        cases tailLive v.diameter v.roughness v.addTails (top' :: rest) with
        | error e => rfl
        | ok ss =>
          dsimp only
          cases finenessRatio (ss.map fun s => s.items.map Item.body) <;> rfl

theorem deploy_swing (j : Nat) (v : Vessel) :
    (v.swing r a).deploy j = (v.deploy j).map fun x => (x.1.swing r a, x.2) := by
  unfold Vessel.deploy
  rw [show (v.swing r a).chutes = v.chutes from rfl, show (v.swing r a).current = v.current from rfl]
  cases v.chutes[j]? with
  | none => rfl
  | some cs =>
    cases v.current[j]? with
    | none => rfl
    | some c =>
      dsimp only
      by_cases h1 : c + 1 = cs.length <;> by_cases h2 : c = 0 <;> 
        first | simp only [if_neg h1, if_neg h2] | simp only [if_neg h1, if_pos h2] | simp only [if_pos h1, if_neg h2] | simp only [if_pos h1, if_pos h2]
      all_goals
        cases cs[c + 1]? with
        | none => simp only [Except.map, Vessel.swing, swing_three, swing_time]
        | some next =>
          dsimp only
          cases triggerKind next.trigger next.value <;> simp only [Except.map, Vessel.swing, swing_three, swing_time]

theorem call_swing {P P' : Setup} (hs : P'.src = P.src) (hd : P'.dropPaths = P.dropPaths) (n : Nat) (w : Live) :
    Live.call P' n (w.swing r a) = ((Live.call P n w).1.swing r a, (Live.call P n w).2) := by
  unfold Live.call
  rw [show (w.swing r a).failed = w.failed from rfl]
  cases hf : w.failed with
  | some e => rfl
  | none =>
    cases n with
    | zero =>
      dsimp only
      rw [show (w.swing r a).vessel = w.vessel.swing r a from rfl, separate_swing hs hd]
      cases w.vessel.separate P with
      | error e => rfl
      | ok x => simp only [Except.map, Live.swing, List.map_append]
    | succ j =>
      dsimp only
      rw [show (w.swing r a).vessel = w.vessel.swing r a from rfl, deploy_swing]
      cases w.vessel.deploy j with
      | error e => rfl
      | ok x => rfl


/-! ## The rail stays plumb -/

def PlumbRail (r : Quat ℝ) (p : Phase) : Prop := ∀ x, p.rail = some x → Plumb r x

theorem plumb_of {p p' : Phase} (h : p'.rail = none ∨ p'.rail = p.rail) (hp : PlumbRail r p) : PlumbRail r p' := by
  intro x hx
  rcases h with h | h
  · rw [h] at hx; cases hx
  · exact hp x (h ▸ hx)

theorem plumb_separate {P : Setup} {v v' : Vessel} {ds : List Vessel} (h : v.separate P = .ok (v', ds)) (hr : PlumbRail r v.phase) :
    PlumbRail r v'.phase ∧ ∀ d ∈ ds, PlumbRail r d.phase := by
  unfold Vessel.separate at h
  obtain ⟨ds', h1, h⟩ := bind_okay h
  have hds : ∀ d ∈ ds', PlumbRail r d.phase := by
    split at h1
    · rcases hv : readVessel P.src (some v.dropIndex) v.phase.copy with e | d
      · rw [hv] at h1; cases h1
      · rw [hv] at h1
        obtain rfl := Except.ok.inj h1
        intro x hx
        obtain rfl := List.mem_singleton.1 hx
        rw [readVessel_rail hv]
        exact plumb_of (Or.inr (by cases v.phase <;> rfl)) hr
    · obtain rfl := Except.ok.inj h1
      intro x hx
      simp at hx
  split at h
  · cases h
  obtain ⟨top', h2, h⟩ := bind_okay h
  obtain ⟨ss, h3, h⟩ := bind_okay h
  obtain ⟨fi, h4, h⟩ := bind_okay h
  obtain ⟨rfl, rfl⟩ := Prod.mk.inj (Except.ok.inj h)
  exact ⟨hr, hds⟩

theorem plumb_deploy {j : Nat} {v v' : Vessel} {subs : List (Sub ℝ)} (h : v.deploy j = .ok (v', subs)) (hr : PlumbRail r v.phase) :
    PlumbRail r v'.phase := by
  have ht : v.phase.toThree.rail = v.phase.rail := by cases v.phase <;> rfl
  rcases (deploy_ok h).2.2 with e | e <;> rw [e]
  · exact hr
  · exact plumb_of (Or.inr ht) hr

theorem plumb_call {P : Setup} (n : Nat) (w : Live) (h : PlumbRail r w.vessel.phase ∧ ∀ d ∈ w.dropped, PlumbRail r d.phase) :
    PlumbRail r (Live.call P n w).1.vessel.phase ∧ ∀ d ∈ (Live.call P n w).1.dropped, PlumbRail r d.phase := by
  unfold Live.call
  split
  · exact h
  split
  · split
    · rename_i v ds hs
      obtain ⟨h1, h2⟩ := plumb_separate hs h.1
      refine ⟨h1, fun d hd => ?_⟩
      rcases List.mem_append.1 hd with hd | hd
      · exact h.2 d hd
      · exact h2 d hd
    · exact h
  · split
    · rename_i v subs hs
      exact ⟨plumb_deploy hs h.1, h.2⟩
    · exact h

theorem constrain_rail {l l' : Option Rail} {s m : RBState3} {t : ℝ} (h : envConstrain l s t = .ok (m, l')) : l' = none ∨ l' = l := by
  unfold envConstrain at h
  split at h
  · obtain ⟨-, rfl⟩ := Prod.mk.inj (Except.ok.inj h); exact Or.inl rfl
  · split at h
    · cases h
    · obtain ⟨-, rfl⟩ := Prod.mk.inj (Except.ok.inj h); exact Or.inr rfl
    · obtain ⟨-, rfl⟩ := Prod.mk.inj (Except.ok.inj h); exact Or.inl rfl

/-! ## Time steps -/

theorem advance_swing {E E' : Env} (h : Swung E E' r a) (method : String) (v : Vessel) (hr : PlumbRail r v.phase) (dt : ℝ) :
    (v.swing r a).advance E' method dt = (v.advance E method dt).map (Phase.swing r a) := by
  obtain ⟨ship, stages, dia, rough, tails, quiet, chutes, current, under, main, phase, events, drop⟩ := v
  unfold Vessel.advance Vessel.swing
  dsimp only
  cases phase with
  | six w =>
    cases under with
    | true => rfl
    | false =>
      dsimp only [Phase.swing]
      refine (Sim.strict (Sim.bind (integrate_turn h.moved.unit a method (rhs_turn (h.moved.rails w.rail (w.rail.map (turnRail r a))) rfl hr
        ⟨ship, stages.map LiveStage.stageP⟩) w dt) fun x _ => ?_)).symm
      exact Or.inl rfl
  | three w =>
    cases under with
    | false => rfl
    | true =>
      dsimp only [Phase.swing]
      refine (Sim.strict (Sim.bind (integrate_turn3 h.moved.unit a method (fun t y => Or.inl
        (chuteRhs_turn (h.moved.rails w.rail (w.rail.map (turnRail r a))) rfl hr _ _ ⟨rfl, rfl, rfl, rfl⟩ t y).symm) w dt) fun x _ => ?_)).symm
      exact Or.inl rfl

noncomputable def swingResult (r : Quat ℝ) (a : V3 ℝ) (x : Run.StepResult Vessel ℝ) : Run.StepResult Vessel ℝ :=
  ⟨x.rocket.swing r a, x.dt, x.factor, x.dropped.map (Vessel.swing r a)⟩

/-- the simulation `P` in the surroundings `E'`; `acc` is the step size control there -/
noncomputable abbrev Setup.moved (P : Setup) (E' : Env) (acc : Vessel → ℝ → ℝ × ℝ) : Setup := { P with env := E', accepted := acc }

theorem world_swing {P : Setup} {E' : Env} {acc : Vessel → ℝ → ℝ × ℝ} (h : Swung P.env E' r a) :
    SameWorld (missionWorld P) (missionWorld (P.moved E' acc)) (Live.swing r a) where
  time w := swing_time _
  shutOff w := rfl
  posZ w := enuZ_swing h _
  velZ w := enuVz_swing h _
  call n w := call_swing rfl rfl n w

theorem timeStep_swing {P : Setup} {E' : Env} {acc : Vessel → ℝ → ℝ × ℝ} (h : Swung P.env E' r a)
    (hacc : ∀ u dt, PlumbRail r u.phase → acc (u.swing r a) dt = P.accepted u dt) (v : Vessel) (hr : PlumbRail r v.phase) (dt : ℝ) :
    (v.swing r a).timeStep (P.moved E' acc) dt = (v.timeStep P dt).map (swingResult r a) ∧
      ∀ x, v.timeStep P dt = .ok x → PlumbRail r x.rocket.phase ∧ ∀ d ∈ x.dropped, PlumbRail r d.phase := by
  unfold Vessel.timeStep
  have hc := rail_constrain_turn h.moved.unit a v.phase.rail (fun x hx => (hr x hx).rate) ⟨v.phase.pos, v.phase.vel⟩ v.phase.time
  rw [show (v.swing r a).phase = v.phase.swing r a from rfl, swing_rail, swing_pos, swing_vel, swing_time, hc]
  rcases hm : envConstrain v.phase.rail ⟨v.phase.pos, v.phase.vel⟩ v.phase.time with e0 | ⟨m, l⟩
  · exact ⟨rfl, fun r h => by cases h⟩
  simp only [Except.map, bind, Except.bind]
  have hl : PlumbRail r (v.phase.moved m l) := by
    refine plumb_of (p := v.phase) ?_ hr
    have : (v.phase.moved m l).rail = l := by cases v.phase <;> rfl
    rw [this]
    exact constrain_rail hm
  have hv' : { v.swing r a with phase := (v.phase.swing r a).moved ⟨r.rotF m.pos + a, r.rotF m.vel⟩ (l.map (turnRail r a)) } =
      ({ v with phase := v.phase.moved m l } : Vessel).swing r a := by
    rw [show (⟨r.rotF m.pos + a, r.rotF m.vel⟩ : RBState3) = turn3 r a m from rfl, swing_moved]
    rfl
  rw [hv']
  have key := triggerEvents_same (world_swing (acc := acc) h) ⟨{ v with phase := v.phase.moved m l }, [], none⟩ v.events
  rw [show triggerEvents (missionWorld (P.moved E' acc)) ⟨({ v with phase := v.phase.moved m l } : Vessel).swing r a, [], none⟩
    (v.swing r a).events = _ from key]
  rcases ht : triggerEvents (missionWorld P) ⟨{ v with phase := v.phase.moved m l }, [], none⟩ v.events with e1 | ⟨w, d, est, ex⟩
  · exact ⟨rfl, fun r h => by cases h⟩
  · have hw := triggerEvents_inv (missionWorld P) (fun w => PlumbRail r w.vessel.phase ∧ ∀ d ∈ w.dropped, PlumbRail r d.phase)
      (fun n w h => plumb_call n w h) _ _ _ _ _ _ ⟨hl, fun _ hm => absurd hm (by simp)⟩ ht
    simp only [Except.map]
    rw [show (w.swing r a).failed = w.failed from rfl]
    cases hf : w.failed with
    | some e => exact ⟨rfl, fun r h => by cases h⟩
    | none =>
      dsimp only
      rw [show (w.swing r a).vessel = w.vessel.swing r a from rfl, hacc _ _ hw.1, advance_swing h P.method w.vessel hw.1]
      rcases hp : w.vessel.advance P.env P.method (P.accepted w.vessel (overrideStep P.adaptive P.eventStep est ex dt)).1 with e2 | p
      · exact ⟨rfl, fun r h => by cases h⟩
      · refine ⟨rfl, fun x h => ?_⟩
        obtain rfl := Except.ok.inj h
        exact ⟨plumb_of (Or.inr (advance_rail hp)) hw.1, hw.2⟩

/-! ## The simulation -/

/-- a body of the mission with its recorded flight, turned and moved -/
noncomputable def swingSlot (r : Quat ℝ) (a : V3 ℝ) (s : Run.Slot Vessel ℝ) : Run.Slot Vessel ℝ :=
  ⟨s.rocket.swing r a, s.dt, s.cond, s.flight.map (Vessel.swing r a)⟩

theorem obs_swing {E E' : Env} (h : Swung E E' r a) (v : Vessel) : (v.swing r a).obs E' = v.obs E := by
  unfold Vessel.obs
  rw [show (v.swing r a).phase = v.phase.swing r a from rfl, swing_time, swing_velZ h, swing_posZ h, enuZ_swing h]

/-- every body is off the rail or on a plumb one -/
def AllPlumb (r : Quat ℝ) (slots : List (Run.Slot Vessel ℝ)) : Prop := ∀ s ∈ slots, PlumbRail r s.rocket.phase

theorem slots_swing {P : Setup} {E' : Env} {acc : Vessel → ℝ → ℝ × ℝ} (h : Swung P.env E' r a)
    (hacc : ∀ u dt, PlumbRail r u.phase → acc (u.swing r a) dt = P.accepted u dt) (i : Nat) (slots : List (Run.Slot Vessel ℝ)) (hf : AllPlumb r slots) (s : Run.Slot Vessel ℝ)
    (hs : PlumbRail r s.rocket.phase) (o : Option ℝ) :
    Run.advance (Setup.sim (P.moved E' acc)) i (slots.map (swingSlot r a)) (swingSlot r a s) o =
        (Run.advance P.sim i slots s o).map (List.map (swingSlot r a)) ∧
      ∀ out, Run.advance P.sim i slots s o = .ok out → AllPlumb r out := by
  obtain ⟨h1, h2⟩ := timeStep_swing h hacc s.rocket hs (o.getD s.dt)
  unfold Run.advance
  dsimp only
  rw [show (Setup.sim (P.moved E' acc)).step (swingSlot r a s).rocket (o.getD (swingSlot r a s).dt) = _ from h1,
    show P.sim.step s.rocket (o.getD s.dt) = s.rocket.timeStep P (o.getD s.dt) from rfl]
  rcases hr : s.rocket.timeStep P (o.getD s.dt) with e1 | z
  · exact ⟨rfl, fun out h => by cases h⟩
  · obtain ⟨g1, g2⟩ := h2 z hr
    have hset : (slots.map (swingSlot r a)).set i { swingSlot r a s with dt := o.getD (swingSlot r a s).dt } =
        (slots.set i { s with dt := o.getD s.dt }).map (swingSlot r a) := by rw [List.map_set]; rfl
    dsimp only [Except.map]
    rw [hset, List.head?_map]
    constructor
    · cases (slots.set i { s with dt := o.getD s.dt }).head? with
      | none =>
        simp only [Option.map, List.append_nil, Except.ok.injEq, List.map_set, swingSlot, swingResult, List.map_append, List.map_cons, List.map_nil]
      | some top =>
        have hd : ∀ d, Run.detach (Setup.sim (P.moved E' acc)) (swingSlot r a top) (d.swing r a) =
            swingSlot r a (Run.detach P.sim top d) := by
          intro d
          unfold Run.detach swingSlot
          simp only [Run.Slot.mk.injEq, true_and, and_true]
          change Run.chooseEnd P.dropEnd P.dropValue ((d.swing r a).obs E') = Run.chooseEnd P.dropEnd P.dropValue (d.obs P.env)
          rw [obs_swing h]
        have hl : (swingResult r a z).dropped.map (Run.detach (Setup.sim (P.moved E' acc)) (swingSlot r a top)) =
            (z.dropped.map (Run.detach P.sim top)).map (swingSlot r a) := by
          rw [show (swingResult r a z).dropped = z.dropped.map (Vessel.swing r a) from rfl, List.map_map, List.map_map]
          exact List.map_congr_left fun d _ => hd d
        simp only [Option.map]
        rw [hl, ← List.map_append, List.map_set]
        simp only [swingSlot, swingResult, List.map_append, List.map_cons, List.map_nil]
    · intro out hout
      obtain rfl := Except.ok.inj hout
      intro x hx
      rcases List.mem_or_eq_of_mem_set hx with hx | rfl
      · rcases List.mem_append.1 hx with hx | hx
        · rcases List.mem_or_eq_of_mem_set hx with hx | rfl
          · exact hf x hx
          · exact hs
        · split at hx
          · obtain ⟨d, hd, rfl⟩ := List.mem_map.1 hx
            exact g2 d hd
          · simp at hx
      · exact g1

theorem inner_swing {P : Setup} {E' : Env} {acc : Vessel → ℝ → ℝ × ℝ} (h : Swung P.env E' r a)
    (hacc : ∀ u dt, PlumbRail r u.phase → acc (u.swing r a) dt = P.accepted u dt) (i n : Nat) (slots : List (Run.Slot Vessel ℝ)) (hf : AllPlumb r slots) :
    Run.inner (Setup.sim (P.moved E' acc)) i n (slots.map (swingSlot r a)) =
        (Run.inner P.sim i n slots).map (List.map (swingSlot r a)) ∧
      ∀ out, Run.inner P.sim i n slots = .ok out → AllPlumb r out := by
  induction n generalizing slots with
  | zero => exact ⟨rfl, fun out h => by cases h⟩
  | succ n ih =>
    rw [Run.inner, Run.inner, List.getElem?_map]
    rcases hi : slots[i]? with _ | s
    · exact ⟨rfl, fun out h => by cases h⟩
    · have hs := hf s (List.mem_of_getElem? hi)
      dsimp only [Option.map]
      rw [show (Setup.sim (P.moved E' acc)).obs (swingSlot r a s).rocket = P.sim.obs s.rocket from obs_swing h s.rocket,
        show (swingSlot r a s).cond = s.cond from rfl, show (swingSlot r a s).dt = s.dt from rfl]
      rcases s.cond.detect (P.sim.obs s.rocket) s.dt with ⟨_ | _, o⟩
      · dsimp only
        obtain ⟨h1, h2⟩ := slots_swing h hacc i slots hf s hs o
        rw [h1]
        rcases hr : Run.advance P.sim i slots s o with e1 | out
        · exact ⟨rfl, fun out h => by cases h⟩
        · exact ih out (h2 out hr)
      · exact ⟨rfl, fun out h => by obtain rfl := Except.ok.inj h; exact hf⟩

theorem flyAll_swing {P : Setup} {E' : Env} {acc : Vessel → ℝ → ℝ × ℝ} (h : Swung P.env E' r a)
    (hacc : ∀ u dt, PlumbRail r u.phase → acc (u.swing r a) dt = P.accepted u dt) (m n i : Nat) (l : Option Rail) (hl : ∀ x, l = some x → Plumb r x)
    (slots : List (Run.Slot Vessel ℝ)) (hf : AllPlumb r slots) :
    flyAll (P.moved E' acc) m n i (l.map (turnRail r a)) (slots.map (swingSlot r a)) = (flyAll P m n i l slots).map (List.map (swingSlot r a)) := by
  induction n generalizing slots i l with
  | zero => rfl
  | succ n ih =>
    rw [flyAll, flyAll, List.getElem?_map]
    rcases hi : slots[i]? with _ | s
    · rfl
    · have hs := hf s (List.mem_of_getElem? hi)
      dsimp only [Option.map_some]
      have hset : (slots.map (swingSlot r a)).set i { swingSlot r a s with rocket :=
            { (swingSlot r a s).rocket with phase := (swingSlot r a s).rocket.phase.onRail (l.map (turnRail r a)) } } =
          (slots.set i { s with rocket := { s.rocket with phase := s.rocket.phase.onRail l } }).map (swingSlot r a) := by
        rw [List.map_set]
        simp only [swingSlot, Vessel.swing, swing_onRail]
      rw [hset]
      have hf' : AllPlumb r (slots.set i { s with rocket := { s.rocket with phase := s.rocket.phase.onRail l } }) := by
        intro x hx
        rcases List.mem_or_eq_of_mem_set hx with hx | rfl
        · exact hf x hx
        · intro y hy
          refine hl y ?_
          rw [← hy]
          dsimp only
          cases s.rocket.phase <;> rfl
      obtain ⟨h1, h2⟩ := inner_swing h hacc i m _ hf'
      rw [h1]
      rcases hr : Run.inner P.sim i m (slots.set i { s with rocket := { s.rocket with phase := s.rocket.phase.onRail l } }) with e1 | out
      · rfl
      · have ho := h2 out hr
        have hn : (((out.map (swingSlot r a))[i]?).bind fun s' => s'.rocket.phase.rail) =
            ((out[i]?).bind fun s' => s'.rocket.phase.rail).map (turnRail r a) := by
          rw [List.getElem?_map]
          cases out[i]? with
          | none => rfl
          | some x => exact swing_rail _
        dsimp only [Except.map]
        rw [hn]
        refine ih (i + 1) _ ?_ out ho
        intro x hx
        rcases hq : out[i]? with _ | y
        · rw [hq] at hx; cases hx
        · rw [hq] at hx
          exact ho y (List.mem_of_getElem? hq) x hx

theorem mission_swing {P : Setup} {E' : Env} {acc : Vessel → ℝ → ℝ × ℝ} (h : Swung P.env E' r a)
    (hacc : ∀ u dt, PlumbRail r u.phase → acc (u.swing r a) dt = P.accepted u dt) (fuel : Nat) (v : Vessel) (hr : PlumbRail r v.phase) (dt : ℝ)
    (cond : Run.EndCond ℝ) :
    mission (P.moved E' acc) fuel (v.swing r a) dt cond = (mission P fuel v dt cond).map (List.map (swingSlot r a)) := by
  unfold mission
  rw [show (v.swing r a).phase.rail = v.phase.rail.map (turnRail r a) from swing_rail _]
  exact flyAll_swing h hacc fuel fuel 0 v.phase.rail hr [⟨v, dt, cond, [v]⟩] (fun s hs => by
    obtain rfl := List.mem_singleton.1 hs; exact hr)

end

/-- **C96**, whole simulations: stages that separate, parachutes, events, end conditions, all bodies. Over flat ground (or none), with the winds
turned by `ψ` about the vertical and the rocket started turned by `ψ` and moved by `x`, `y` along the ground, the simulation is the same one,
turned and moved: every body at every step; an exception is the same exception. Any method; the step size control may be any that does not
depend on the turn. Launch rails: vertical. -/
theorem turned_mission {ψ : ℝ} {P : Setup} {E' : Env} {acc : Vessel → ℝ → ℝ × ℝ} (h : WindsTurned ψ P.env E') (x y : ℝ)
    (hacc : ∀ u dt, PlumbRail (yawQ ψ) u.phase → acc (u.swing (yawQ ψ) ⟨x, y, 0⟩) dt = P.accepted u dt) (fuel : Nat) (v : Vessel)
    (hr : ∀ l, v.phase.rail = some l → l.rate = 0 ∧ OnAxis l.dir) (dt : ℝ) (cond : Run.EndCond ℝ) :
    mission { P with env := E', accepted := acc } fuel (v.swing (yawQ ψ) ⟨x, y, 0⟩) dt cond =
      (mission P fuel v dt cond).map (List.map (swingSlot (yawQ ψ) ⟨x, y, 0⟩)) := by
  refine mission_swing (winds_swung h x y) hacc fuel v (fun l hl => ⟨(hr l hl).1, ?_⟩) dt cond
  rw [yawQ_rotF]
  apply V3.ext' <;> simp [turnZ, (hr l hl).2.1, (hr l hl).2.2]

/-- **C96**, in terms of the recorded flights: as many bodies, as many steps at the same times, at each of them position and velocity turned
about the vertical by `ψ` and moved. -/
theorem turned_records {ψ : ℝ} {P : Setup} {E' : Env} {acc : Vessel → ℝ → ℝ × ℝ} (h : WindsTurned ψ P.env E') (x y : ℝ)
    (hacc : ∀ u dt, PlumbRail (yawQ ψ) u.phase → acc (u.swing (yawQ ψ) ⟨x, y, 0⟩) dt = P.accepted u dt) (fuel : Nat) (v : Vessel)
    (hr : ∀ l, v.phase.rail = some l → l.rate = 0 ∧ OnAxis l.dir) (dt : ℝ) (cond : Run.EndCond ℝ)
    {slots : List (Run.Slot Vessel ℝ)} (hs : mission P fuel v dt cond = .ok slots) :
    ∃ slots', mission { P with env := E', accepted := acc } fuel (v.swing (yawQ ψ) ⟨x, y, 0⟩) dt cond = .ok slots' ∧
      List.Forall₂ (fun s s' : Run.Slot Vessel ℝ => List.Forall₂ (fun u u' : Vessel => u'.phase.time = u.phase.time ∧
        u'.phase.pos = turnZ ψ u.phase.pos + ⟨x, y, 0⟩ ∧ u'.phase.vel = turnZ ψ u.phase.vel ∧ u'.underChute = u.underChute)
        s.flight s'.flight) slots slots' := by
  have := turned_mission h x y hacc fuel v hr dt cond
  rw [hs] at this
  refine ⟨_, this, ?_⟩
  rw [List.forall₂_map_right_iff]
  refine List.forall₂_same.2 fun s _ => ?_
  rw [show (swingSlot (yawQ ψ) ⟨x, y, 0⟩ s).flight = s.flight.map (Vessel.swing (yawQ ψ) ⟨x, y, 0⟩) from rfl, List.forall₂_map_right_iff]
  refine List.forall₂_same.2 fun u _ => ⟨swing_time _, ?_, ?_, rfl⟩
  · exact (swing_pos _).trans (by rw [yawQ_rotF])
  · exact (swing_vel _).trans (by rw [yawQ_rotF])

/-- **C96**, moved only: a rocket started `x`, `y` further along the flat ground flies the same mission, `x`, `y` further along, from any rail. -/
theorem shifted_records {P : Setup} {acc : Vessel → ℝ → ℝ × ℝ} (h : P.env.earth = flatEarth ∨ P.env.earth = noEarth) (x y : ℝ)
    (hacc : ∀ u dt, PlumbRail (yawQ 0) u.phase → acc (u.swing (yawQ 0) ⟨x, y, 0⟩) dt = P.accepted u dt) (fuel : Nat) (v : Vessel)
    (hr : ∀ l, v.phase.rail = some l → l.rate = 0) (dt : ℝ) (cond : Run.EndCond ℝ)
    {slots : List (Run.Slot Vessel ℝ)} (hs : mission P fuel v dt cond = .ok slots) :
    ∃ slots', mission { P with accepted := acc } fuel (v.swing (yawQ 0) ⟨x, y, 0⟩) dt cond = .ok slots' ∧
      List.Forall₂ (fun s s' : Run.Slot Vessel ℝ => List.Forall₂ (fun u u' : Vessel => u'.phase.time = u.phase.time ∧
        u'.phase.pos = u.phase.pos + ⟨x, y, 0⟩ ∧ u'.phase.vel = u.phase.vel ∧ u'.underChute = u.underChute)
        s.flight s'.flight) slots slots' := by
  have h0 : turnZ 0 = id := by funext v; exact turnZ_zero v
  have hw : WindsTurned 0 P.env P.env := by
    refine ⟨h, rfl, rfl, rfl, fun z => by rw [h0, map_same], ?_⟩
    cases e : P.env.turb with
    | none => exact Or.inl ⟨rfl, rfl⟩
    | some f => exact Or.inr ⟨f, f, rfl, rfl, fun z m t => by rw [h0, map_same]; rfl⟩
  have hz : ∀ v, (yawQ 0).rotF v = v := by intro v; rw [yawQ_rotF, turnZ_zero]
  have := mission_swing (winds_swung hw x y) hacc fuel v (fun l hl => ⟨hr l hl, hz _⟩) dt cond
  rw [hs] at this
  refine ⟨_, this, ?_⟩
  rw [List.forall₂_map_right_iff]
  refine List.forall₂_same.2 fun s _ => ?_
  rw [show (swingSlot (yawQ 0) ⟨x, y, 0⟩ s).flight = s.flight.map (Vessel.swing (yawQ 0) ⟨x, y, 0⟩) from rfl, List.forall₂_map_right_iff]
  refine List.forall₂_same.2 fun u _ => ⟨swing_time _, ?_, ?_, rfl⟩
  · exact (swing_pos _).trans (by rw [hz])
  · exact (swing_vel _).trans (hz _)

/-! ## Step size control -/

/-- Integration.py:392-449: the error estimate of a step of the size `dt` from where the body is, by the pair of methods `tab` -/
noncomputable def Vessel.estimate (v : Vessel) (E : Env) (tab : RK.Tableau ℝ) (dt : ℝ) : Except PyErr ℝ :=
  match v.phase, v.underChute with
  | .six w, false => (Body.attempt Body.bodyArith tab w.kept (v.craft.rhs { E with rail := w.rail }) w.time w.state dt).map Body.Attempt.error
  | .three w, true => (Body.attempt arith3 tab w.kept (v.chuteRhs { E with rail := w.rail }) w.time w.state dt).map Body.Attempt.error
  | _, _ => .error .attributeError

/-- the error estimates do not depend on the turn -/
theorem estimate_swing {r : Quat ℝ} {a : V3 ℝ} {E E' : Env} (h : Swung E E' r a) (tab : RK.Tableau ℝ) (v : Vessel) (hr : PlumbRail r v.phase)
    (dt : ℝ) : (v.swing r a).estimate E' tab dt = v.estimate E tab dt := by
  have key : ∀ {S D : Type} {p : S → S} {q : D → D} {x y : Except PyErr (Body.Attempt S D)}, Sim true (x.map (Body.Attempt.map p q)) y →
      y.map Body.Attempt.error = x.map Body.Attempt.error := by
    intro S D p q x y hs
    rw [← hs.strict]
    cases x <;> rfl
  obtain ⟨ship, stages, dia, rough, tails, quiet, chutes, current, under, main, phase, events, drop⟩ := v
  unfold Vessel.estimate Vessel.swing
  dsimp only
  cases phase with
  | six w =>
    cases under with
    | true => rfl
    | false =>
      dsimp only [Phase.swing]
      exact key ((turn_hom h.moved.unit a).attempt (rhs_turn (h.moved.rails w.rail (w.rail.map (turnRail r a))) rfl hr
        ⟨ship, stages.map LiveStage.stageP⟩) tab w.kept w.time w.state dt)
  | three w =>
    cases under with
    | false => rfl
    | true =>
      dsimp only [Phase.swing]
      exact key ((turn_hom3 h.moved.unit a).attempt (fun t y => Or.inl
        (chuteRhs_turn (h.moved.rails w.rail (w.rail.map (turnRail r a))) rfl hr _ _ ⟨rfl, rfl, rfl, rfl⟩ t y).symm) tab w.kept w.time w.state dt)

/-- **C96**, adaptive methods: the step size control may read the time, the step size asked for and the error estimates of steps of any size. -/
theorem turned_adaptive {ψ : ℝ} {P : Setup} {E' : Env} (control : ℝ → (ℝ → Except PyErr ℝ) → ℝ → ℝ × ℝ) (tab : RK.Tableau ℝ)
    (h : WindsTurned ψ P.env E') (x y : ℝ) (fuel : Nat) (v : Vessel) (hr : ∀ l, v.phase.rail = some l → l.rate = 0 ∧ OnAxis l.dir) (dt : ℝ)
    (cond : Run.EndCond ℝ) :
    mission { P with env := E', accepted := fun u => control u.phase.time (u.estimate E' tab) } fuel (v.swing (yawQ ψ) ⟨x, y, 0⟩) dt cond =
      (mission { P with accepted := fun u => control u.phase.time (u.estimate P.env tab) } fuel v dt cond).map
        (List.map (swingSlot (yawQ ψ) ⟨x, y, 0⟩)) := by
  refine turned_mission (P := { P with accepted := fun u => control u.phase.time (u.estimate P.env tab) }) h x y (fun u dt hu => ?_) fuel v hr dt cond
  dsimp only
  rw [show (u.swing (yawQ ψ) ⟨x, y, 0⟩).phase.time = u.phase.time from swing_time _,
    show (u.swing (yawQ ψ) ⟨x, y, 0⟩).estimate E' tab = u.estimate P.env tab from funext fun d => estimate_swing (winds_swung h x y) tab u hu d]

end Mapleaf.Rocket
