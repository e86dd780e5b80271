import Verif.Rocket.AscentProps
import Verif.Motion.TurnedBodyProps

/-!
# C96: a flight seen from turned or moved axes
-/

namespace Mapleaf.Rocket
open Mapleaf.Motion V3 ENV
open Mapleaf.Motion.Body (Sim)

theorem map_same {X : Type} (x : Except PyErr X) : x.map id = x := by cases x <;> rfl

/-- conditions of the air, the winds given in turned axes -/
noncomputable def turnAir (r : Quat ℝ) (c : Conditions) : Conditions :=
  { c with wind := r.rotF c.wind, meanWind := r.rotF c.meanWind, turbWind := r.rotF c.turbWind }

/-- the surroundings `E'` are the surroundings `E`, turned by `r` and moved by `a` (unless `b`: as far as those of `E` are known) -/
structure Moved (b : Bool) (E E' : Env) (r : Quat ℝ) (a : V3 ℝ) : Prop where
  unit : r.nsq = 1
  air : ∀ pos time, Sim b ((E.conditions false pos time).map (turnAir r)) (E'.conditions false (r.rotF pos + a) time)
  gravity : ∀ m pos, E'.earth.gravity m (r.rotF pos + a) = (E.earth.gravity m pos).map r.rotF

/-- a launch rail turned by `r` and moved by `a` -/
noncomputable def turnRail (r : Quat ℝ) (a : V3 ℝ) (l : Rail) : Rail := { l with pos := r.rotF l.pos + a, dir := r.rotF l.dir }

/-- the rails for which it is true: no turning earth, and a direction the turn does not change (the vertical, for a turn about it) -/
structure Plumb (r : Quat ℝ) (l : Rail) : Prop where
  rate : l.rate = 0
  dir : r.rotF l.dir = l.dir

noncomputable def turnFlight (r : Quat ℝ) (a : V3 ℝ) (w : InFlight) : InFlight :=
  ⟨w.time, w.state.turn r a, w.rail.map (turnRail r a), w.kept.map (RBDeriv.turn r)⟩

theorem rotF_sub' (r : Quat ℝ) (a b : V3 ℝ) : r.rotF (a - b) = r.rotF a - r.rotF b := by
  have e : a - b = a + (-1 : ℝ) • b := by apply V3.ext' <;> simp <;> ring
  rw [e, ENV.rotF_add, ENV.rotF_smul]
  apply V3.ext' <;> simp <;> ring

theorem Moved.rails {b : Bool} {E E' : Env} {r : Quat ℝ} {a : V3 ℝ} (h : Moved b E E' r a) (l l' : Option Rail) :
    Moved b { E with rail := l } { E' with rail := l' } r a := ⟨h.unit, h.air, h.gravity⟩

/-- the flow over the rocket is the same -/
theorem flow_turn {r : Quat ℝ} (hr : r.nsq = 1) (a : V3 ℝ) (s : RBState) (c : Conditions) :
    flowOf (s.turn r a) (turnAir r c) = flowOf s c := by
  have hd : (s.turn r a).vel - (condOf (turnAir r c)).wind = r.rotF (s.vel - c.wind) := by
    rw [rotF_sub']; rfl
  have h1 : Aero.machOf (s.turn r a) (condOf (turnAir r c)) = Aero.machOf s (condOf c) := by
    unfold Aero.machOf
    rw [hd, ENV.rotF_length (ENV.unit_ne hr)]
    rfl
  have h2 : Aero.airVel (s.turn r a) (condOf (turnAir r c)) = Aero.airVel s (condOf c) := by
    unfold Aero.airVel
    rw [hd]
    have := Quat.rotate_back hr s.ori (s.vel - c.wind)
    rw [show (s.turn r a).ori = r.mul s.ori from rfl, show (condOf c).wind = c.wind from rfl]
    generalize (r.mul s.ori).conj.rotate (r.rotF (s.vel - c.wind)) = x at this ⊢
    generalize s.ori.conj.rotate (s.vel - c.wind) = y at this ⊢
    cases x <;> cases y <;> simp_all [Except.map]
  unfold flowOf
  rw [h1, h2]
  rfl

/-- gravity, in the rocket's own axes, is the same -/
theorem gravity_turn {b : Bool} {E E' : Env} {r : Quat ℝ} {a : V3 ℝ} (h : Moved b E E' r a) (mass : ℝ) (cg : V3 ℝ) (s : RBState) :
    E'.gravityForce mass cg (s.turn r a) = E.gravityForce mass cg s := by
  unfold Env.gravityForce
  rw [show (s.turn r a).pos = r.rotF s.pos + a from rfl, h.gravity]
  cases E.earth.gravity mass s.pos with
  | error e => rfl
  | ok g =>
    dsimp only [Except.map]
    have := Quat.rotate_back h.unit s.ori g
    rw [show (s.turn r a).ori = r.mul s.ori from rfl]
    generalize (r.mul s.ori).conj.rotate (r.rotF g) = x at this ⊢
    generalize s.ori.conj.rotate g = y at this ⊢
    cases x <;> cases y <;> simp_all [Except.map]

theorem shift_sub (r : Quat ℝ) (a p q : V3 ℝ) : r.rotF p + a - (r.rotF q + a) = r.rotF (p - q) := by
  rw [rotF_sub']
  apply V3.ext' <;> simp

/-- the force on the rail is the same, in the rocket's own axes -/
theorem rail_force_turn {r : Quat ℝ} (hr : r.nsq = 1) (a : V3 ℝ) (l : Option Rail) (hl : ∀ x, l = some x → Plumb r x) (pos : V3 ℝ) (t : ℝ)
    (f : FMS ℝ) : envForce (l.map (turnRail r a)) (r.rotF pos + a) t f = envForce l pos t f := by
  cases l with
  | none => rfl
  | some x =>
    obtain ⟨hrate, hdir⟩ := hl x rfl
    have h0 : ∀ v, turnZ (x.rate * t) v = v := by intro v; rw [hrate, zero_mul, turnZ_zero]
    have h0' : ∀ v, turnZ ((turnRail r a x).rate * t) v = v := h0
    change (turnRail r a x).applyForce _ t f = x.applyForce _ t f
    unfold Rail.applyForce
    rw [Rail.getPosition_ok, Rail.getPosition_ok, Rail.getDirection_ok, Rail.getDirection_ok, h0, h0', h0, h0']
    dsimp only
    rw [show (turnRail r a x).pos = r.rotF x.pos + a from rfl, shift_sub, ENV.rotF_length (ENV.unit_ne hr),
      show (turnRail r a x).dir = x.dir from hdir, show (turnRail r a x).length = x.length from rfl]

/-- the constraint of the rail, whatever its direction -/
theorem rail_constrain_turn {r : Quat ℝ} (hr : r.nsq = 1) (a : V3 ℝ) (l : Option Rail) (hl : ∀ x, l = some x → x.rate = 0) (s : RBState3)
    (t : ℝ) : envConstrain (l.map (turnRail r a)) ⟨r.rotF s.pos + a, r.rotF s.vel⟩ t =
      (envConstrain l s t).map fun x => (⟨r.rotF x.1.pos + a, r.rotF x.1.vel⟩, x.2.map (turnRail r a)) := by
  cases l with
  | none => rfl
  | some x =>
    have hrate := hl x rfl
    have h0 : ∀ v, turnZ (x.rate * t) v = v := by intro v; rw [hrate, zero_mul, turnZ_zero]
    have h0' : ∀ v, turnZ ((turnRail r a x).rate * t) v = v := h0
    have hc : ∀ v : V3 ℝ, cross ⟨0, 0, x.rate⟩ v = 0 := by
      intro v; rw [hrate]; apply V3.ext' <;> simp [cross]
    have hc' : ∀ v : V3 ℝ, cross ⟨0, 0, (turnRail r a x).rate⟩ v = 0 := hc
    change (match (turnRail r a x).constrain _ t with | .error e => _ | .ok (true, s') => _ | .ok (false, s') => _) = _
    have key : (turnRail r a x).constrain ⟨r.rotF s.pos + a, r.rotF s.vel⟩ t =
        (x.constrain s t).map fun y => (y.1, ⟨r.rotF y.2.pos + a, r.rotF y.2.vel⟩) := by
      unfold Rail.constrain
      rw [Rail.getPosition_ok, Rail.getPosition_ok, Rail.getDirection_ok, Rail.getDirection_ok, Rail.getVelocity_ok, Rail.getVelocity_ok,
        h0, h0', h0, h0', hc, hc']
      dsimp only
      rw [show (turnRail r a x).pos = r.rotF x.pos + a from rfl, shift_sub, show (turnRail r a x).dir = r.rotF x.dir from rfl,
        ENV.rotF_dot (ENV.unit_ne hr), ENV.rotF_dot (ENV.unit_ne hr), show (turnRail r a x).length = x.length from rfl]
      split_ifs <;> simp [Except.map, ENV.rotF_zero]
    rw [key]
    unfold envConstrain
    dsimp only
    cases x.constrain s t with
    | error e => rfl
    | ok y =>
      obtain ⟨b, y⟩ := y
      cases b <;> rfl

/-- the applied force, in the rocket's own axes, is the same: whatever the rocket is made of -/
theorem applied_turn {b : Bool} {E E' : Env} {r : Quat ℝ} {a : V3 ℝ} (h : Moved b E E' r a) (hl : E'.rail = E.rail.map (turnRail r a))
    (hp : ∀ x, E.rail = some x → Plumb r x) (c : Craft) (t : ℝ) (s : RBState) :
    Sim b ((c.appliedForce E t s).map id) (c.appliedForce E' t (s.turn r a)) := by
  unfold Craft.appliedForce
  refine Sim.bind (h.air s.pos (some t)) fun air hair => ?_
  refine Sim.bind (m := id) (Or.inl (by cases c.inertia t <;> rfl)) fun i hi => ?_
  refine Sim.bind (m := id) (Or.inl (by rw [flow_turn h.unit]; cases flowOf s air <;> rfl)) fun fl hfl => ?_
  refine Sim.bind (m := id) (Or.inl (map_same _)) fun _ _ => ?_
  refine Sim.bind (m := id) (Or.inl (map_same _)) fun parts _ => ?_
  refine Sim.bind (m := id) (Or.inl (by rw [gravity_turn h]; exact map_same _)) fun g _ => ?_
  refine Or.inl ?_
  rw [hl, show (s.turn r a).pos = r.rotF s.pos + a from rfl, rail_force_turn h.unit a E.rail hp]
  exact map_same _

theorem rhs_turn {b : Bool} {E E' : Env} {r : Quat ℝ} {a : V3 ℝ} (h : Moved b E E' r a) (hl : E'.rail = E.rail.map (turnRail r a))
    (hp : ∀ x, E.rail = some x → Plumb r x) (c : Craft) (t : ℝ) (s : RBState) :
    Sim b ((c.rhs E t s).map (RBDeriv.turn r)) (c.rhs E' t (s.turn r a)) := by
  unfold Craft.rhs
  refine Sim.bind (applied_turn h hl hp c t s) fun f hf => ?_
  refine Sim.bind (m := id) (Or.inl (by cases c.inertia t <;> rfl)) fun i hi => ?_
  refine Sim.bind (m := id) (Or.inl (by cases c.inertia (t + 1e-8) <;> rfl)) fun i' hi' => ?_
  exact Or.inl (derivative_turn h.unit a s _ _ _ _).symm

/-- one integration step -/
theorem integrate_turn {b : Bool} {r : Quat ℝ} (hr : r.nsq = 1) (a : V3 ℝ) (method : String) {f f' : ℝ → RBState → Except PyErr RBDeriv}
    (hf : ∀ t y, Sim b ((f t y).map (RBDeriv.turn r)) (f' t (y.turn r a))) (w : InFlight) (dt : ℝ) :
    Sim b ((integrateStep method f w dt).map fun x => (x.1.turn r a, x.2.map (RBDeriv.turn r))) (integrateStep method f' (turnFlight r a w) dt) := by
  unfold integrateStep
  cases RK.adaptiveTableau method with
  | ok x =>
    obtain ⟨tab, fsal⟩ := x
    dsimp only
    refine Sim.bind (m := id) (Or.inl (map_same _)) fun tab' _ => ?_
    refine Sim.bind ((turn_hom hr a).attempt hf tab' w.kept w.time w.state dt) fun x _ => ?_
    refine Or.inl ?_
    cases fsal <;> rfl
  | error e =>
    dsimp only
    refine Sim.bind ((turn_hom hr a).classicalStep hf method w.time w.state dt) fun x _ => ?_
    exact Or.inl rfl

/-- one time step -/
theorem timeStep_turn {b : Bool} {E E' : Env} {r : Quat ℝ} {a : V3 ℝ} (h : Moved b E E' r a) (c : Craft) (method : String) (w : InFlight)
    (hp : ∀ x, w.rail = some x → Plumb r x) (dt : ℝ) :
    Sim b ((c.timeStep E method w dt).map (turnFlight r a)) (c.timeStep E' method (turnFlight r a w) dt) := by
  unfold Craft.timeStep
  refine Sim.bind (Or.inl (rail_constrain_turn h.unit a w.rail (fun x hx => (hp x hx).rate) ⟨w.state.pos, w.state.vel⟩ w.time).symm)
    fun m hm => ?_
  obtain ⟨m, rail⟩ := m
  dsimp only
  have hrail : ∀ x, rail = some x → Plumb r x := by
    intro x hx
    apply hp
    unfold envConstrain at hm
    split at hm
    · obtain ⟨-, rfl⟩ := Prod.mk.inj (Except.ok.inj hm); cases hx
    · rename_i y hy
      split at hm
      · cases hm
      · obtain ⟨-, h2⟩ := Prod.mk.inj (Except.ok.inj hm)
        rw [hy, h2, hx]
      · obtain ⟨-, h2⟩ := Prod.mk.inj (Except.ok.inj hm)
        rw [← h2] at hx; cases hx
  refine Sim.bind (integrate_turn h.unit a method (rhs_turn (h.rails rail (rail.map (turnRail r a))) rfl hrail c)
    { w with state := { w.state with pos := m.pos, vel := m.vel } } dt) fun x _ => ?_
  exact Or.inl rfl

theorem bind_okay {X Y : Type} {x : Except PyErr X} {g : X → Except PyErr Y} {y : Y} (h : (x >>= g) = .ok y) : ∃ v, x = .ok v ∧ g v = .ok y := by
  cases x with
  | error e => cases h
  | ok v => exact ⟨v, rfl, h⟩

theorem fly_cons (E : Env) (method : String) (w : InFlight) (c : Craft) (dt : ℝ) (rest : List (Craft × ℝ)) :
    fly E method w ((c, dt) :: rest) = (c.timeStep E method w dt).bind fun w' => fly E method w' rest := by
  rw [fly]
  cases c.timeStep E method w dt <;> rfl

/-- the rail is kept as it is or deleted -/
theorem timeStep_rail {E : Env} {c : Craft} {method : String} {w w' : InFlight} {dt : ℝ} (h : c.timeStep E method w dt = .ok w') :
    w'.rail = none ∨ w'.rail = w.rail := by
  unfold Craft.timeStep at h
  obtain ⟨m, hm, h⟩ := bind_okay h
  obtain ⟨x, hx, h⟩ := bind_okay h
  obtain rfl := Except.ok.inj h
  dsimp only
  unfold envConstrain at hm
  split at hm
  · obtain rfl := Except.ok.inj hm; exact Or.inl rfl
  · rename_i y hy
    split at hm
    · cases hm
    · obtain rfl := Except.ok.inj hm; exact Or.inr hy.symm
    · obtain rfl := Except.ok.inj hm; exact Or.inl rfl

/-- **C96.** Any flight, in surroundings that are turned and moved, is the flight, turned and moved. -/
theorem fly_turn {b : Bool} {E E' : Env} {r : Quat ℝ} {a : V3 ℝ} (h : Moved b E E' r a) (method : String) (steps : List (Craft × ℝ))
    (w : InFlight) (hp : ∀ x, w.rail = some x → Plumb r x) :
    Sim b ((fly E method w steps).map (turnFlight r a)) (fly E' method (turnFlight r a w) steps) := by
  induction steps generalizing w with
  | nil => exact Or.inl rfl
  | cons x rest ih =>
    obtain ⟨c, dt⟩ := x
    rw [fly_cons, fly_cons]
    refine Sim.bind (timeStep_turn h c method w hp dt) fun w' hw' => ih w' ?_
    intro x hx
    rcases timeStep_rail hw' with h1 | h1
    · rw [h1] at hx; cases hx
    · exact hp x (h1 ▸ hx)

end Mapleaf.Rocket
