import Verif.Rocket.TurnedPlaceProps

/-!
# C110: a steady wind carries the flight along and does nothing else
-/

namespace Mapleaf.Motion
open V3

/-- the state of a body seen from axes that are `a` behind and move with `-W` -/
noncomputable def RBState.carry (W a : V3 ℝ) (s : RBState) : RBState := ⟨s.pos + a, s.vel + W, s.ori, s.angVel⟩

/-- a derivative whose velocity has `β` times `W` added -/
noncomputable def RBDeriv.carry (W : V3 ℝ) (β : ℝ) (d : RBDeriv) : RBDeriv := { d with vel := d.vel + β • W }

end Mapleaf.Motion

namespace Mapleaf.Motion.Carry
open V3

/-- What the integrators need of the operators of a state and its derivative: `cS a` is the state moved by `a` and faster by `W`, `cD β` the derivative
with `β` times `W` more velocity. -/
structure Carries {S D : Type} (A : Body.Arith S D) (W : V3 ℝ) (cS : V3 ℝ → S → S) (cD : ℝ → D → D) : Prop where
  divInv : ∀ k w, Body.divInv A (cD 1 k) w = (Body.divInv A k w).map (cD w)
  dadd : ∀ x y β γ, A.dadd (cD β x) (cD γ y) = (A.dadd x y).map (cD (β + γ))
  plus : ∀ a β y d s, Body.plus A (cS a y) (cD β d) s = (Body.plus A y d s).map (cS (a + (s * β) • W))

section
variable {S D : Type} {A : Body.Arith S D} {W : V3 ℝ} {cS : V3 ℝ → S → S} {cD : ℝ → D → D} (C : Carries A W cS cD)
include C

theorem accum_carry (dt : ℝ) (ws : List ℝ) : ∀ (acc : D) (β : ℝ) (ks : List D),
    Body.accum A A.dadd dt (cD β acc) ws (ks.map (cD 1)) =
      (Body.accum A A.dadd dt acc ws ks).map (cD (β + ws.sum * dt)) := by
  induction ws with
  | nil => intro acc β ks; simp [Body.accum, Except.map]
  | cons w ws ih =>
    intro acc β ks
    cases ks with
    | nil => rfl
    | cons k ks =>
      rw [List.map_cons, Body.accum, Body.accum, C.divInv]
      cases Body.divInv A k (w * dt) with
      | error e => rfl
      | ok x =>
        dsimp only [Except.map]
        rw [C.dadd]
        cases A.dadd acc x with
        | error e => rfl
        | ok acc' =>
        dsimp only [Except.map]
        rw [ih acc' (β + w * dt) ks]
        have hs : β + w * dt + ws.sum * dt = β + (w :: ws).sum * dt := by rw [List.sum_cons]; ring
        rw [hs]
        rfl

theorem combine_carry (dt : ℝ) (ws : List ℝ) (ks : List D) :
    Body.combine A A.dadd dt ws (ks.map (cD 1)) =
      (Body.combine A A.dadd dt ws ks).map (cD (ws.sum * dt)) := by
  cases ws with
  | nil => cases ks <;> rfl
  | cons w ws =>
    cases ks with
    | nil => rfl
    | cons k ks =>
      rw [List.map_cons]
      unfold Body.combine
      dsimp only
      rw [C.divInv]
      cases Body.divInv A k (w * dt) with
      | error e => rfl
      | ok x =>
        dsimp only [Except.map]
        rw [accum_carry C]
        have hs : w * dt + ws.sum * dt = (w :: ws).sum * dt := by rw [List.sum_cons]; ring
        rw [hs]
        rfl

/-- what the right-hand sides have to do with each other: moving along with `W`, anywhere at the same height, everything is the same -/
def Along {S D : Type} (cS : V3 ℝ → S → S) (cD : ℝ → D → D) (f f' : ℝ → S → Except PyErr D) : Prop :=
  ∀ t y (a : V3 ℝ), a.z = 0 → f' t (cS a y) = (f t y).map (cD 1)

omit C in
theorem level (W a : V3 ℝ) (hW : W.z = 0) (ha : a.z = 0) (s : ℝ) : (a + s • W).z = 0 := by simp [hW, ha]

theorem stages_carry (hW : W.z = 0) {f f' : ℝ → S → Except PyErr D} (hf : Along cS cD f f') (t : ℝ) (y : S) (a : V3 ℝ)
    (ha : a.z = 0) (dt : ℝ) (rows : RK.Tableau ℝ) : ∀ (ks : List D) (ev ev' : List (ℝ × S)),
    (Body.stages A f' t (cS a y) dt rows (ks.map (cD 1)) ev').map Prod.fst =
      (Body.stages A f t y dt rows ks ev).map fun x => x.1.map (cD 1) := by
  induction rows with
  | nil => intro ks ev ev'; rfl
  | cons row rows ih =>
    intro ks ev ev'
    cases row with
    | nil => rfl
    | cons c as =>
      rw [Body.stages, Body.stages]
      rw [combine_carry C]
      cases Body.combine A A.dadd dt as ks with
      | error e => rfl
      | ok d =>
        dsimp only [Except.map]
        rw [C.plus]
        cases Body.plus A y d 1 with
        | error e => rfl
        | ok z =>
          dsimp only [Except.map]
          rw [hf _ z _ (level W a hW ha _)]
          cases f (t + dt * c) z with
          | error e => rfl
          | ok k =>
            dsimp only [Except.map]
            have := ih (ks ++ [k]) (ev ++ [(t + dt * c, z)]) (ev' ++ [(t + dt * c, cS (a + (1 * (as.sum * dt)) • W) z)])
            rw [List.map_append, List.map_cons, List.map_nil] at this
            exact this

theorem rkStep_carry (hW : W.z = 0) {f f' : ℝ → S → Except PyErr D} (hf : Along cS cD f f') (t : ℝ) (y : S) (a : V3 ℝ)
    (ha : a.z = 0) (dt : ℝ) (tab : RK.Tableau ℝ) :
    (Body.rkStep A tab f' t (cS a y) dt).map Body.Step.newValue =
      (Body.rkStep A tab f t y dt).map fun r => cS (a + (dt * (tab.getLast?.getD []).sum) • W) r.newValue := by
  unfold Body.rkStep
  rw [hf t y a ha]
  cases f t y with
  | error e => rfl
  | ok k0 =>
    dsimp only [Except.map]
    have := stages_carry C hW hf t y a ha dt tab.dropLast [k0] [(t, y)] [(t, cS a y)]
    rw [List.map_cons, List.map_nil] at this
    rcases h1 : Body.stages A f' t (cS a y) dt tab.dropLast [cD 1 k0] [(t, cS a y)] with e1 | ⟨ks1, ev1⟩ <;>
    rcases h2 : Body.stages A f t y dt tab.dropLast [k0] [(t, y)] with e2 | ⟨ks2, ev2⟩ <;>
    rw [h1, h2] at this <;> simp only [Except.map, reduceCtorEq, Except.error.injEq, Except.ok.injEq] at this
    · rw [this]
    · dsimp only
      rw [this, combine_carry C]
      cases Body.combine A A.dadd 1 (tab.getLast?.getD []) ks2 with
      | error e => rfl
      | ok d =>
        dsimp only [Except.map]
        rw [C.plus, mul_one]
        cases Body.plus A y d dt <;> rfl

theorem eulerStep_carry {f f' : ℝ → S → Except PyErr D} (hf : Along cS cD f f') (t : ℝ) (y : S) (a : V3 ℝ)
    (ha : a.z = 0) (dt : ℝ) :
    (Body.eulerStep A f' t (cS a y) dt).map Body.Step.newValue =
      (Body.eulerStep A f t y dt).map fun r => cS (a + (dt * 1) • W) r.newValue := by
  unfold Body.eulerStep
  rw [hf t y a ha]
  cases f t y with
  | error e => rfl
  | ok k0 =>
    dsimp only [Except.map]
    rw [C.plus]
    cases Body.plus A y k0 dt <;> rfl

omit C in
/-- the sum of the weights of a fixed-step method, with the zeros of its tableau replaced by 1e-16 (Integration.py:33-54) -/
theorem weights_sum (method : String) (tab : RK.Tableau ℚ) (tab' : RK.Tableau ℝ) (h : RK.classicalTableau method = .ok (some tab))
    (h' : RK.checkTableau (tab.map (fun r : List ℚ => r.map (fun q : ℚ => (q : ℝ)))) = .ok tab') :
    (tab'.getLast?.getD []).sum = if method = "RK2Midpoint" then 1 + 1 / 10 ^ 16 else 1 := by
  have hp : tab' = RK.patch (tab.map (fun r : List ℚ => r.map (fun q : ℚ => (q : ℝ)))) := by
    unfold RK.checkTableau at h'
    split at h'
    · exact (Except.ok.inj h').symm
    · cases h'
  subst hp
  unfold RK.classicalTableau at h
  split at h
  · cases h
  split at h
  · rename_i hm
    obtain rfl := Option.some.inj (Except.ok.inj h)
    rw [if_pos hm]
    norm_num [RK.tabRK2Midpoint, RK.patch]
  split at h
  · rename_i hm hm2
    obtain rfl := Option.some.inj (Except.ok.inj h)
    rw [if_neg hm]
    norm_num [RK.tabRK2Heun, RK.patch]
  split at h
  · rename_i hm _ _
    obtain rfl := Option.some.inj (Except.ok.inj h)
    rw [if_neg hm]
    norm_num [RK.tabRK4, RK.patch]
  split at h
  · rename_i hm _ _ _
    obtain rfl := Option.some.inj (Except.ok.inj h)
    rw [if_neg hm]
    norm_num [RK.tabRK438, RK.patch]
  · cases h

theorem classicalStep_carry (hW : W.z = 0) {f f' : ℝ → S → Except PyErr D} (hf : Along cS cD f f') (method : String) (t : ℝ)
    (y : S) (a : V3 ℝ) (ha : a.z = 0) (dt : ℝ) :
    (Body.classicalStep A method f' t (cS a y) dt).map Body.Step.newValue =
      (Body.classicalStep A method f t y dt).map fun r =>
        cS (a + (dt * if method = "RK2Midpoint" then 1 + 1 / 10 ^ 16 else 1) • W) r.newValue := by
  unfold Body.classicalStep
  rcases h : RK.classicalTableau method with e | _ | tab
  · rfl
  · dsimp only
    have hm : ¬ method = "RK2Midpoint" := by
      rintro rfl
      simp [RK.classicalTableau] at h
    rw [if_neg hm]
    exact eulerStep_carry C hf t y a ha dt
  · dsimp only
    rcases h' : RK.checkTableau (tab.map (fun r : List ℚ => r.map (fun q : ℚ => (q : ℝ)))) with e | tab'
    · rfl
    · dsimp only
      rw [← weights_sum method tab tab' h h']
      exact rkStep_carry C hW hf t y a ha dt tab'

end

theorem divInv_carry (W : V3 ℝ) (k : RBDeriv) (w : ℝ) :
    Body.divInv Body.bodyArith (k.carry W 1) w = (Body.divInv Body.bodyArith k w).map (RBDeriv.carry W w) := by
  unfold Body.divInv
  split
  · rfl
  · rename_i hw
    have h1 : (1 / w : ℝ) ≠ 0 := by simpa using hw
    change RBDeriv.div _ _ = (RBDeriv.div _ _).map _
    unfold RBDeriv.div
    rw [if_neg h1, if_neg h1]
    simp only [Except.map, RBDeriv.carry, Except.ok.injEq, RBDeriv.mk.injEq, and_true]
    apply V3.ext' <;> simp <;> ring

theorem plus_carry (W a : V3 ℝ) (β : ℝ) (y : RBState) (d : RBDeriv) (s : ℝ) :
    Body.plus Body.bodyArith (y.carry W a) (d.carry W β) s = (Body.plus Body.bodyArith y d s).map (RBState.carry W (a + (s * β) • W)) := by
  unfold Body.plus
  simp only [show Body.bodyArith.dmul = RBDeriv.mul from rfl, show Body.bodyArith.add = RBState.add from rfl]
  unfold RBDeriv.mul
  rw [show (d.carry W β).angVel = d.angVel from rfl]
  cases (Quat.ofRotationVector (s • d.angVel)).normalize with
  | error e => rfl
  | ok o =>
    dsimp only
    unfold RBState.add
    rw [show (y.carry W a).ori = y.ori from rfl]
    cases y.ori.normalize with
    | error e => rfl
    | ok o1 =>
      dsimp only
      cases (o.mul o1).normalize with
      | error e => rfl
      | ok o2 =>
        simp only [Except.map, RBState.carry, RBDeriv.carry, Except.ok.injEq, RBState.mk.injEq, and_true, true_and]
        constructor
        · apply V3.ext' <;> simp <;> ring
        · apply V3.ext' <;> simp <;> ring

theorem body_carries (W : V3 ℝ) : Carries Body.bodyArith W (RBState.carry W) (RBDeriv.carry W) where
  divInv := divInv_carry W
  dadd x y β γ := by
    change Except.ok (RBDeriv.add _ _) = _
    simp only [RBDeriv.add, RBDeriv.carry, Except.map, Body.bodyArith, Except.ok.injEq, RBDeriv.mk.injEq, and_true]
    apply V3.ext' <;> simp <;> ring
  plus a β y d s := plus_carry W a β y d s

end Mapleaf.Motion.Carry

namespace Mapleaf.Rocket
open Mapleaf.Motion V3 ENV

/-- the same air over the same flat ground (or none), with `W` added to the wind at every height; turbulence as before -/
structure WindAdded (W : V3 ℝ) (E E' : Env) : Prop where
  flat : E.earth = flatEarth ∨ E.earth = noEarth
  earth : E'.earth = E.earth
  elevation : E'.elevation = E.elevation
  air : E'.air = E.air
  mean : ∀ h, E'.mean h = (E.mean h).map (· + W)
  turb : (E.turb = none ∧ E'.turb = none) ∨ ∃ f f', E.turb = some f ∧ E'.turb = some f' ∧ ∀ h m t, f' h (m + W) t = f h m t

/-- conditions of the air with more wind -/
noncomputable def addWind (W : V3 ℝ) (c : Conditions) : Conditions := { c with wind := c.wind + W, meanWind := c.meanWind + W }

theorem wind_added {W : V3 ℝ} {E E' : Env} (h : WindAdded W E E') (agl : ℝ) (time : Option ℝ) :
    E'.getWind agl time = (E.getWind agl time).map fun x => (x.1 + W, x.2) := by
  unfold Env.getWind
  rw [h.mean]
  cases E.mean agl with
  | error e => rfl
  | ok m =>
    dsimp only [Except.map]
    rcases h.turb with ⟨h1, h2⟩ | ⟨f, f', h1, h2, h3⟩
    · rw [h1, h2]
    · rw [h1, h2]
      dsimp only
      rw [h3]
      cases f agl m time <;> rfl

theorem conditions_added {W : V3 ℝ} {E E' : Env} (h : WindAdded W E E') (pos a : V3 ℝ) (ha : a.z = 0) (time : Option ℝ) :
    E'.conditions false (pos + a) time = (E.conditions false pos time).map (addWind W) := by
  have hz : (pos + a).z = pos.z := by simp [ha]
  rw [flat_air h.flat, flat_air (h.earth ▸ h.flat), hz, h.elevation, h.air, wind_added h]
  cases E.getWind (pos.z - E.elevation) time with
  | error e => rfl
  | ok w =>
    dsimp only [Except.bind, Except.map]
    cases E.air pos.z time with
    | error e => rfl
    | ok x =>
      simp only [addWind, Except.ok.injEq, Conditions.mk.injEq, and_true, true_and]
      apply V3.ext' <;> simp <;> ring

theorem gravity_carry {E : Env} (h : E.earth = flatEarth ∨ E.earth = noEarth) (mass : ℝ) (cg : V3 ℝ) (W a : V3 ℝ) (ha : a.z = 0) (s : RBState) :
    E.gravityForce mass cg (s.carry W a) = E.gravityForce mass cg s := by
  have hz : (s.pos + a).z = s.pos.z := by simp [ha]
  have hg : E.earth.gravity mass (s.pos + a) = E.earth.gravity mass s.pos := by
    rcases h with e | e <;> rw [e]
    · change flatGravity mass _ = flatGravity mass s.pos
      unfold flatGravity
      rw [hz]
    · rfl
  unfold Env.gravityForce
  rw [show (s.carry W a).pos = s.pos + a from rfl, hg]
  rfl

theorem flow_carry (W a : V3 ℝ) (s : RBState) (c : Conditions) : flowOf (s.carry W a) (addWind W c) = flowOf s c := by
  have hd : (s.carry W a).vel - (condOf (addWind W c)).wind = s.vel - (condOf c).wind := by
    apply V3.ext' <;> simp [RBState.carry, addWind, condOf]
  have h1 : Aero.machOf (s.carry W a) (condOf (addWind W c)) = Aero.machOf s (condOf c) := by
    unfold Aero.machOf
    rw [hd]
    rfl
  have h2 : Aero.airVel (s.carry W a) (condOf (addWind W c)) = Aero.airVel s (condOf c) := by
    unfold Aero.airVel
    rw [hd]
    rfl
  unfold flowOf
  rw [h1, h2]
  rfl

theorem applied_carry {W : V3 ℝ} {E E' : Env} (h : WindAdded W E E') (hr : E.rail = none) (hr' : E'.rail = none) (c : Craft) (t : ℝ) (s : RBState)
    (a : V3 ℝ) (ha : a.z = 0) : c.appliedForce E' t (s.carry W a) = c.appliedForce E t s := by
  have hg : ∀ mass cg, E'.gravityForce mass cg (s.carry W a) = E.gravityForce mass cg s := by
    intro mass cg
    rw [gravity_carry (h.earth ▸ h.flat) mass cg W a ha]
    unfold Env.gravityForce
    rw [h.earth]
  unfold Craft.appliedForce
  rw [show (s.carry W a).pos = s.pos + a from rfl, conditions_added h s.pos a ha, hr, hr']
  cases E.conditions false s.pos (some t) with
  | error e => rfl
  | ok air =>
    simp only [Except.map, bind, Except.bind]
    rw [flow_carry]
    simp only [hg]
    rfl

theorem derivative_carry (W a : V3 ℝ) (s : RBState) (F M : V3 ℝ) (I1 I2 : MassProps) :
    rigidBodyDerivative (s.carry W a) F M I1 I2 = (rigidBodyDerivative s F M I1 I2).map (RBDeriv.carry W 1) := by
  unfold rigidBodyDerivative
  rw [show (s.carry W a).ori = s.ori from rfl, show (s.carry W a).angVel = s.angVel from rfl]
  cases s.ori.rotate ((1 / 1e-8 : ℝ) • (I2.cg - I1.cg)) with
  | error e => rfl
  | ok x =>
    obtain ⟨cgVel, o⟩ := x
    dsimp only
    cases o.rotate F with
    | error e => rfl
    | ok x =>
      obtain ⟨fG, o'⟩ := x
      dsimp only
      split
      · rfl
      · cases o'.rotate s.angVel with
        | error e => rfl
        | ok x =>
          obtain ⟨wG, o''⟩ := x
          dsimp only
          split
          · rfl
          · simp only [Except.map, RBDeriv.carry, RBState.carry, Except.ok.injEq, RBDeriv.mk.injEq, and_true]
            apply V3.ext' <;> simp <;> ring

theorem rhs_carry {W : V3 ℝ} {E E' : Env} (h : WindAdded W E E') (hr : E.rail = none) (hr' : E'.rail = none) (c : Craft) :
    Carry.Along (RBState.carry W) (RBDeriv.carry W) (c.rhs E) (c.rhs E') := by
  intro t s a ha
  unfold Craft.rhs
  rw [applied_carry h hr hr' c t s a ha]
  cases c.appliedForce E t s with
  | error e => rfl
  | ok f =>
    cases hi : c.inertia t with
    | error e => simp [bind, Except.bind, Except.map]
    | ok i =>
      cases hi' : c.inertia (t + 1e-8) with
      | error e => simp [bind, Except.bind, Except.map]
      | ok i' =>
        simp only [bind, Except.bind]
        exact derivative_carry W a s _ _ _ _

/-- the flight seen from the ground: everything moves by `a`, the velocities by `W` -/
noncomputable def carryFlight (W a : V3 ℝ) (w : InFlight) : InFlight := { w with state := w.state.carry W a }

/-- a time step off the rail by a fixed-step method -/
theorem timeStep_free {E : Env} {c : Craft} {method : String} {e : PyErr} (hm : RK.adaptiveTableau method = .error e) {w : InFlight}
    (hw : w.rail = none) (dt : ℝ) : c.timeStep E method w dt =
      (Body.classicalStep Body.bodyArith method (c.rhs { E with rail := none }) w.time w.state dt).map fun r => ⟨w.time + dt, r.newValue, none, none⟩ := by
  unfold Craft.timeStep
  rw [hw]
  simp only [envConstrain, bind, Except.bind]
  unfold integrateStep
  rw [hm]
  simp only [bind, Except.bind]
  cases Body.classicalStep Body.bodyArith method (c.rhs { E with rail := none }) w.time w.state dt <;> rfl

theorem timeStep_carry {W : V3 ℝ} (hW : W.z = 0) {E E' : Env} (h : WindAdded W E E') (c : Craft) (method : String) (e : PyErr)
    (hm : RK.adaptiveTableau method = .error e) (w : InFlight) (hw : w.rail = none) (a : V3 ℝ) (ha : a.z = 0) (dt : ℝ) :
    c.timeStep E' method (carryFlight W a w) dt =
      (c.timeStep E method w dt).map (carryFlight W (a + (dt * if method = "RK2Midpoint" then 1 + 1 / 10 ^ 16 else 1) • W)) := by
  have hf : Carry.Along (RBState.carry W) (RBDeriv.carry W) (c.rhs { E with rail := none }) (c.rhs { E' with rail := none }) :=
    rhs_carry (E := { E with rail := none }) (E' := { E' with rail := none }) ⟨h.flat, h.earth, h.elevation, h.air, h.mean, h.turb⟩ rfl rfl c
  have key := Carry.classicalStep_carry (Carry.body_carries W) hW hf method w.time w.state a ha dt
  rw [timeStep_free hm hw, timeStep_free hm (show (carryFlight W a w).rail = none from hw)]
  change Except.map _ (Body.classicalStep Body.bodyArith method (c.rhs { E' with rail := none }) w.time (w.state.carry W a) dt) = _
  rcases h1 : Body.classicalStep Body.bodyArith method (c.rhs { E' with rail := none }) w.time (w.state.carry W a) dt with e1 | r1 <;>
  rcases h2 : Body.classicalStep Body.bodyArith method (c.rhs { E with rail := none }) w.time w.state dt with e2 | r2 <;>
  rw [h1, h2] at key <;> simp only [Except.map, reduceCtorEq, Except.error.injEq, Except.ok.injEq] at key
  · rw [key]; rfl
  · simp only [Except.map, carryFlight, key]

theorem timeStep_clock {E : Env} {c : Craft} {method : String} {w w' : InFlight} {dt : ℝ} (h : c.timeStep E method w dt = .ok w') :
    w'.time = w.time + dt := by
  unfold Craft.timeStep at h
  obtain ⟨m, hm, h⟩ := bind_okay h
  obtain ⟨x, hx, h⟩ := bind_okay h
  obtain rfl := Except.ok.inj h
  rfl

/-- **C110.** Over flat ground (or none), with a horizontal wind `W` added at every height and the rocket started `W` faster, off the rail and
`a` away along the ground, by any fixed-step method: after every number of steps of any size the flight is the one without `W`, moved by `a` and by
`W` times the time flown (for RK2Midpoint times 1 + 1e-16 as well), the velocity by `W`; orientation, angular velocity, altitude and time are the
same. A flight that ends in an exception ends in the same one. -/
theorem carried_flight {W : V3 ℝ} (hW : W.z = 0) {E E' : Env} (h : WindAdded W E E') (method : String) (e : PyErr)
    (hm : RK.adaptiveTableau method = .error e) (steps : List (Craft × ℝ)) (w : InFlight) (hw : w.rail = none) (a : V3 ℝ) (ha : a.z = 0) :
    fly E' method (carryFlight W a w) steps = (fly E method w steps).map fun w' =>
      carryFlight W (a + ((w'.time - w.time) * if method = "RK2Midpoint" then 1 + 1 / 10 ^ 16 else 1) • W) w' := by
  induction steps generalizing w a with
  | nil =>
    simp only [fly, Except.map, Except.ok.injEq, sub_self, zero_mul]
    congr 1
    apply V3.ext' <;> simp
  | cons x rest ih =>
    obtain ⟨c, dt⟩ := x
    rw [fly_cons, fly_cons, timeStep_carry hW h c method e hm w hw a ha dt]
    rcases h1 : c.timeStep E method w dt with e1 | w1
    · rfl
    · have hr : w1.rail = none := by rcases timeStep_rail h1 with h2 | h2 <;> simp [h2, hw]
      have ht := timeStep_clock h1
      simp only [Except.map, Except.bind]
      rw [ih w1 hr _ (Carry.level W a hW ha _)]
      cases fly E method w1 rest with
      | error e => rfl
      | ok w2 =>
        simp only [Except.map, Except.ok.injEq]
        congr 1
        generalize (if method = "RK2Midpoint" then (1 + 1 / 10 ^ 16 : ℝ) else 1) = κ
        rw [ht]
        apply V3.ext' <;> simp <;> ring

end Mapleaf.Rocket
