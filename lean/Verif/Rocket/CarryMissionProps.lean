import Verif.Rocket.CarryProps
import Verif.Rocket.MissionProps

/-!
# C110: whole missions carried along by the wind
-/

namespace Mapleaf.Rocket
open Mapleaf.Motion V3 ENV
open Mapleaf.Motion.Stepper (RBDeriv3 add3 mul3 neg3 abs3 dAdd3 dMul3 dDiv3)

/-! ## Under parachute -/

noncomputable def carry3 (W a : V3 ℝ) (s : RBState3) : RBState3 := ⟨s.pos + a, s.vel + W⟩

noncomputable def carryD3 (W : V3 ℝ) (β : ℝ) (d : RBDeriv3) : RBDeriv3 := ⟨d.vel + β • W, d.acc⟩

theorem three_carries (W : V3 ℝ) : Carry.Carries arith3 W (carry3 W) (carryD3 W) where
  divInv k w := by
    unfold Body.divInv
    split
    · rfl
    · rename_i hw
      have h1 : (1 / w : ℝ) ≠ 0 := by simpa using hw
      change dDiv3 _ _ = (dDiv3 _ _).map _
      unfold dDiv3
      rw [if_neg h1, if_neg h1]
      simp only [Except.map, carryD3, Except.ok.injEq, RBDeriv3.mk.injEq, and_true]
      apply V3.ext' <;> simp <;> ring
  dadd x y β γ := by
    change Except.ok (dAdd3 _ _) = Except.ok (carryD3 W (β + γ) (dAdd3 x y))
    simp only [dAdd3, carryD3, Except.ok.injEq, RBDeriv3.mk.injEq, and_true]
    apply V3.ext' <;> simp <;> ring
  plus a β y d s := by
    change Except.ok (add3 _ (dMul3 _ _)) = Except.ok (carry3 W _ (add3 y (dMul3 d s)))
    simp only [add3, dMul3, carry3, carryD3, Except.ok.injEq, RBState3.mk.injEq]
    constructor
    · apply V3.ext' <;> simp <;> ring
    · apply V3.ext' <;> simp <;> ring

theorem conditions_quiet (E : Env) (off : Bool) (pos : V3 ℝ) (time : Option ℝ) : E.conditions off pos time =
    (E.conditions false pos time).map fun c => if off then { c with wind := c.meanWind, turbWind := ⟨0, 0, 0⟩ } else c := by
  unfold Env.conditions
  cases E.airProperties pos time with
  | error e => rfl
  | ok c => cases off <;> rfl

theorem conditions_added_any {W : V3 ℝ} {E E' : Env} (h : WindAdded W E E') (off : Bool) (pos a : V3 ℝ) (ha : a.z = 0) (time : Option ℝ) :
    E'.conditions off (pos + a) time = (E.conditions off pos time).map (addWind W) := by
  rw [conditions_quiet E', conditions_quiet E, conditions_added h pos a ha]
  cases E.conditions false pos time with
  | error e => rfl
  | ok c => cases off <;> rfl

theorem flat_gravity_carry {E : Env} (h : E.earth = flatEarth ∨ E.earth = noEarth) (mass : ℝ) (pos a : V3 ℝ) (ha : a.z = 0) :
    E.earth.gravity mass (pos + a) = E.earth.gravity mass pos := by
  have hz : (pos + a).z = pos.z := by simp [ha]
  rcases h with e | e <;> rw [e]
  · change flatGravity mass _ = flatGravity mass pos
    unfold flatGravity
    rw [hz]
  · rfl

theorem chuteForce_carry (cs : List (Chute ℝ)) (k : Int) (vel wind W : V3 ℝ) (density : ℝ) :
    chuteForce cs k (vel + W) (wind + W) density = chuteForce cs k vel wind density := by
  have : vel + W - (wind + W) = vel - wind := by apply V3.ext' <;> simp
  unfold chuteForce
  rw [this]

theorem chuteRhs_carry {W : V3 ℝ} {E E' : Env} (h : WindAdded W E E') (hr : E.rail = none) (hr' : E'.rail = none) (v v' : Vessel)
    (hv : v'.craft = v.craft ∧ v'.quietChute = v.quietChute ∧ v'.chutes = v.chutes ∧ v'.current = v.current) :
    Carry.Along (carry3 W) (carryD3 W) (v.chuteRhs E) (v'.chuteRhs E') := by
  intro t s a ha
  obtain ⟨h1, h2, h3, h4⟩ := hv
  unfold Vessel.chuteRhs
  rw [h1, h2, h3, h4, show (carry3 W a s).pos = s.pos + a from rfl, show (carry3 W a s).vel = s.vel + W from rfl,
    conditions_added_any h _ s.pos a ha, hr, hr', h.earth]
  cases E.conditions v.quietChute s.pos (some t) with
  | error e => rfl
  | ok air =>
    simp only [Except.map, bind, Except.bind]
    cases v.craft.inertia t with
    | error e => rfl
    | ok i =>
      dsimp only
      have e : ∀ cs k, chuteForce cs k (s.vel + W) (addWind W air).wind (addWind W air).density = chuteForce cs k s.vel air.wind air.density :=
        fun cs k => chuteForce_carry cs k s.vel air.wind W air.density
      simp only [e, flat_gravity_carry h.flat i.mass s.pos a ha]
      cases v.chutes.getLast? with
      | none => rfl
      | some cs =>
      cases v.current.getLast? with
      | none => rfl
      | some k =>
      dsimp only
      cases chuteForce cs k s.vel air.wind air.density with
      | error e => rfl
      | ok f =>
        dsimp only
        cases E.earth.gravity i.mass s.pos with
        | error e => rfl
        | ok g =>
          dsimp only [envForce]
          unfold rigidBodyDerivative3
          by_cases hm : i.mass = 0
          · rw [if_pos hm, if_pos hm]
          · rw [if_neg hm, if_neg hm]
            simp only [carryD3, carry3, Except.ok.injEq, RBDeriv3.mk.injEq, and_true]
            apply V3.ext' <;> simp

/-! ## Bodies -/

/-- the body of a flight, moved by `a` and by `κ` times `W` for every second since `t₀`, and faster by `W` -/
noncomputable def Phase.drift (W a : V3 ℝ) (κ t₀ : ℝ) : Phase → Phase
  | .six w => .six { w with state := w.state.carry W (a + ((w.time - t₀) * κ) • W) }
  | .three w => .three { w with state := carry3 W (a + ((w.time - t₀) * κ) • W) w.state }

noncomputable def Vessel.drift (W a : V3 ℝ) (κ t₀ : ℝ) (v : Vessel) : Vessel := { v with phase := v.phase.drift W a κ t₀ }

noncomputable def Live.drift (W a : V3 ℝ) (κ t₀ : ℝ) (w : Live) : Live :=
  ⟨w.vessel.drift W a κ t₀, w.dropped.map (Vessel.drift W a κ t₀), w.failed⟩

section
variable {W a : V3 ℝ} {κ t₀ : ℝ}

theorem drift_time (p : Phase) : (p.drift W a κ t₀).time = p.time := by cases p <;> rfl
theorem drift_rail (p : Phase) : (p.drift W a κ t₀).rail = p.rail := by cases p <;> rfl
theorem drift_copy (p : Phase) : (p.drift W a κ t₀).copy = p.copy.drift W a κ t₀ := by cases p <;> rfl
theorem drift_three (p : Phase) : (p.drift W a κ t₀).toThree = p.toThree.drift W a κ t₀ := by cases p <;> rfl
theorem drift_onRail (p : Phase) (r : Option Rail) : (p.drift W a κ t₀).onRail r = (p.onRail r).drift W a κ t₀ := by cases p <;> rfl
theorem drift_pos (p : Phase) : (p.drift W a κ t₀).pos = p.pos + (a + ((p.time - t₀) * κ) • W) := by cases p <;> rfl
theorem drift_vel (p : Phase) : (p.drift W a κ t₀).vel = p.vel + W := by cases p <;> rfl
theorem drift_posZ (hW : W.z = 0) (ha : a.z = 0) (p : Phase) : (p.drift W a κ t₀).pos.z = p.pos.z := by
  rw [drift_pos]; simp [hW, ha]
theorem drift_velZ (hW : W.z = 0) (p : Phase) : (p.drift W a κ t₀).vel.z = p.vel.z := by
  rw [drift_vel]; simp [hW]

theorem enuZ_drift {E E' : Env} (h : WindAdded W E E') (hW : W.z = 0) (ha : a.z = 0) (p : Phase) :
    enuZ E' (p.drift W a κ t₀) = enuZ E p := by
  have h1 : ∀ q, E.earth.altitude q = .ok q.z := by intro q; rcases h.flat with h | h <;> rw [h] <;> rfl
  unfold enuZ
  rw [h.earth, h1, h1, drift_posZ hW ha]

theorem enuVz_drift {E E' : Env} (h : WindAdded W E E') (hW : W.z = 0) (p : Phase) :
    enuVz E' (p.drift W a κ t₀) = enuVz E p := by
  have h1 : ∀ q, E.earth.enu q = .ok ⟨1, 0, 0, 0⟩ := by intro q; rcases h.flat with h | h <;> rw [h] <;> rfl
  have h2 : (⟨1, 0, 0, 0⟩ : Quat ℝ).conj = ⟨1, 0, 0, 0⟩ := by simp [Quat.conj]
  unfold enuVz
  rw [h.earth, h1, h1]
  dsimp only
  rw [h2, id_rotate, id_rotate]
  exact drift_velZ hW p

/-! ## Events -/

theorem readVessel_phase (src : Source) (stage : Option Nat) (p p' : Phase) :
    readVessel src stage p' = (readVessel src stage p).map fun v => { v with phase := p' } := by
  change _ = (fun v : Vessel => { v with phase := p' }) <$> readVessel src stage p
  unfold readVessel
  simp only [map_bind]
  rfl

theorem separate_drift {P P' : Setup} (hs : P'.src = P.src) (hd : P'.dropPaths = P.dropPaths) (v : Vessel) :
    (v.drift W a κ t₀).separate P' = (v.separate P).map fun x => (x.1.drift W a κ t₀, x.2.map (Vessel.drift W a κ t₀)) := by
  unfold Vessel.separate
  rw [hs, hd]
  have e : readVessel P.src (some (v.drift W a κ t₀).dropIndex) (v.drift W a κ t₀).phase.copy =
      (readVessel P.src (some v.dropIndex) v.phase.copy).map (Vessel.drift W a κ t₀) := by
    rw [show (v.drift W a κ t₀).dropIndex = v.dropIndex from rfl, show (v.drift W a κ t₀).phase.copy = v.phase.copy.drift W a κ t₀ from drift_copy _,
      readVessel_phase P.src (some v.dropIndex) v.phase.copy (v.phase.copy.drift W a κ t₀)]
    rcases hv : readVessel P.src (some v.dropIndex) v.phase.copy with e | d
    · rfl
    · have hp : d.phase = v.phase.copy := by
        have := readVessel_phase P.src (some v.dropIndex) v.phase.copy v.phase.copy
        rw [hv] at this
        exact congrArg Vessel.phase (Except.ok.inj this)
      simp only [Except.map, Vessel.drift, hp]
  rw [e, show (v.drift W a κ t₀).stages = v.stages from rfl, show (v.drift W a κ t₀).phase.time = v.phase.time from drift_time _]
  have e2 : (if P.dropPaths = true then Except.map (fun x => [x]) ((readVessel P.src (some v.dropIndex) v.phase.copy).map (Vessel.drift W a κ t₀))
      else .ok []) = (if P.dropPaths = true then Except.map (fun x => [x]) (readVessel P.src (some v.dropIndex) v.phase.copy)
      else .ok []).map (List.map (Vessel.drift W a κ t₀)) := by
    split
    · cases readVessel P.src (some v.dropIndex) v.phase.copy <;> rfl
    · rfl
  rw [e2]
  generalize (if P.dropPaths = true then Except.map (fun x => [x]) (readVessel P.src (some v.dropIndex) v.phase.copy) else .ok []) = ds
  cases ds with
  | error e => rfl
  | ok ds =>
    simp only [bind, Except.bind, Except.map]
    cases v.stages.dropLast with
    | nil => rfl
    | cons top rest =>
      dsimp only
      cases top.ignite v.phase.time with
      | error e => rfl
      | ok top' =>
        dsimp only
        rw [show (v.drift W a κ t₀).diameter = v.diameter from rfl, show (v.drift W a κ t₀).roughness = v.roughness from rfl,
          show (v.drift W a κ t₀).addTails = v.addTails from rfl]
        cases tailLive v.diameter v.roughness v.addTails (top' :: rest) with
        | error e => rfl
        | ok ss =>
          dsimp only
          cases finenessRatio (ss.map fun s => s.items.map Item.body) <;> rfl

theorem deploy_drift (j : Nat) (v : Vessel) :
    (v.drift W a κ t₀).deploy j = (v.deploy j).map fun x => (x.1.drift W a κ t₀, x.2) := by
  unfold Vessel.deploy
  rw [show (v.drift W a κ t₀).chutes = v.chutes from rfl, show (v.drift W a κ t₀).current = v.current from rfl]
  cases v.chutes[j]? with
  | none => rfl
  | some cs =>
    cases v.current[j]? with
    | none => rfl
    | some c =>
      dsimp only
      by_cases h1 : c + 1 = cs.length <;> by_cases h2 : c = 0 <;> 
        first | simp only [if_neg h1, if_neg h2] | simp only [if_neg h1, if_pos h2] | simp only [if_pos h1, if_neg h2] | simp only [if_pos h1, if_pos h2]
      all_goals
        cases cs[c + 1]? with
        | none => simp only [Except.map, Vessel.drift, drift_three, drift_time]
        | some next =>
          dsimp only
          cases triggerKind next.trigger next.value <;> simp only [Except.map, Vessel.drift, drift_three, drift_time]

theorem call_drift {P P' : Setup} (hs : P'.src = P.src) (hd : P'.dropPaths = P.dropPaths) (n : Nat) (w : Live) :
    Live.call P' n (w.drift W a κ t₀) = ((Live.call P n w).1.drift W a κ t₀, (Live.call P n w).2) := by
  unfold Live.call
  rw [show (w.drift W a κ t₀).failed = w.failed from rfl]
  cases hf : w.failed with
  | some e => rfl
  | none =>
    cases n with
    | zero =>
      dsimp only
      rw [show (w.drift W a κ t₀).vessel = w.vessel.drift W a κ t₀ from rfl, separate_drift hs hd]
      cases w.vessel.separate P with
      | error e => rfl
      | ok x => simp only [Except.map, Live.drift, List.map_append]
    | succ j =>
      dsimp only
      rw [show (w.drift W a κ t₀).vessel = w.vessel.drift W a κ t₀ from rfl, deploy_drift]
      cases w.vessel.deploy j with
      | error e => rfl
      | ok x => rfl

end

/-- the world of the event detector seen through `m` -/
structure SameWorld {σ K : Type} (V V' : World σ K) (m : σ → σ) : Prop where
  time : ∀ w, V'.time (m w) = V.time w
  shutOff : ∀ w, V'.shutOff (m w) = V.shutOff w
  posZ : ∀ w, V'.posZ (m w) = V.posZ w
  velZ : ∀ w, V'.velZ (m w) = V.velZ w
  call : ∀ n w, V'.call n (m w) = (m (V.call n w).1, (V.call n w).2)

theorem passLoop_same {σ K : Type} [Field K] [LinearOrder K] {V V' : World σ K} {m : σ → σ} (h : SameWorld V V' m) (z vz : K) (is : List Nat)
    (p : Pass σ K) : passLoop V' z vz is { p with w := m p.w } = (passLoop V z vz is p).map fun q => { q with w := m q.w } := by
  have ho : ∀ w k, occurs V' z vz (m w) k = occurs V z vz w k := by
    intro w k; cases k <;> simp only [occurs, h.time, h.shutOff]
  have hw : ∀ l w k, waiting V' l z vz (m w) k = waiting V l z vz w k := by
    intro l w k; cases k <;> simp only [waiting, h.time, h.shutOff]
  have hb : ∀ i p, passBody V' z vz i { p with w := m p.w } = (passBody V z vz i p).map fun q => { q with w := m q.w } := by
    intro i p
    unfold passBody
    dsimp only
    cases p.d.evs[i]? with
    | none => rfl
    | some e =>
      dsimp only
      rw [ho, hw]
      split <;> split <;> (try split) <;> simp only [Except.map, h.call, h.time]
  induction is generalizing p with
  | nil => rfl
  | cons i is ih =>
    rw [passLoop, passLoop, hb]
    cases passBody V z vz i p with
    | error e => rfl
    | ok q => exact ih q

theorem triggerEvents_same {σ K : Type} [Field K] [LinearOrder K] {V V' : World σ K} {m : σ → σ} (h : SameWorld V V' m) (w : σ) (d : Detector K) :
    triggerEvents V' (m w) d = (triggerEvents V w d).map fun x => (m x.1, x.2) := by
  unfold triggerEvents
  dsimp only
  rw [h.posZ, h.velZ]
  have := passLoop_same h (V.posZ w) (V.velZ w) (List.range d.evs.length) ⟨w, d, [], 10 ^ 10, false⟩
  dsimp only at this
  rw [this]
  cases passLoop V (V.posZ w) (V.velZ w) (List.range d.evs.length) ⟨w, d, [], 10 ^ 10, false⟩ with
  | error e => rfl
  | ok p => simp only [Except.map, h.time]

/-! ## Time steps -/

section
variable {W a : V3 ℝ} {κ t₀ : ℝ}

theorem readVessel_rail {src : Source} {stage : Option Nat} {p : Phase} {v : Vessel} (h : readVessel src stage p = .ok v) : v.phase = p := by
  have := readVessel_phase src stage p p
  rw [h] at this
  exact congrArg Vessel.phase (Except.ok.inj this)

theorem separate_rail {P : Setup} {v v' : Vessel} {ds : List Vessel} (h : v.separate P = .ok (v', ds)) (hr : v.phase.rail = none) :
    v'.phase.rail = none ∧ ∀ d ∈ ds, d.phase.rail = none := by
  unfold Vessel.separate at h
  obtain ⟨ds', h1, h⟩ := bind_okay h
  have hds : ∀ d ∈ ds', d.phase.rail = none := by
    split at h1
    · rcases hv : readVessel P.src (some v.dropIndex) v.phase.copy with e | d
      · rw [hv] at h1; cases h1
      · rw [hv] at h1
        obtain rfl := Except.ok.inj h1
        intro x hx
        obtain rfl := List.mem_singleton.1 hx
        rw [readVessel_rail hv]
        cases hp : v.phase <;> rw [hp] at hr <;> exact hr
    · obtain rfl := Except.ok.inj h1
      intro x hx
      simp at hx
  split at h
  · cases h
  obtain ⟨top', h2, h⟩ := bind_okay h
  obtain ⟨ss, h3, h⟩ := bind_okay h
  obtain ⟨fi, h4, h⟩ := bind_okay h
  obtain ⟨rfl, rfl⟩ := Prod.mk.inj (Except.ok.inj h)
  exact ⟨hr, hds⟩

theorem deploy_rail {j : Nat} {v v' : Vessel} {subs : List (Sub ℝ)} (h : v.deploy j = .ok (v', subs)) (hr : v.phase.rail = none) :
    v'.phase.rail = none := by
  have ht : v.phase.toThree.rail = none := by cases hp : v.phase <;> rw [hp] at hr <;> exact hr
  rcases (deploy_ok h).2.2 with e | e <;> rw [e] <;> assumption

theorem advance_rail {v : Vessel} {E : Env} {method : String} {dt : ℝ} {p : Phase} (h : v.advance E method dt = .ok p) : p.rail = v.phase.rail := by
  unfold Vessel.advance at h
  split at h
  · obtain ⟨x, -, h⟩ := bind_okay h
    obtain rfl := Except.ok.inj h
    rename_i hp _ _
    rw [hp]; rfl
  · obtain ⟨x, -, h⟩ := bind_okay h
    obtain rfl := Except.ok.inj h
    rename_i hp _ _
    rw [hp]; rfl
  · cases h

/-- one step of a body without rail by a fixed-step method -/
theorem advance_drift (hW : W.z = 0) (ha : a.z = 0) {E E' : Env} (h : WindAdded W E E') {method : String} {e : PyErr}
    (hm : RK.adaptiveTableau method = .error e) (hκ : κ = if method = "RK2Midpoint" then 1 + 1 / 10 ^ 16 else 1) (v : Vessel)
    (hr : v.phase.rail = none) (dt : ℝ) :
    (v.drift W a κ t₀).advance E' method dt = (v.advance E method dt).map (Phase.drift W a κ t₀) := by
  have h0 : WindAdded W { E with rail := none } { E' with rail := none } := ⟨h.flat, h.earth, h.elevation, h.air, h.mean, h.turb⟩
  have hb : ∀ t : ℝ, (a + ((t - t₀) * κ) • W).z = 0 := fun t => Carry.level W a hW ha _
  have hsum : ∀ t : ℝ, a + ((t - t₀) * κ) • W + (dt * κ) • W = a + ((t + dt - t₀) * κ) • W := by
    intro t; apply V3.ext' <;> simp <;> ring
  obtain ⟨ship, stages, dia, rough, tails, quiet, chutes, current, under, main, phase, events, drop⟩ := v
  unfold Vessel.advance Vessel.drift
  dsimp only
  cases phase with
  | six w =>
    obtain ⟨t, s, rail, kept⟩ := w
    obtain rfl : rail = none := hr
    cases under with
    | true => rfl
    | false =>
      have key := Carry.classicalStep_carry (Carry.body_carries W) hW (rhs_carry h0 rfl rfl ⟨ship, stages.map LiveStage.stageP⟩) method t s
        (a + ((t - t₀) * κ) • W) (hb t) dt
      rw [← hκ, hsum] at key
      dsimp only [Phase.drift]
      unfold integrateStep
      rw [hm]
      simp only [bind, Except.bind]
      unfold Vessel.craft
      dsimp only
      rcases h1 : Body.classicalStep Body.bodyArith method (Craft.rhs ⟨ship, stages.map LiveStage.stageP⟩ { E' with rail := none }) t
        (s.carry W (a + ((t - t₀) * κ) • W)) dt with e1 | r1 <;>
      rcases h2 : Body.classicalStep Body.bodyArith method (Craft.rhs ⟨ship, stages.map LiveStage.stageP⟩ { E with rail := none }) t s dt with e2 | r2 <;>
      rw [h1, h2] at key <;> simp only [Except.map, reduceCtorEq, Except.error.injEq, Except.ok.injEq] at key
      · rw [key]; rfl
      · simp only [Except.map, Phase.drift, key]
  | three w =>
    obtain ⟨t, s, rail, kept⟩ := w
    obtain rfl : rail = none := hr
    cases under with
    | false => rfl
    | true =>
      have key := Carry.classicalStep_carry (three_carries W) hW (chuteRhs_carry h0 rfl rfl
        ⟨ship, stages, dia, rough, tails, quiet, chutes, current, true, main, .three ⟨t, s, none, kept⟩, events, drop⟩
        ⟨ship, stages, dia, rough, tails, quiet, chutes, current, true, main, .three ⟨t, carry3 W (a + ((t - t₀) * κ) • W) s, none, kept⟩, events, drop⟩
        ⟨rfl, rfl, rfl, rfl⟩) method t s (a + ((t - t₀) * κ) • W) (hb t) dt
      rw [← hκ, hsum] at key
      dsimp only [Phase.drift]
      unfold integrateStep3
      rw [hm]
      simp only [bind, Except.bind]
      rcases h1 : Body.classicalStep arith3 method (Vessel.chuteRhs ⟨ship, stages, dia, rough, tails, quiet, chutes, current, true, main,
        .three ⟨t, carry3 W (a + ((t - t₀) * κ) • W) s, none, kept⟩, events, drop⟩ { E' with rail := none }) t
        (carry3 W (a + ((t - t₀) * κ) • W) s) dt with e1 | r1 <;>
      rcases h2 : Body.classicalStep arith3 method (Vessel.chuteRhs ⟨ship, stages, dia, rough, tails, quiet, chutes, current, true, main,
        .three ⟨t, s, none, kept⟩, events, drop⟩ { E with rail := none }) t s dt with e2 | r2 <;>
      rw [h1, h2] at key <;> simp only [Except.map, reduceCtorEq, Except.error.injEq, Except.ok.injEq] at key
      · rw [key]; rfl
      · simp only [Except.map, Phase.drift, key]

/-- a step of a body of the mission, its result carried along -/
noncomputable def driftResult (W a : V3 ℝ) (κ t₀ : ℝ) (r : Run.StepResult Vessel ℝ) : Run.StepResult Vessel ℝ :=
  ⟨r.rocket.drift W a κ t₀, r.dt, r.factor, r.dropped.map (Vessel.drift W a κ t₀)⟩

theorem world_drift {P : Setup} {E' : Env} (h : WindAdded W P.env E') (hW : W.z = 0) (ha : a.z = 0) :
    SameWorld (missionWorld P) (missionWorld { P with env := E' }) (Live.drift W a κ t₀) where
  time w := drift_time _
  shutOff w := rfl
  posZ w := enuZ_drift h hW ha _
  velZ w := enuVz_drift h hW _
  call n w := call_drift rfl rfl n w

theorem moved_none (p : Phase) (h : p.rail = none) : p.moved ⟨p.pos, p.vel⟩ none = p := by
  cases p with
  | six w => obtain ⟨t, s, r, k⟩ := w; obtain rfl : r = none := h; rfl
  | three w => obtain ⟨t, s, r, k⟩ := w; obtain rfl : r = none := h; rfl

theorem call_rail {P : Setup} (n : Nat) (w : Live) (h : w.vessel.phase.rail = none ∧ ∀ d ∈ w.dropped, d.phase.rail = none) :
    (Live.call P n w).1.vessel.phase.rail = none ∧ ∀ d ∈ (Live.call P n w).1.dropped, d.phase.rail = none := by
  unfold Live.call
  split
  · exact h
  split
  · split
    · rename_i v ds hs
      obtain ⟨h1, h2⟩ := separate_rail hs h.1
      refine ⟨h1, fun d hd => ?_⟩
      rcases List.mem_append.1 hd with hd | hd
      · exact h.2 d hd
      · exact h2 d hd
    · exact h
  · split
    · rename_i v subs hs
      exact ⟨deploy_rail hs h.1, h.2⟩
    · exact h

theorem timeStep_drift (hW : W.z = 0) (ha : a.z = 0) {P : Setup} {E' : Env} (h : WindAdded W P.env E') {e : PyErr}
    (hm : RK.adaptiveTableau P.method = .error e) (hκ : κ = if P.method = "RK2Midpoint" then 1 + 1 / 10 ^ 16 else 1)
    (hacc : ∀ u dt, P.accepted u dt = (dt, 1)) (v : Vessel) (hr : v.phase.rail = none) (dt : ℝ) :
    (v.drift W a κ t₀).timeStep { P with env := E' } dt = (v.timeStep P dt).map (driftResult W a κ t₀) ∧
      ∀ r, v.timeStep P dt = .ok r → r.rocket.phase.rail = none ∧ ∀ d ∈ r.dropped, d.phase.rail = none := by
  have hv : { v with phase := v.phase.moved ⟨v.phase.pos, v.phase.vel⟩ none } = v := by rw [moved_none _ hr]
  have hv' : { v.drift W a κ t₀ with phase := (v.drift W a κ t₀).phase.moved ⟨(v.drift W a κ t₀).phase.pos, (v.drift W a κ t₀).phase.vel⟩ none } =
      v.drift W a κ t₀ := by
    rw [moved_none (v.drift W a κ t₀).phase ((drift_rail v.phase).trans hr)]
  have key := triggerEvents_same (world_drift (κ := κ) (t₀ := t₀) h hW ha) ⟨v, [], none⟩ v.events
  unfold Vessel.timeStep
  rw [show (v.drift W a κ t₀).phase.rail = none from (drift_rail v.phase).trans hr, hr]
  simp only [envConstrain, bind, Except.bind]
  rw [hv, hv']
  rw [show triggerEvents (missionWorld { P with env := E' }) ⟨v.drift W a κ t₀, [], none⟩ (v.drift W a κ t₀).events = _ from key]
  rcases ht : triggerEvents (missionWorld P) ⟨v, [], none⟩ v.events with e1 | ⟨w, d, est, ex⟩
  · exact ⟨rfl, fun r h => by cases h⟩
  · have hw := triggerEvents_inv (missionWorld P) (fun w => w.vessel.phase.rail = none ∧ ∀ d ∈ w.dropped, d.phase.rail = none)
      (fun n w h => call_rail n w h) _ _ _ _ _ _ ⟨hr, fun _ hm => absurd hm (by simp)⟩ ht
    simp only [Except.map]
    rw [show (w.drift W a κ t₀).failed = w.failed from rfl]
    cases hf : w.failed with
    | some e => exact ⟨rfl, fun r h => by cases h⟩
    | none =>
      dsimp only
      rw [hacc, hacc, show (w.drift W a κ t₀).vessel = w.vessel.drift W a κ t₀ from rfl, advance_drift hW ha h hm hκ w.vessel hw.1]
      rcases hp : w.vessel.advance P.env P.method (overrideStep P.adaptive P.eventStep est ex dt) with e2 | p
      · exact ⟨rfl, fun r h => by cases h⟩
      · refine ⟨rfl, fun r h => ?_⟩
        obtain rfl := Except.ok.inj h
        exact ⟨(advance_rail hp).trans hw.1, hw.2⟩

/-! ## The simulation -/

/-- a body of the mission with its recorded flight, carried along -/
noncomputable def driftSlot (W a : V3 ℝ) (κ t₀ : ℝ) (s : Run.Slot Vessel ℝ) : Run.Slot Vessel ℝ :=
  ⟨s.rocket.drift W a κ t₀, s.dt, s.cond, s.flight.map (Vessel.drift W a κ t₀)⟩

theorem obs_drift (hW : W.z = 0) (ha : a.z = 0) {E E' : Env} (h : WindAdded W E E') (v : Vessel) :
    (v.drift W a κ t₀).obs E' = v.obs E := by
  unfold Vessel.obs
  rw [show (v.drift W a κ t₀).phase = v.phase.drift W a κ t₀ from rfl, drift_time, drift_velZ hW, drift_posZ hW ha, enuZ_drift h hW ha]

/-- no body is on a rail -/
def AllFree (slots : List (Run.Slot Vessel ℝ)) : Prop := ∀ s ∈ slots, s.rocket.phase.rail = none

theorem slots_drift (hW : W.z = 0) (ha : a.z = 0) {P : Setup} {E' : Env} (h : WindAdded W P.env E') {e : PyErr}
    (hm : RK.adaptiveTableau P.method = .error e) (hκ : κ = if P.method = "RK2Midpoint" then 1 + 1 / 10 ^ 16 else 1)
    (hacc : ∀ u dt, P.accepted u dt = (dt, 1)) (i : Nat) (slots : List (Run.Slot Vessel ℝ)) (hf : AllFree slots) (s : Run.Slot Vessel ℝ)
    (hs : s.rocket.phase.rail = none) (o : Option ℝ) :
    Run.advance (Setup.sim { P with env := E' }) i (slots.map (driftSlot W a κ t₀)) (driftSlot W a κ t₀ s) o =
        (Run.advance P.sim i slots s o).map (List.map (driftSlot W a κ t₀)) ∧
      ∀ out, Run.advance P.sim i slots s o = .ok out → AllFree out := by
  obtain ⟨h1, h2⟩ := timeStep_drift (κ := κ) (t₀ := t₀) hW ha h hm hκ hacc s.rocket hs (o.getD s.dt)
  unfold Run.advance
  dsimp only
  rw [show (Setup.sim { P with env := E' }).step (driftSlot W a κ t₀ s).rocket (o.getD (driftSlot W a κ t₀ s).dt) = _ from h1,
    show P.sim.step s.rocket (o.getD s.dt) = s.rocket.timeStep P (o.getD s.dt) from rfl]
  rcases hr : s.rocket.timeStep P (o.getD s.dt) with e1 | r
  · exact ⟨rfl, fun out h => by cases h⟩
  · obtain ⟨g1, g2⟩ := h2 r hr
    have hset : (slots.map (driftSlot W a κ t₀)).set i { driftSlot W a κ t₀ s with dt := o.getD (driftSlot W a κ t₀ s).dt } =
        (slots.set i { s with dt := o.getD s.dt }).map (driftSlot W a κ t₀) := by rw [List.map_set]; rfl
    dsimp only [Except.map]
    rw [hset, List.head?_map]
    constructor
    · cases (slots.set i { s with dt := o.getD s.dt }).head? with
      | none =>
        simp only [Option.map, List.append_nil, Except.ok.injEq, List.map_set, driftSlot, driftResult, List.map_append, List.map_cons, List.map_nil]
      | some top =>
        have hd : ∀ d, Run.detach (Setup.sim { P with env := E' }) (driftSlot W a κ t₀ top) (d.drift W a κ t₀) =
            driftSlot W a κ t₀ (Run.detach P.sim top d) := by
          intro d
          unfold Run.detach driftSlot
          simp only [Run.Slot.mk.injEq, true_and, and_true]
          change Run.chooseEnd P.dropEnd P.dropValue ((d.drift W a κ t₀).obs E') = Run.chooseEnd P.dropEnd P.dropValue (d.obs P.env)
          rw [obs_drift hW ha h]
        have hl : (driftResult W a κ t₀ r).dropped.map (Run.detach (Setup.sim { P with env := E' }) (driftSlot W a κ t₀ top)) =
            (r.dropped.map (Run.detach P.sim top)).map (driftSlot W a κ t₀) := by
          rw [show (driftResult W a κ t₀ r).dropped = r.dropped.map (Vessel.drift W a κ t₀) from rfl, List.map_map, List.map_map]
          exact List.map_congr_left fun d _ => hd d
        simp only [Option.map]
        rw [hl, ← List.map_append, List.map_set]
        simp only [driftSlot, driftResult, List.map_append, List.map_cons, List.map_nil]
    · intro out hout
      obtain rfl := Except.ok.inj hout
      intro x hx
      rcases List.mem_or_eq_of_mem_set hx with hx | rfl
      · rcases List.mem_append.1 hx with hx | hx
        · rcases List.mem_or_eq_of_mem_set hx with hx | rfl
          · exact hf x hx
          · exact hs
        · split at hx
          · obtain ⟨d, hd, rfl⟩ := List.mem_map.1 hx
            exact g2 d hd
          · simp at hx
      · exact g1

theorem inner_drift (hW : W.z = 0) (ha : a.z = 0) {P : Setup} {E' : Env} (h : WindAdded W P.env E') {e : PyErr}
    (hm : RK.adaptiveTableau P.method = .error e) (hκ : κ = if P.method = "RK2Midpoint" then 1 + 1 / 10 ^ 16 else 1)
    (hacc : ∀ u dt, P.accepted u dt = (dt, 1)) (i n : Nat) (slots : List (Run.Slot Vessel ℝ)) (hf : AllFree slots) :
    Run.inner (Setup.sim { P with env := E' }) i n (slots.map (driftSlot W a κ t₀)) =
        (Run.inner P.sim i n slots).map (List.map (driftSlot W a κ t₀)) ∧
      ∀ out, Run.inner P.sim i n slots = .ok out → AllFree out := by
  induction n generalizing slots with
  | zero => exact ⟨rfl, fun out h => by cases h⟩
  | succ n ih =>
    rw [Run.inner, Run.inner, List.getElem?_map]
    rcases hi : slots[i]? with _ | s
    · exact ⟨rfl, fun out h => by cases h⟩
    · have hs := hf s (List.mem_of_getElem? hi)
      dsimp only [Option.map]
      rw [show (Setup.sim { P with env := E' }).obs (driftSlot W a κ t₀ s).rocket = P.sim.obs s.rocket from obs_drift hW ha h s.rocket,
        show (driftSlot W a κ t₀ s).cond = s.cond from rfl, show (driftSlot W a κ t₀ s).dt = s.dt from rfl]
      rcases s.cond.detect (P.sim.obs s.rocket) s.dt with ⟨_ | _, o⟩
      · dsimp only
        obtain ⟨h1, h2⟩ := slots_drift (t₀ := t₀) hW ha h hm hκ hacc i slots hf s hs o
        rw [h1]
        rcases hr : Run.advance P.sim i slots s o with e1 | out
        · exact ⟨rfl, fun out h => by cases h⟩
        · exact ih out (h2 out hr)
      · exact ⟨rfl, fun out h => by obtain rfl := Except.ok.inj h; exact hf⟩

theorem flyAll_drift (hW : W.z = 0) (ha : a.z = 0) {P : Setup} {E' : Env} (h : WindAdded W P.env E') {e : PyErr}
    (hm : RK.adaptiveTableau P.method = .error e) (hκ : κ = if P.method = "RK2Midpoint" then 1 + 1 / 10 ^ 16 else 1)
    (hacc : ∀ u dt, P.accepted u dt = (dt, 1)) (m n i : Nat) (slots : List (Run.Slot Vessel ℝ)) (hf : AllFree slots) :
    flyAll { P with env := E' } m n i none (slots.map (driftSlot W a κ t₀)) = (flyAll P m n i none slots).map (List.map (driftSlot W a κ t₀)) := by
  induction n generalizing slots i with
  | zero => rfl
  | succ n ih =>
    rw [flyAll, flyAll, List.getElem?_map]
    rcases hi : slots[i]? with _ | s
    · rfl
    · have hs := hf s (List.mem_of_getElem? hi)
      dsimp only [Option.map]
      have hset : (slots.map (driftSlot W a κ t₀)).set i { driftSlot W a κ t₀ s with rocket :=
            { (driftSlot W a κ t₀ s).rocket with phase := (driftSlot W a κ t₀ s).rocket.phase.onRail none } } =
          (slots.set i { s with rocket := { s.rocket with phase := s.rocket.phase.onRail none } }).map (driftSlot W a κ t₀) := by
        rw [List.map_set]
        simp only [driftSlot, Vessel.drift, drift_onRail]
      rw [hset]
      have hf' : AllFree (slots.set i { s with rocket := { s.rocket with phase := s.rocket.phase.onRail none } }) := by
        intro x hx
        rcases List.mem_or_eq_of_mem_set hx with hx | rfl
        · exact hf x hx
        · dsimp only
          cases s.rocket.phase <;> rfl
      obtain ⟨h1, h2⟩ := inner_drift (t₀ := t₀) hW ha h hm hκ hacc i m _ hf'
      rw [h1]
      rcases hr : Run.inner P.sim i m (slots.set i { s with rocket := { s.rocket with phase := s.rocket.phase.onRail none } }) with e1 | out
      · rfl
      · have ho := h2 out hr
        have hn : ((out[i]?).bind fun s' => s'.rocket.phase.rail) = none := by
          rcases hq : out[i]? with _ | x
          · rfl
          · exact ho x (List.mem_of_getElem? hq)
        have hn' : (((out.map (driftSlot W a κ t₀))[i]?).bind fun s' => s'.rocket.phase.rail) = none := by
          rw [List.getElem?_map]
          rcases hq : out[i]? with _ | x
          · rfl
          · exact (drift_rail _).trans (ho x (List.mem_of_getElem? hq))
        dsimp only [Except.map]
        rw [hn, hn']
        exact ih (i + 1) out ho

/-- **C110**, whole simulations: stages that separate, parachutes, the end conditions, all bodies. With a horizontal wind `W` added at every height
over flat ground (or none) and the start, off the rail, `W` faster and `a` away along the ground, a fixed-step simulation is the one without `W`,
every body at every step moved by `a` and by `W` for each second since the start; an exception is the same exception. -/
theorem carried_mission (hW : W.z = 0) (ha : a.z = 0) {P : Setup} {E' : Env} (h : WindAdded W P.env E') {e : PyErr}
    (hm : RK.adaptiveTableau P.method = .error e) (hacc : ∀ u dt, P.accepted u dt = (dt, 1)) (fuel : Nat) (v : Vessel)
    (hr : v.phase.rail = none) (dt : ℝ) (cond : Run.EndCond ℝ) :
    mission { P with env := E' } fuel (v.drift W a (if P.method = "RK2Midpoint" then 1 + 1 / 10 ^ 16 else 1) v.phase.time) dt cond =
      (mission P fuel v dt cond).map
        (List.map (driftSlot W a (if P.method = "RK2Midpoint" then 1 + 1 / 10 ^ 16 else 1) v.phase.time)) := by
  unfold mission
  have := flyAll_drift (t₀ := v.phase.time) hW ha h hm rfl hacc fuel fuel 0 [⟨v, dt, cond, [v]⟩] (fun s hs => by
    obtain rfl := List.mem_singleton.1 hs; exact hr)
  rw [show (v.drift W a (if P.method = "RK2Midpoint" then 1 + 1 / 10 ^ 16 else 1) v.phase.time).phase.rail = none from
    (drift_rail v.phase).trans hr, hr]
  exact this

/-- **C110**, in terms of the recorded flights, for all fixed-step methods but RK2Midpoint: as many bodies, as many steps at the same times, and at
each of them the position is `a + W·(time since the start)` away and the velocity `W` greater. -/
theorem carried_records (hW : W.z = 0) (ha : a.z = 0) {P : Setup} {E' : Env} (h : WindAdded W P.env E') {e : PyErr}
    (hm : RK.adaptiveTableau P.method = .error e) (hmid : P.method ≠ "RK2Midpoint") (hacc : ∀ u dt, P.accepted u dt = (dt, 1)) (fuel : Nat)
    (v v' : Vessel) (hr : v.phase.rail = none) (hv : v' = v.drift W a 1 v.phase.time) (dt : ℝ) (cond : Run.EndCond ℝ)
    {slots : List (Run.Slot Vessel ℝ)} (hs : mission P fuel v dt cond = .ok slots) :
    ∃ slots', mission { P with env := E' } fuel v' dt cond = .ok slots' ∧ List.Forall₂ (fun s s' : Run.Slot Vessel ℝ => List.Forall₂ (fun u u' : Vessel =>
      u'.phase.time = u.phase.time ∧ u'.phase.pos = u.phase.pos + (a + (u.phase.time - v.phase.time) • W) ∧ u'.phase.vel = u.phase.vel + W ∧
      u'.underChute = u.underChute) s.flight s'.flight) slots slots' := by
  have := carried_mission hW ha h hm hacc fuel v hr dt cond
  rw [if_neg hmid, ← hv, hs] at this
  refine ⟨_, this, ?_⟩
  rw [List.forall₂_map_right_iff]
  refine List.forall₂_same.2 fun s _ => ?_
  rw [show (driftSlot W a 1 v.phase.time s).flight = s.flight.map (Vessel.drift W a 1 v.phase.time) from rfl, List.forall₂_map_right_iff]
  refine List.forall₂_same.2 fun u _ => ⟨drift_time _, ?_, drift_vel _, rfl⟩
  rw [show (u.drift W a 1 v.phase.time).phase = u.phase.drift W a 1 v.phase.time from rfl, drift_pos, mul_one]

end

end Mapleaf.Rocket
