import Verif.Rocket.BuildModel
import Verif.Run.RunModel
import Verif.Motion.StepperModel

/-!
# Model: a whole simulated flight (MAPLEAF/Rocket/rocket.py, Recovery.py, simEventDetector.py, SimulationRunners/SingleSimulations.py)

The rocket of `Verif.Rocket.BuildModel` with its events: stages separate and fly on as rockets of their own, parachutes open and the rocket
goes on as a body without orientation, until the end conditions of all bodies are met. No control system, logs or console output. The launch
rail belongs to the environment, which all bodies of a simulation share. An altitude that cannot be computed reads as 0 for the event
detector and the end conditions, and so does the shut-off time of a stage without motor (the program raises).
-/

namespace Mapleaf.Rocket
open Mapleaf.Motion V3 ENV
open Mapleaf.Motion.Stepper (RBDeriv3 add3 mul3 neg3 abs3 dAdd3 dMul3 dDiv3)

/-! ## Motion -/

/-- a flight without orientation (`RigidBody_3DoF`): like `InFlight` -/
structure InFlight3 where
  time : ℝ
  state : RBState3
  rail : Option Rail
  kept : Option RBDeriv3

/-- the state of `rocket.rigidBody`, with or without orientation -/
inductive Phase
  | six (w : InFlight)
  | three (w : InFlight3)

namespace Phase

def time : Phase → ℝ
  | six w => w.time
  | three w => w.time

def pos : Phase → V3 ℝ
  | six w => w.state.pos
  | three w => w.state.pos

def vel : Phase → V3 ℝ
  | six w => w.state.vel
  | three w => w.state.vel

def rail : Phase → Option Rail
  | six w => w.rail
  | three w => w.rail

/-- SingleSimulations.py:284-287: state and time of a new body, whose integrator has kept nothing -/
def copy : Phase → Phase
  | six w => six { w with kept := none }
  | three w => three { w with kept := none }

/-- rocket.py:700-726 `_switchTo3DoF` -/
def toThree : Phase → Phase
  | six w => three ⟨w.time, ⟨w.state.pos, w.state.vel⟩, w.rail, none⟩
  | three w => three { w with kept := none }

/-- environment.py:195-207: the rail's constraint changes position and velocity, or the rail goes -/
def moved (m : RBState3) (rail : Option Rail) : Phase → Phase
  | six w => six { w with state := { w.state with pos := m.pos, vel := m.vel }, rail := rail }
  | three w => three { w with state := m, rail := rail }

/-- the rail as another body left it -/
def onRail (rail : Option Rail) : Phase → Phase
  | six w => six { w with rail := rail }
  | three w => three { w with rail := rail }

end Phase

/-- the operators of RigidBodyStates.py:21-88 -/
noncomputable def arith3 : Body.Arith RBState3 RBDeriv3 where
  add a b := .ok (add3 a b)
  aug a b := .ok (add3 a b)
  smul a s := .ok (mul3 a s)
  neg a := .ok (neg3 a)
  mag a := .ok (abs3 a)
  dmul d s := .ok (dMul3 d s)
  ddiv := dDiv3
  dadd a b := .ok (dAdd3 a b)
  daug a b := .ok (dAdd3 a b)

/-- Integration.py:145-190, 245-449 as used by RigidBodies.py:53, for 3-DoF states: see `integrateStep` -/
noncomputable def integrateStep3 (method : String) (f : ℝ → RBState3 → Except PyErr RBDeriv3) (w : InFlight3) (dt : ℝ) :
    Except PyErr (RBState3 × Option RBDeriv3) :=
  match RK.adaptiveTableau method with
  | .ok (tab, fsal) => do
    let tab' ← RK.checkTableau (tab.map (fun r : List ℚ => r.map (fun q : ℚ => (q : ℝ))))
    let a ← Body.attempt arith3 tab' w.kept f w.time w.state dt
    .ok (a.newValue, if fsal then some a.last else w.kept)
  | .error _ => do
    let r ← Body.classicalStep arith3 method f w.time w.state dt
    .ok (r.newValue, none)

/-! ## Stages in flight -/

/-- a component in flight: the part, what the stage asks of a body component, and whether it is `stage.motor` -/
structure Item where
  part : Part
  body : BodyComp ℝ
  main : Bool

/-- a stage in flight; `off` is `engineShutOffTime` -/
structure LiveStage where
  position : V3 ℝ
  over : Overrides ℝ
  items : List Item
  off : Option ℝ

namespace LiveStage

/-- the stage as the dynamics sees it -/
def stageP (s : LiveStage) : StageP := ⟨s.over, s.items.map Item.part⟩

/-- `stage.motor` -/
def motor (s : LiveStage) : Option (Motor ℝ) :=
  s.items.findSome? fun i => match i.part, i.main with
    | .motor m, true => some m
    | _, _ => none

end LiveStage

/-- Propulsion.py:153-157: what a component reads after `stage.motor` has been lit at `t`, with the shut-off time `off`: the motor itself,
boat tails (boatTail.py:199), jet damping (RocketComponents.py:395) -/
def Item.lit (t off : ℝ) (i : Item) : Item :=
  { i with part := match i.part, i.main with
    | .motor m, true => .motor { m with ignition := t }
    | .boatTail n k r _, _ => .boatTail n k r (some off)
    | .jet _ _ x, _ => .jet t off x
    | p, _ => p }

namespace LiveStage

/-- Propulsion.py:153-157 `stage.motor.updateIgnitionTime(t)` -/
noncomputable def ignite (t : ℝ) (s : LiveStage) : Except PyErr LiveStage :=
  match s.motor with
  | none => .error .attributeError
  | some m =>
    match m.times.getLast? with
    | none => .error .indexError
    | some burn => .ok { s with items := s.items.map (Item.lit t (t + burn)), off := some (t + burn) }

/-- rocket.py:491-497: is the lowest body component a boat tail? -/
def hasTail (s : LiveStage) : Bool :=
  match s.items.reverse.find? (fun i => i.body.isSome) with
  | some i => match i.part with
    | .boatTail _ _ _ _ => true
    | _ => false
  | none => false

/-- rocket.py:499-519: a boat tail without length at the lower end -/
noncomputable def withTail (diameter roughness : ℝ) (s : LiveStage) : Except PyErr LiveStage :=
  match firstBody (s.items.map Item.body).reverse with
  | none => .error .attributeError
  | some b =>
    let t : Trans := ⟨diameter, diameter, 0, ⟨s.position.x, s.position.y, b.z - b.length⟩⟩
    match t.check with
    | .error e => .error e
    | .ok _ => .ok { s with items := s.items ++ [⟨.boatTail zeroInertia t roughness s.off, some (t.body false), false⟩] }

end LiveStage

/-- rocket.py:489-519 `_ensureBaseDragIsAccountedFor` -/
noncomputable def tailLive (diameter roughness : ℝ) (addTails : Bool) (ss : List LiveStage) : Except PyErr (List LiveStage) :=
  match ss.getLast? with
  | none => .error .indexError
  | some s =>
    if s.hasTail = false ∧ addTails = true then (s.withTail diameter roughness).map fun s' => ss.dropLast ++ [s'] else .ok ss

/-! ## Rockets in flight -/

/-- a `Rocket` object in flight. `chutes` are the parachutes of the recovery systems in the order in which these were made, `current` the
number of parachutes each has opened; `rocket.recoverySystem` is the last one (Recovery.py:22). `dropIndex` is `simRunner.stagingIndex`. -/
structure Vessel where
  ship : Ship
  stages : List LiveStage
  diameter : ℝ
  roughness : ℝ
  addTails : Bool
  quietChute : Bool
  chutes : List (List (Chute ℝ))
  current : List Nat
  underChute : Bool
  mainTime : Option ℝ
  phase : Phase
  events : Detector ℝ
  dropIndex : Nat

/-- the rocket as the dynamics sees it -/
def Vessel.craft (v : Vessel) : Craft := ⟨v.ship, v.stages.map LiveStage.stageP⟩

/-- Recovery.py:14-47, 88-97: the parachutes of a recovery system; its constructor sets the trigger of the first -/
def readSystem (src : Source) (r : Reader ℝ) : Except PyErr (List (Chute ℝ)) := do
  let n ← src.getInt r "numStages".toList
  readChutes r 1 n.toNat

/-- stage.py:44-74: the recovery systems of a stage in the order of their construction -/
def stageSystems (src : Source) (path : Str) : Except PyErr (List (List (Chute ℝ))) := do
  let order ← buildOrder (fun p => (src.dict path).text (p ++ ".class".toList)) (src.subs path)
  let systems ← Body.mapE (fun p : Str =>
    match (src.dict p).text "class".toList with
    | .error e => .error e
    | .ok name =>
      match classOf name with
      | .ok .recovery => (readSystem src (src.dict p)).map some
      | _ => .ok none) order
  .ok (systems.filterMap id)

/-- stage.py:22-24 -/
def readTrigger (src : Source) (path : Str) : Except PyErr (Trigger ℝ) := do
  let kind ← (src.dict path).text "separationTriggerType".toList
  let delay ← (src.dict path).getFloat "separationDelay".toList
  let value ← (src.dict path).getFloat "separationTriggerValue".toList
  .ok ⟨kind, delay, value⟩

/-- a stage after its constructor, with its separation trigger and recovery systems -/
structure StageRead where
  draft : StageDraft
  trigger : Trigger ℝ
  systems : List (List (Chute ℝ))

/-- stage.py:13-41 -/
noncomputable def readWhole (src : Source) (roughness : ℝ) (path : Str) : Except PyErr StageRead := do
  let s ← readStage src roughness path
  let t ← readTrigger src path
  let c ← stageSystems src path
  .ok ⟨s, t, c⟩

/-- simEventDetector.py:47-62: the events staging knows -/
def stagingKind (t : Trigger ℝ) : Except PyErr (Kind ℝ) :=
  if t.kind = "apogee".toList then .ok .apogee
  else if t.kind = "ascendingThroughAltitude".toList then .ok (.above t.value)
  else if t.kind = "descendingThroughAltitude".toList then .ok (.below t.value)
  else if t.kind = "motorBurnout".toList then .ok .burnout
  else if t.kind = "timeReached".toList then .ok (.timeReached t.value)
  else .error .keyError

/-- rocket.py:342-352: the subscriptions for staging; callback 0 is `_stageSeparation` -/
def stagingSubs (dropped : Bool) (ts : List (Trigger ℝ)) : Except PyErr (List (Sub ℝ)) :=
  Body.mapE (fun t => (stagingKind t).map fun k => ⟨k, 0, t.delay⟩) (stagingTriggers dropped ts)

/-- Recovery.py:42-47, 79-97: the subscription made by the constructor of recovery system `j`; callback `j + 1` is its `_deployNextStage`.
Without parachutes the constructor fails (see `initRecovery`). -/
def firstSub (p : List (Chute ℝ) × Nat) : Except PyErr (Sub ℝ) :=
  match p.1 with
  | [] => .error .attributeError
  | c :: _ => (triggerKind c.trigger c.value).map fun k => ⟨k, p.2 + 1, c.delay⟩

/-- Propulsion.py:153-154 with `fakeValue`: `stage.motor` before the flight; only its ignition time changes -/
noncomputable def Draft.relit (t : ℝ) (d : Draft) : Draft :=
  match d.kind with
  | .motor m off true => { d with kind := .motor { m with ignition := t } off true }
  | _ => d

/-- rocket.py:358-361: the motor of a dropped stage is burned out -/
noncomputable def burnStages : List StageDraft → Except PyErr (List StageDraft)
  | [] => .error .indexError
  | s :: ss =>
    match s.motor with
    | none => .error .attributeError
    | some _ => .ok ({ s with drafts := s.drafts.map (Draft.relit (-1000000000)) } :: ss)

/-- a stage made of drafts and what became of them -/
noncomputable def liveStage (s : StageDraft) (p : StageP) : LiveStage :=
  ⟨s.position, p.over, List.zipWith (fun (d : Draft) q => ⟨q, d.body, match d.kind with | .motor _ _ m => m | _ => false⟩) s.drafts p.parts,
    s.motor.map Prod.snd⟩

/-- rocket.py:28-206 `Rocket.__init__`, in the given state: the whole rocket (`stage` none) or a dropped stage (SingleSimulations.py:162-178,
280-287). The constructor's own initial state is not computed for a dropped stage, it is replaced. -/
noncomputable def readVessel (src : Source) (stage : Option Nat) (phase : Phase) : Except PyErr Vessel := do
  let r := src.dict "Rocket".toList
  let dicts := src.subs "Rocket".toList
  let diameter ← maxTubeDiameter r dicts src.subs
  let addTails ← getFlag r "Aero.addZeroLengthBoatTailsToAccountForBaseDrag".toList
  let turbulent ← getFlag r "Aero.fullyTurbulentBL".toList
  let roughness ← r.getFloat "Aero.surfaceRoughness".toList
  let quiet ← getFlag r "Environment.turbulenceOffWhenUnderChute".toList
  let built ← createStages r (readWhole src roughness) dicts stage
  let systems := built.flatMap StageRead.systems
  let deploys ← Body.mapE firstSub systems.zipIdx
  let ordered := orderByZ (fun s : StageRead => s.draft.position.z) (built.map fun s => { s with draft := s.draft.sorted })
  let tailed ← tailStages diameter roughness addTails (ordered.map StageRead.draft)
  let staging ← stagingSubs stage.isSome (ordered.map StageRead.trigger)
  let ready ← (match stage with
    | none => waitStages tailed
    | some _ => burnStages tailed)
  let stages ← Body.mapE (StageDraft.finish src turbulent) ready
  let fineness ← finenessRatio (ready.map fun s => s.drafts.map Draft.body)
  .ok { ship := ⟨Real.pi * diameter ^ 2 / 4, fineness, turbulent⟩, stages := List.zipWith liveStage ready stages, diameter := diameter,
        roughness := roughness, addTails := addTails, quietChute := quiet, chutes := systems, current := systems.map fun _ => 0,
        underChute := false, mainTime := none, phase := phase,
        events := (deploys ++ staging).foldl Detector.subscribe ⟨[], none, 0, []⟩, dropIndex := 0 }

/-! ## Events -/

/-- what a simulation is made of: definition, environment (its rail is that of the flight), integration method, whether it is adaptive
(`"Adapt" in method`), `eventTimingAccuracy`, `StageDropPaths.compute`, the end condition of dropped stages, and what the step size control
of an adaptive method makes of a step: size accepted and factor for the next one (`(dt, 1)` for other methods) -/
structure Setup where
  src : Source
  env : Env
  method : String
  adaptive : Bool
  eventStep : ℝ
  dropPaths : Bool
  dropEnd : Str
  dropValue : ℝ
  accepted : Vessel → ℝ → ℝ × ℝ

/-- rocket.py:461-487 `_stageSeparation` with SingleSimulations.py:280-299: the rocket that goes on and the stage that was dropped -/
noncomputable def Vessel.separate (P : Setup) (v : Vessel) : Except PyErr (Vessel × List Vessel) := do
  let dropped ← (if P.dropPaths then (readVessel P.src (some v.dropIndex) v.phase.copy).map ([·]) else .ok [])
  match v.stages.dropLast with
  | [] => .error .indexError
  | top :: rest => do
    let top' ← top.ignite v.phase.time
    let ss ← tailLive v.diameter v.roughness v.addTails (top' :: rest)
    let fineness ← finenessRatio (ss.map fun s => s.items.map Item.body)
    .ok ({ v with stages := ss, ship := { v.ship with fineness := fineness },
                  dropIndex := if P.dropPaths then v.dropIndex + 1 else v.dropIndex }, dropped)

/-- Recovery.py:65-97 `_deployNextStage` of recovery system `j` -/
noncomputable def Vessel.deploy (j : Nat) (v : Vessel) : Except PyErr (Vessel × List (Sub ℝ)) :=
  match v.chutes[j]?, v.current[j]? with
  | some cs, some c =>
    let v := { v with current := v.current.set j (c + 1) }
    let v := if c = 0 then { v with underChute := true, phase := v.phase.toThree } else v
    let v := if c + 1 = cs.length then { v with mainTime := some v.phase.time } else v
    match cs[c + 1]? with
    | none => .ok (v, [])
    | some next => (triggerKind next.trigger next.value).map fun k => (v, [⟨k, j + 1, next.delay⟩])
  | _, _ => .error .indexError

/-- the rocket while events are handled, the stages dropped by them, and the error of a callback, which ends the simulation -/
structure Live where
  vessel : Vessel
  dropped : List Vessel
  failed : Option PyErr

/-- environment.py:130-143 `convertStateToENUFrame`: altitude -/
noncomputable def enuZ (E : Env) (p : Phase) : ℝ := (E.earth.altitude p.pos).toOption.getD 0

/-- environment.py:130-143 `convertStateToENUFrame`: vertical velocity -/
noncomputable def enuVz (E : Env) (p : Phase) : ℝ :=
  match E.earth.enu p.pos with
  | .error _ => 0
  | .ok q => match q.conj.rotate p.vel with
    | .error _ => 0
    | .ok (v, _) => v.z

/-- the callbacks: 0 is stage separation, `j + 1` the deployment of recovery system `j` -/
noncomputable def Live.call (P : Setup) (n : Nat) (w : Live) : Live × List (Sub ℝ) :=
  match w.failed with
  | some _ => (w, [])
  | none =>
    match n with
    | 0 => match w.vessel.separate P with
      | .ok (v, ds) => ({ w with vessel := v, dropped := w.dropped ++ ds }, [])
      | .error e => ({ w with failed := some e }, [])
    | j + 1 => match w.vessel.deploy j with
      | .ok (v, subs) => ({ w with vessel := v }, subs)
      | .error e => ({ w with failed := some e }, [])

/-- what the event detector reads, and the callbacks -/
noncomputable def missionWorld (P : Setup) : World Live ℝ where
  time w := w.vessel.phase.time
  shutOff w := ((w.vessel.stages.getLast?).bind LiveStage.off).getD 0
  posZ w := enuZ P.env w.vessel.phase
  velZ w := enuVz P.env w.vessel.phase
  call := Live.call P

/-! ## Time steps -/

/-- rocket.py:549-613 `_getAppliedForce` under a parachute, with RigidBodies.py:41-47 and environment.py:217-235 -/
noncomputable def Vessel.chuteRhs (v : Vessel) (E : Env) (time : ℝ) (s : RBState3) : Except PyErr RBDeriv3 := do
  let air ← E.conditions v.quietChute s.pos (some time)
  let i ← v.craft.inertia time
  let f ← (match v.chutes.getLast?, v.current.getLast? with
    | some cs, some c => chuteForce cs c s.vel air.wind air.density
    | _, _ => .error .attributeError)
  let g ← E.earth.gravity i.mass s.pos
  let total ← envForce E.rail s.pos time ((f.getAt i.cg).add ⟨g, i.cg, ⟨0, 0, 0⟩⟩)
  let d ← rigidBodyDerivative3 s total.force i.mass
  .ok ⟨d.1, d.2⟩

/-- RigidBodies.py:49-62: the step of the body. A 6-DoF body with a state without orientation (a stage dropped under a parachute) fails. -/
noncomputable def Vessel.advance (v : Vessel) (E : Env) (method : String) (dt : ℝ) : Except PyErr Phase :=
  match v.phase, v.underChute with
  | .six w, false => do
    let (s, kept) ← integrateStep method (v.craft.rhs { E with rail := w.rail }) w dt
    .ok (.six ⟨w.time + dt, s, w.rail, kept⟩)
  | .three w, true => do
    let (s, kept) ← integrateStep3 method (v.chuteRhs { E with rail := w.rail }) w dt
    .ok (.three ⟨w.time + dt, s, w.rail, kept⟩)
  | _, _ => .error .attributeError

/-- rocket.py:657-698 `timeStep`: the rail's constraint, events, the step size, the step -/
noncomputable def Vessel.timeStep (P : Setup) (v : Vessel) (dt : ℝ) : Except PyErr (Run.StepResult Vessel ℝ) := do
  let (m, rail) ← envConstrain v.phase.rail ⟨v.phase.pos, v.phase.vel⟩ v.phase.time
  let v1 := { v with phase := v.phase.moved m rail }
  let (w, d, est, exact) ← triggerEvents (missionWorld P) ⟨v1, [], none⟩ v1.events
  match w.failed with
  | some e => .error e
  | none => do
    let dt' := overrideStep P.adaptive P.eventStep est exact dt
    let a := P.accepted w.vessel dt'
    let phase ← w.vessel.advance P.env P.method a.1
    .ok ⟨{ w.vessel with phase := phase, events := d }, a.1, a.2, w.dropped⟩

/-! ## The simulation -/

/-- what the end conditions read (SingleSimulations.py:224-238) -/
noncomputable def Vessel.obs (E : Env) (v : Vessel) : Run.Obs ℝ := ⟨v.phase.time, v.phase.vel.z, v.phase.pos.z, enuZ E v.phase⟩

/-- the simulation as the main loop sees it -/
noncomputable def Setup.sim (P : Setup) : Run.Sim Vessel ℝ where
  obs := Vessel.obs P.env
  step := Vessel.timeStep P
  droppedEnd v := Run.chooseEnd P.dropEnd P.dropValue (v.obs P.env)

/-- SingleSimulations.py:90-145: the bodies one after the other, each with the launch rail as the one before left it -/
noncomputable def flyAll (P : Setup) (innerFuel : Nat) : Nat → Nat → Option Rail → List (Run.Slot Vessel ℝ) → Except PyErr (List (Run.Slot Vessel ℝ))
  | 0, _, _, _ => .error .outOfFuel
  | fuel + 1, i, rail, slots =>
    match slots[i]? with
    | none => .ok slots
    | some s =>
      match Run.inner P.sim i innerFuel (slots.set i { s with rocket := { s.rocket with phase := s.rocket.phase.onRail rail } }) with
      | .error e => .error e
      | .ok slots' => flyAll P innerFuel fuel (i + 1) ((slots'[i]?).bind fun s' => s'.rocket.phase.rail) slots'

/-- SingleSimulations.py:53-159 `Simulation.run` of the rocket `v` with the first time step `dt` and an end condition -/
noncomputable def mission (P : Setup) (fuel : Nat) (v : Vessel) (dt : ℝ) (cond : Run.EndCond ℝ) : Except PyErr (List (Run.Slot Vessel ℝ)) :=
  flyAll P fuel fuel 0 v.phase.rail [⟨v, dt, cond, [v]⟩]

end Mapleaf.Rocket
