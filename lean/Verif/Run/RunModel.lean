import Verif.Base.Dict
import Verif.Base.Str
import Verif.Rocket.EventModel
import Mathlib.Algebra.Order.Field.Basic

/-!
# The simulation main loop

Model of `Simulation.run` (SimulationRunners/SingleSimulations.py:53-159), of the end detectors
(205-248), of the flight records (250-278) and of `createNewDetachedStage` (280-299).

The rocket is an arbitrary state type `S`; only what the end detectors read is visible (`Obs`).
The four parallel lists `rocketStages`, `dts`, `endDetectors`, `stageFlightPaths` always grow together
(82-83, 288-297), so they are one list of records here.  Progress bars, printing and hardware in the
loop are left out.
-/

namespace Mapleaf.Run

/-- What the end detectors can see of a rocket: `rigidBody.time`, `velocity.Z`, `position.Z` and
`earthModel.getAltitude(*position)` (SingleSimulations.py:225-232). -/
structure Obs (K : Type) where
  time : K
  velZ : K
  posZ : K
  altitude : K

/-- The four end-detector functions (SingleSimulations.py:225-238) -/
inductive EndCond (K : Type) where
  | afterApogee
  | aboveAltitude (value : K)
  | belowAltitude (value : K)
  | endTime (value : K)

variable {K : Type} [Field K] [LinearOrder K] [IsStrictOrderedRing K]

/-- `_getEndDetectorFunction` (SingleSimulations.py:240-248): the detector chosen for a rocket -/
def chooseEnd (endCondition : Str) (value : K) (o : Obs K) : EndCond K :=
  if endCondition = "Apogee".toList then .afterApogee
  else if endCondition = "Altitude".toList ∧ o.posZ < value then .aboveAltitude value
  else if endCondition = "Altitude".toList then .belowAltitude value
  else .endTime value

/-- SingleSimulations.py:225-238: (end the simulation?, overriding time step) -/
def EndCond.detect (c : EndCond K) (o : Obs K) (dt : K) : Bool × Option K :=
  match c with
  | .afterApogee => (decide (o.velZ ≤ 0 ∧ 1 < o.time), none)
  | .aboveAltitude v => (decide (v ≤ o.posZ), none)
  | .belowAltitude v => (decide (o.altitude ≤ v), none)
  | .endTime v =>
    if o.time < v ∧ v ≤ o.time + dt then (false, some (v + 1 / 10 ^ 14 - o.time))
    else if v ≤ o.time then (true, none)
    else (false, none)

/-- One independent rigid body: the entries of `rocketStages`, `dts`, `endDetectors` and
`stageFlightPaths` at one index (SingleSimulations.py:66, 81-83) -/
structure Slot (S K : Type) where
  rocket : S
  dt : K
  cond : EndCond K
  flight : List S

/-- What `rocket.timeStep(dt)` gives back: the new rocket state, `integrationResult.dt`,
`integrationResult.timeStepAdaptationFactor`, and the rockets for which it called
`createNewDetachedStage` (SingleSimulations.py:109, 129, 280-288) -/
structure StepResult (S K : Type) where
  rocket : S
  dt : K
  factor : K
  dropped : List S

/-- The parts of a simulation the loop does not define: what is visible of a rocket, the time step,
and the end condition of dropped stages (SingleSimulations.py:291) -/
structure Sim (S K : Type) where
  obs : S → Obs K
  step : S → K → Except PyErr (StepResult S K)
  droppedEnd : S → EndCond K

variable {S : Type}

/-- `createNewDetachedStage` (SingleSimulations.py:280-297): the new stage gets the current step of
stage 0 and a copy of the flight of stage 0 -/
def detach (sim : Sim S K) (top : Slot S K) (r : S) : Slot S K :=
  { rocket := r, dt := top.dt, cond := sim.droppedEnd r, flight := top.flight }

/-- One pass through the body of the inner loop for stage `i` (SingleSimulations.py:104-139), the stage
not being finished; `o` is the overriding time step -/
def advance (sim : Sim S K) (i : Nat) (slots : List (Slot S K)) (s : Slot S K) (o : Option K) :
    Except PyErr (List (Slot S K)) :=
  let dt := o.getD s.dt
  match sim.step s.rocket dt with
  | .error e => .error e
  | .ok res =>
    let slots1 := slots.set i { s with dt := dt }
    let new := match slots1.head? with
      | some top => res.dropped.map (detach sim top)
      | none => []
    .ok ((slots1 ++ new).set i
      { s with rocket := res.rocket, dt := res.dt * res.factor, flight := s.flight ++ [res.rocket] })

/-- The inner loop (SingleSimulations.py:100-139).  The loop is not bounded in the program; `fuel` is
the number of end checks allowed. -/
def inner (sim : Sim S K) (i : Nat) : Nat → List (Slot S K) → Except PyErr (List (Slot S K))
  | 0, _ => .error .outOfFuel
  | fuel + 1, slots =>
    match slots[i]? with
    | none => .error .indexError
    | some s =>
      match s.cond.detect (sim.obs s.rocket) s.dt with
      | (true, _) => .ok slots
      | (false, o) =>
        match advance sim i slots s o with
        | .error e => .error e
        | .ok slots' => inner sim i fuel slots'

/-- The outer loop over the stages, including those added while it runs (SingleSimulations.py:90-145) -/
def outer (sim : Sim S K) (innerFuel : Nat) : Nat → Nat → List (Slot S K) → Except PyErr (List (Slot S K))
  | 0, _, _ => .error .outOfFuel
  | fuel + 1, i, slots =>
    if i < slots.length then
      match inner sim i innerFuel slots with
      | .error e => .error e
      | .ok slots' => outer sim innerFuel fuel (i + 1) slots'
    else .ok slots

/-- `Simulation.run` (SingleSimulations.py:66-145): one stage to begin with, its flight holding the
initial state (250-253) -/
def run (sim : Sim S K) (fuel : Nat) (rocket : S) (dt0 : K) (cond : EndCond K) :
    Except PyErr (List (Slot S K)) :=
  outer sim fuel fuel 0 [{ rocket := rocket, dt := dt0, cond := cond, flight := [rocket] }]

end Mapleaf.Run
