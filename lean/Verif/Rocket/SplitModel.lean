import Verif.Rocket.CompositeModel
import Verif.Motion.StateModel

/-!
# Model of what happens to the flying bodies at stage separation (MAPLEAF/Rocket/rocket.py, SimulationRunners/SingleSimulations.py)

Complements `Verif.Rocket.StagingModel`, which is about which stage leaves and which motor is ignited: here the stages carry their
mass properties and the two bodies after the separation carry their states. The stage that is rebuilt as a rocket of its own is
taken to be the bottom one (`Verif.Rocket.StagingModel` says when it is). A motor is its propellant's inertia as a function of the
time since ignition; forces are not looked at. The part added for base drag has no mass and is left out.
-/

namespace Mapleaf.Rocket
open Mapleaf.Motion

/-- stage.py:13-42: overrides, the parts other than the motor (functions of the time), and the motor: propellant inertia as a
function of the time since ignition (Propulsion.py:130-136) and ignition time -/
structure FlyingStage where
  over : Overrides ℝ
  parts : List (Comp ℝ ℝ)
  propellant : Option (ℝ → Inertia ℝ)
  ignition : ℝ

/-- Propulsion.py:130-136 `getInertia`: the motor as a component (for its inertia; the force is not read here) -/
noncomputable def FlyingStage.motorPart (p : ℝ → Inertia ℝ) (ignition : ℝ) : Comp ℝ ℝ :=
  .part (fun t => p (max 0 (t - ignition))) (fun _ _ => FMS.make ⟨0, 0, 0⟩ none none)

/-- stage.py:41: the stage as a composite object -/
noncomputable def FlyingStage.comp (s : FlyingStage) : Comp ℝ ℝ :=
  .node s.over (match s.propellant with
    | some p => s.parts ++ [FlyingStage.motorPart p s.ignition]
    | none => s.parts)

/-- rocket.py: stages from top to bottom, `rigidBody.state` and `rigidBody.time` -/
structure Flying where
  stages : List FlyingStage
  state : RBState
  time : ℝ

/-- CompositeObject.py:101-121 for the rocket, which has no overrides (rocket.py:206) -/
noncomputable def Flying.inertia (r : Flying) : Except PyErr (Inertia ℝ) :=
  (Comp.node Overrides.none (r.stages.map FlyingStage.comp)).inertia r.time

/-- Propulsion.py:153-154 `stage.motor.updateIgnitionTime`; `stage.motor` is None without a motor -/
def FlyingStage.setIgnition (s : FlyingStage) (t : ℝ) : Except PyErr FlyingStage :=
  match s.propellant with
  | none => .error .attributeError
  | some _ => .ok { s with ignition := t }

/-- SingleSimulations.py:280-287 with rocket.py:358-361: the bottom stage, its motor burned out, with the state and time of the
rocket it came from -/
def Flying.detached (r : Flying) (bottom : FlyingStage) : Except PyErr Flying :=
  match bottom.setIgnition (-1000000000) with
  | .error e => .error e
  | .ok b => .ok ⟨[b], r.state, r.time⟩

/-- rocket.py:461-487 `_stageSeparation`, `_dropStage` with the paths of dropped stages computed: the rocket that
goes on, and the stage that was dropped -/
def Flying.split (r : Flying) : Except PyErr (Flying × Flying) :=
  match r.stages.getLast? with
  | none => .error .indexError
  | some bottom =>
    match r.detached bottom with
    | .error e => .error e
    | .ok d =>
      match r.stages.dropLast with
      | [] => .error .indexError
      | top :: rest =>
        match top.setIgnition r.time with
        | .error e => .error e
        | .ok top => .ok (⟨top :: rest, r.state, r.time⟩, d)

end Mapleaf.Rocket
