import Verif.Log.LogModel
import Verif.ENV.EnvModel

/-!
# Model: the rocket's time step log (MAPLEAF/Rocket/rocket.py:150-168, 615-644)

One entry per time step: the state of the rocket and, in 6-DoF mode, its Tait-Bryan angles relative to the local
north-east-down frame. A 3-DoF state has no attribute `orientation`; the `AttributeError` raised on line 629 is caught and
ends the entry. The console line is represented by the altitude it shows.
-/

namespace Mapleaf.LogM
open Mapleaf.Motion Mapleaf.ENV

/-- What a cell of the log can hold -/
inductive Entry
  | vec (v : V3 ℝ)
  | quat (q : Quat ℝ)
  | num (x : ℝ)

/-- RigidBodyStates.py: the state of a 6-DoF or of a 3-DoF rigid body -/
inductive FlightState
  | six (s : RBState)
  | three (pos vel : V3 ℝ)

/-- `state.position` -/
def FlightState.position : FlightState → V3 ℝ
  | .six s => s.pos
  | .three p _ => p

/-- EarthModelling.py:33-36 `getInertialToNEDFrameRotation`, for any earth model -/
noncomputable def nedFrame (e : Earth) (pos : V3 ℝ) : Except PyErr (Quat ℝ) :=
  match e.enu pos with
  | .error err => .error err
  | .ok q => .ok (q.mul (Quat.axisAngle ⟨1, 1, 0⟩ Real.pi))

/-- rocket.py:632-635: the angles that are logged -/
noncomputable def nedAngles (e : Earth) (s : RBState) : Except PyErr (V3 ℝ) :=
  match nedFrame e s.pos with
  | .error err => .error err
  | .ok ned => .ok (ned.conj.mul s.ori).toEulerAngles

/-- rocket.py:624-639: the values logged for one state, in order -/
noncomputable def stateEntries (e : Earth) : FlightState → Except PyErr (List (Name × Entry))
  | .three pos vel => .ok [("Position(m)".toList, .vec pos), ("Velocity(m/s)".toList, .vec vel)]
  | .six s =>
    match nedAngles e s with
    | .error err => .error err
    | .ok angles => .ok
      [("Position(m)".toList, .vec s.pos), ("Velocity(m/s)".toList, .vec s.vel),
       ("OrientationQuaternion".toList, .quat s.ori), ("AngularVelocity(rad/s)".toList, .vec s.angVel),
       ("EulerAngle(rad)".toList, .vec angles)]

/-- Consecutive calls of `logValue` -/
noncomputable def logEntries : List (Name × Entry) → Log ℝ Entry → Except PyErr (Log ℝ Entry)
  | [], L => .ok L
  | (c, v) :: rest, L =>
    match logValue L c v with
    | .error err => .error err
    | .ok L' => logEntries rest L'

/-- rocket.py:615-644 `_logState`: the log afterwards (`None` when the logging level is 0) and the altitude printed -/
noncomputable def logState (e : Earth) (time : ℝ) (s : FlightState) (L : Option (Log ℝ Entry)) :
    Except PyErr (Option (Log ℝ Entry) × ℝ) := do
  let L' ← match L with
    | none => .ok none
    | some L => do
      let L1 ← newLogRow L time
      let entries ← stateEntries e s
      let L2 ← logEntries entries L1
      .ok (some L2)
  let alt ← e.altitude s.position
  .ok (L', alt)

/-- rocket.py:158-168: the time step log of a new rocket. CythonLog.pyx:20-43: a new `Log` has no rows, no columns and the
default fill value 0. -/
noncomputable def newStateLog (level : ℤ) (discretization : Str) : Except PyErr (Option (Log ℝ Entry)) :=
  if 0 < level then do
    let L ← new [] (.num 0)
    let L ← addColumn L "Position(m)".toList (some (.vec 0))
    let L ← addColumn L "Velocity(m/s)".toList (some (.vec 0))
    let L ← addColumn L "OrientationQuaternion".toList (some (.quat ⟨0, 0, 0, 0⟩))
    let L ← addColumn L "EulerAngle(rad)".toList (some (.vec 0))
    let L ← addColumn L "AngularVelocity(rad/s)".toList (some (.vec 0))
    if Str.isIn "Adapt".toList discretization then do
      let L ← addColumn L "EstimatedIntegrationError".toList (some (.num 0))
      .ok (some L)
    else .ok (some L)
  else .ok none

end Mapleaf.LogM
