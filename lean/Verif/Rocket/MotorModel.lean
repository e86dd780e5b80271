import Verif.Motion.InterpModel
import Verif.Motion.ForceModel
import Verif.Motion.VectorProps

/-!
# Model of the tabulated motor (MAPLEAF/Rocket/Propulsion.py)

Components in an ordered field `K`, no rounding. The motor file is taken after its text was split into numbers: the four
propellant CG positions and one row per data line. A division by zero raises, as for Python floats.
-/

namespace Mapleaf.Rocket
open Mapleaf.Motion

/-- Propulsion.py:81-100: one data line of the motor file -/
structure MotorRow (K : Type) where
  t : K
  thrust : K
  ox : K
  fuel : K
  oxMOI : V3 K
  fuelMOI : V3 K
  deriving DecidableEq, Repr

/-- Propulsion.py:65-70: the header of the motor file, oxidizer and fuel CG positions relative to the stage -/
structure MotorHeader (K : Type) where
  initOx : K
  finalOx : K
  initFuel : K
  finalFuel : K
  deriving DecidableEq, Repr

/-- Propulsion.py:36, 67-70, 75-80, 115-118: the attributes of a motor -/
structure Motor (K : Type) where
  header : MotorHeader K
  times : List K
  thrusts : List K
  oxWeights : List K
  fuelWeights : List K
  oxMass : K
  fuelMass : K
  oxMOIs : List (V3 K)
  fuelMOIs : List (V3 K)
  ignition : K
  deriving DecidableEq, Repr

section
variable {K : Type} [Field K] [LinearOrder K]

/-- Propulsion.py:119-127: the loop `for i in range(len(times)-1, 0, -1)` for one propellant: running total and the series
built by `insert(0, sum)` -/
def massLoop (times flow : List K) : Nat → K × List K → K × List K
  | 0, s => s
  | i + 1, (sum, series) =>
    let deltaT := times.getD (i + 1) 0 - times.getD i 0
    let sum := sum + deltaT * (flow.getD i 0 + flow.getD (i + 1) 0) / 2
    massLoop times flow i (sum, sum :: series)

/-- Propulsion.py:36-43, 51-127 `__init__` and `_parseMotorDefinitionFile`: the motor and the shut-off time given to its
stage. `stageZ` is `stage.position.Z`. -/
def Motor.build (h : MotorHeader K) (rows : List (MotorRow K)) (stageZ impulseFactor burnFactor : K) :
    Except PyErr (Motor K × K) :=
  match pyGet (rows.map (·.t)) (-1) with
  | .error e => .error e
  | .ok shutOff =>
    if burnFactor = 0 then .error .zeroDivision
    else
      let times := (rows.map (·.t)).map (· * burnFactor)
      let ox := massLoop times (rows.map (·.ox)) (times.length - 1) (0, [0])
      let fuel := massLoop times (rows.map (·.fuel)) (times.length - 1) (0, [0])
      .ok ({ header := ⟨h.initOx + stageZ, h.finalOx + stageZ, h.initFuel + stageZ, h.finalFuel + stageZ⟩
             times := times
             thrusts := rows.map (fun r => r.thrust * impulseFactor / burnFactor)
             oxWeights := ox.2
             fuelWeights := fuel.2
             oxMass := ox.1
             fuelMass := fuel.1
             oxMOIs := rows.map (·.oxMOI)
             fuelMOIs := rows.map (·.fuelMOI)
             ignition := 0 }, shutOff)

/-- Propulsion.py:103-107: the rocket's shut-off time after the stage's was set -/
def rocketShutOff (old : Option K) (new : K) : K :=
  match old with
  | none => new
  | some o => max o new

/-- Propulsion.py:138-151 `getAppliedForce` -/
def Motor.thrustAt (m : Motor K) (time : K) : Except PyErr K :=
  let ts := max 0 (time - m.ignition)
  match pyGet m.times (-1) with
  | .error e => .error e
  | .ok last => if ts < 0 ∨ ts > last then .ok 0 else linInterp m.times m.thrusts ts

/-- Propulsion.py:149-151: the force system made of the thrust -/
def Motor.force (m : Motor K) (time : K) : Except PyErr (FMS K) :=
  match m.thrustAt time with
  | .error e => .error e
  | .ok thrust => .ok (FMS.make ⟨0, 0, thrust⟩ none none)

/-- Propulsion.py:153-157 `updateIgnitionTime`: motor, rocket and stage shut-off times -/
def Motor.updateIgnitionTime (m : Motor K) (t : K) (fakeValue : Bool) (rocketOff stageOff : K) :
    Except PyErr (Motor K × K × K) :=
  let m' := { m with ignition := t }
  if fakeValue then .ok (m', rocketOff, stageOff)
  else
    match pyGet m.times (-1) with
    | .error e => .error e
    | .ok last => .ok (m', max rocketOff (t + last), t + last)

/-- Propulsion.py:159-166 `getTotalImpulse` -/
def Motor.totalImpulse (m : Motor K) : K :=
  (List.range' 1 (m.times.length - 1)).foldl (fun total i =>
    total + (m.times.getD i 0 - m.times.getD (i - 1) 0) * (m.thrusts.getD (i - 1) 0 + m.thrusts.getD i 0) / 2) 0

/-- Propulsion.py:171-188 `_getOxInertia` and 190-204 `_getFuelInertia` -/
def propInertia (times weights : List K) (mois : List (V3 K)) (initialMass initCG finalCG ts : K) :
    Except PyErr (Inertia K) :=
  if initialMass = 0 then .ok (Inertia.make ⟨0, 0, 0⟩ ⟨0, 0, 0⟩ 0)
  else
    match linInterp times weights ts with
    | .error e => .error e
    | .ok w =>
      let burned := 1 - w / initialMass
      let cgZ := initCG * (1 - burned) + finalCG * burned
      match linInterp times mois ts with
      | .error e => .error e
      | .ok moi => .ok (Inertia.make moi ⟨0, 0, cgZ⟩ w)

/-- Propulsion.py:171-188 `_getOxInertia` -/
def Motor.oxInertia (m : Motor K) (ts : K) : Except PyErr (Inertia K) :=
  propInertia m.times m.oxWeights m.oxMOIs m.oxMass m.header.initOx m.header.finalOx ts

/-- Propulsion.py:190-204 `_getFuelInertia` -/
def Motor.fuelInertia (m : Motor K) (ts : K) : Except PyErr (Inertia K) :=
  propInertia m.times m.fuelWeights m.fuelMOIs m.fuelMass m.header.initFuel m.header.finalFuel ts

/-- Propulsion.py:130-136 `getInertia` -/
def Motor.inertia (m : Motor K) (time : K) : Except PyErr (Inertia K) :=
  let ts := max 0 (time - m.ignition)
  match m.oxInertia ts with
  | .error e => .error e
  | .ok ox =>
    match m.fuelInertia ts with
    | .error e => .error e
    | .ok fuel => ox.add fuel

end
end Mapleaf.Rocket
