import Verif.Rocket.EventModel
import Mathlib.Data.List.Sort

/-!
# Model of staging (MAPLEAF/Rocket/rocket.py, SimulationRunners/SingleSimulations.py)

What matters of a stage here: its number, height, motor ignition and burn time, and shut-off time. The stage list is ordered
top to bottom. The attribute `rocket.<stage name>` that `_dropStage` deletes is taken to exist (it does unless a stage is named
like an attribute of the rocket). Base drag, fineness ratio and control system, which `_stageSeparation` also updates, do not
influence the stages and are left out.
-/

namespace Mapleaf.Rocket

/-- Propulsion.py:36, 75: ignition time and last entry of the adjusted time table -/
structure StageMotor (K : Type) where
  ignition : K
  burn : K
  deriving DecidableEq, Repr

/-- stage.py:13-30 -/
structure StageM (K : Type) where
  number : Nat
  z : K
  motor : Option (StageMotor K)
  /-- `engineShutOffTime` -/
  off : Option K
  deriving DecidableEq, Repr

/-- rocket.py: what staging reads and writes of the rocket and the simulation runner -/
structure Stack (K : Type) where
  /-- top to bottom -/
  stages : List (StageM K)
  /-- `rocket.rigidBody.time` -/
  time : K
  /-- `rocket.engineShutOffTime` -/
  off : Option K
  /-- the numbers of all stages in the simulation definition -/
  numbers : List Nat
  /-- `simRunner.stagingIndex` -/
  stagingIndex : Nat
  /-- `simRunner.rocketStages[1:]`: which stages fly on their own -/
  detached : List Nat
  deriving DecidableEq, Repr

section
variable {K : Type} [Field K] [LinearOrder K]

/-- RocketComponents.py:130-143 `sortByZLocation`: Python's stable sort, descending -/
def sortByZ (l : List (StageM K)) : List (StageM K) := l.insertionSort (fun a b => b.z ≤ a.z)

/-- rocket.py:343-356: all motors but the bottom one are set to ignite in the distant future; without a motor the call is
made on `None` -/
def initIgnition : List (StageM K) → Except PyErr (List (StageM K))
  | [] => .ok []
  | [s] => .ok [s]
  | s :: t :: l =>
    match s.motor with
    | none => .error .attributeError
    | some m =>
      match initIgnition (t :: l) with
      | .error e => .error e
      | .ok rest => .ok ({ s with motor := some { m with ignition := 1000000000 } } :: rest)

/-- Propulsion.py:153-157 `updateIgnitionTime` on a stage's motor; `max` with a `None` raises -/
def ignite (t : K) (s : StageM K) (rocketOff : Option K) : Except PyErr (StageM K × Option K) :=
  match s.motor with
  | none => .error .attributeError
  | some m =>
    match rocketOff with
    | none => .error .typeError
    | some o => .ok ({ s with motor := some { m with ignition := t }, off := some (t + m.burn) }, some (max o (t + m.burn)))

/-- SingleSimulations.py:280-299 `createNewDetachedStage` with rocket.py:298-320: the stage with the `stagingIndex`-th smallest
number becomes a rocket of its own -/
def detach (computeDropPaths : Bool) (r : Stack K) : Except PyErr (Stack K) :=
  if computeDropPaths then
    if r.numbers.Nodup then
      match (r.numbers.insertionSort (· ≤ ·))[r.stagingIndex]? with
      | none => .error .indexError
      | some n => .ok { r with detached := r.detached ++ [n], stagingIndex := r.stagingIndex + 1 }
    else .error .valueError
  else .ok r

/-- rocket.py:461-479 `_stageSeparation` and `_dropStage` -/
def separate (computeDropPaths : Bool) (r : Stack K) : Except PyErr (Stack K) :=
  match detach computeDropPaths r with
  | .error e => .error e
  | .ok r =>
    if r.stages = [] then .error .indexError
    else
      match r.stages.dropLast with
      | [] => .error .indexError
      | top :: rest =>
        match ignite r.time top r.off with
        | .error e => .error e
        | .ok (top, off) => .ok { r with stages := top :: rest, off := off }

/-- a history of separations, each at its own time -/
def separations (computeDropPaths : Bool) : List K → Stack K → Except PyErr (Stack K)
  | [], r => .ok r
  | t :: ts, r =>
    match separate computeDropPaths { r with time := t } with
    | .error e => .error e
    | .ok r' => separations computeDropPaths ts r'

/-- the rocket as the event detector sees it; callback 0 is `_stageSeparation` (a failing one ends the simulation: here it
leaves the rocket alone) -/
def stagingWorld (posZ velZ : Stack K → K) : World (Stack K) K :=
  ⟨fun r => r.time, fun r => ((r.stages.getLast?).bind (·.off)).getD 0, posZ, velZ,
    fun _ r => ((separate true r).toOption.getD r, [])⟩

end
end Mapleaf.Rocket
