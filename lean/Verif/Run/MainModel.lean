import Verif.SimDef.PathModel
import Verif.SimDef.KeysModel
import Verif.SimDef.StoreModel
import Mathlib.Algebra.Order.Field.Basic

/-!
# Model: the command line program (MAPLEAF/Main.py:102-201) and the choice of optimiser (SimulationRunners/Optimization.py:317-337)

Texts are read as numbers by parameters. What a job does is a parameter too; it is the subject of the other models. The command line
parser is `argparse`: its result is `Args`.
-/

namespace Mapleaf.MainM
open Mapleaf Mapleaf.Str Mapleaf.SimDef Mapleaf.Path

variable {K : Type} [Field K] [LinearOrder K]

/-- Main.py:102-107 `isOptimizationProblem` -/
def isOptimizationProblem (s : Store) : Bool :=
  match (getValue s "Optimization.costFunction".toList).1 with
  | .ok _ => true
  | .error _ => false

/-- Main.py:109-117 `isMonteCarloSimulation` -/
def isMonteCarloSimulation (num : Str → Option K) (s : Store) : Bool :=
  match (getValue s "MonteCarlo.numberRuns".toList).1 with
  | .ok v =>
    match num v with
    | some n => decide (n > 1)
    | none => false
  | .error _ => false

/-- Main.py:119-127 `isBatchSim` -/
def isBatchSim (s : Store) : Bool :=
  !((getImmediateSubDicts s.dict []).any fun d =>
    decide (d = "Rocket".toList) && !contains s "Rocket.simDefinitionFile".toList)

/-- Main.py:21-71: what the parser hands over -/
structure Args where
  plotFromLog : Option (Str × Str)
  converge : Bool
  compareClassical : Bool
  compareAdaptive : Bool
  parallel : Bool
  silent : Bool
  file : Str
  deriving DecidableEq

/-- Main.py:184-191: which convergence study -/
inductive Study
  | endPosition
  | classical
  | adaptive
  deriving DecidableEq

/-- what the program does -/
inductive Job
  | plot (definition file : Str)
  | optimization (silent parallel : Bool)
  | monteCarlo (silent : Bool) (cores : Nat)
  | batch (file : Str)
  | study (silent : Bool) (which : Study)
  | single (silent : Bool)
  deriving DecidableEq

/-- Main.py:164-196: the job for a definition that was read from `path` -/
def chooseJob (num : Str → Option K) (cpus : Nat) (a : Args) (path : Str) (s : Store) : Except PyErr Job :=
  if isOptimizationProblem s then .ok (.optimization a.silent a.parallel)
  else if isMonteCarloSimulation num s then .ok (.monteCarlo a.silent (if a.parallel then cpus else 1))
  else if a.parallel then .error .valueError
  else if isBatchSim s then .ok (.batch path)
  else if a.converge || a.compareClassical || a.compareAdaptive then
    .ok (.study a.silent (if a.converge then .endPosition else if a.compareClassical then .classical else .adaptive))
  else .ok (.single a.silent)

/-- Main.py:129-201 `main`: the exit status of the program. `load` reads a definition, `perform` does a job and gives what it
returns; the return value of a job is not used. -/
def main (fs : FS) (install : PPath) (num : Str → Option K) (cpus : Nat) (load : Str → Except PyErr Store)
    (perform : Job → Except PyErr Nat) (a : Args) : Except PyErr Nat :=
  match a.plotFromLog with
  | some (d, f) => do
    let _ ← perform (.plot d f)
    .ok 0
  | none =>
    match findSimDefinitionFile fs install a.file with
    | none => .ok 0
    | some path => do
      let s ← load path
      let j ← chooseJob num cpus a path s
      let _ ← perform j
      .ok 0

/-- the optimisers -/
inductive Method
  | swarm
  | scipy
  deriving DecidableEq

/-- Optimization.py:319-325: the definition of an optimisation is changed before it is read -/
def quietDefinition (s : Store) : Store :=
  setValue (setValue s "SimControl.plot".toList "None".toList) "SimControl.RocketPlot".toList "Off".toList

/-- Optimization.py:330-337: the optimiser of the dictionary at `path` -/
def chooseMethod (s : Store) (path : Str) : Except PyErr Method :=
  match (tryGet Except.ok s path "method".toList "PSO".toList).1 with
  | .error e => .error e
  | .ok m =>
    if m = "PSO".toList then .ok .swarm
    else if isIn "scipy.optimize.minimize".toList m then .ok .scipy
    else .error .valueError

/-- MonteCarlo.py:22-28: the number of runs -/
def numberOfRuns (int : Str → Option Int) (s : Store) : Except PyErr Int :=
  match (getValue s "MonteCarlo.numberRuns".toList).1 with
  | .ok v =>
    match int v with
    | some n => .ok n
    | none => .error .valueError
  | .error e => .error e

end Mapleaf.MainM
