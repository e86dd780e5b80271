import Verif.Run.CaseModel
import Verif.Run.OptModel
import Verif.SimDef.ParserModel

/-!
# Setting up an optimisation

Model of the parts of SimulationRunners/Optimization.py that decide what is optimised and how (the values tried and their
costs are in `OptModel`), of `loadSimDefinition` (SimulationRunners/SingleSimulations.py:15-26) and of the cost function
shipped with the program (OptimizationFunctions/MomentPIDCostOptimizationFunction.py). Console output, `pyswarms` and
`scipy` are not modelled.
-/

namespace Mapleaf.Run.OptSetup
open Str SimDef Opt CaseM

variable {K : Type}

/-- SingleSimulations.py:15-26 `loadSimDefinition` -/
def loadDefinition {σ : Type} (load : Str → Except PyErr σ) (path : Option Str) (given : Option σ) : Except PyErr σ :=
  match given, path with
  | none, some p => load p
  | some d, _ => .ok d
  | none, none => .error .valueError

/-- Optimization.py:319-329: the definition and the path read from. `reader` is the reader of a nested optimisation. -/
def factoryReader (load : Str → Except PyErr Store) (path : Option Str) (given : Option Store)
    (reader : Option (Store × Str)) : Except PyErr (Store × Str) :=
  if given.isSome || path.isSome then
    match loadDefinition load path given with
    | .error e => .error e
    | .ok s =>
      let s := setValue s "SimControl.plot".toList "None".toList
      let s := setValue s "SimControl.RocketPlot".toList "Off".toList
      .ok (s, "Optimization".toList)
  else
    match reader with
    | none => .error .valueError
    | some r => .ok r

/-- The two kinds of optimiser; `scipy` with the name passed to `scipy.optimize.minimize` -/
inductive Kind
  | pso
  | scipy (method : Str)
  deriving DecidableEq

/-- Optimization.py:331-338 and, for scipy, 516-523; `text` is the entry `method` -/
def pickMethod (text : Option Str) : Except PyErr Kind :=
  let method := text.getD "PSO".toList
  if method = "PSO".toList then .ok .pso
  else if isIn "scipy.optimize.minimize".toList method then
    let parts := splitC ' ' method
    if parts.length > 2 then .error .valueError
    else
      match parts[1]? with
      | some m => .ok (.scipy m)
      | none => .error .indexError
  else .error .valueError

/-- The rest of the text after the last occurrence of `b` that is followed by a character, without this character -/
def afterLast (b : Str) : Str → Option Str
  | [] => none
  | c :: s =>
    match afterLast b s with
    | some r => some r
    | none =>
      if b.isPrefixOf (c :: s) then
        match (c :: s).drop b.length with
        | [] => none
        | _ :: r => some r
      else none

/-- Optimization.py:149 `re.sub("Optimization.*DependentVariables.", "", depVar)`: from the first `a` that is followed by a
`b` to the character after the last `b`. No second match can follow. Keys contain no line breaks. -/
def cutBetween (a b : Str) : Str → Str
  | [] => []
  | c :: s =>
    if a.isPrefixOf (c :: s) then
      match afterLast b ((c :: s).drop a.length) with
      | some r => r
      | none => c :: cutBetween a b s
    else c :: cutBetween a b s

/-- Optimization.py:149: the key a dependent variable sets -/
def dependentKey (key : Str) : Str := cutBetween "Optimization".toList "DependentVariables".toList key

/-- Optimization.py:147-151: one dependent variable after the other; reading changes only the access trackers -/
def readDependent (path : Str) : Store → List Str → Except PyErr (List (Str × Str))
  | _, [] => .ok []
  | s, key :: keys =>
    match getString s path key with
    | (.error e, _) => .error e
    | (.ok v, s1) =>
      match readDependent path s1 keys with
      | .error e => .error e
      | .ok rest => .ok ((dependentKey key, v) :: rest)

/-- Optimization.py:134-160 `_loadDependentVariables`: the keys set and their definitions -/
def loadDependent (s : Store) (path : Str) : Except PyErr (List (Str × Str)) :=
  readDependent path s (readerList (getSubKeys s.dict) path (some "DependentVariables".toList))

/-- Optimization.py:198-211: one case of the batch file -/
def batchCase (parseInt : Str → Except PyErr Int) (load : Str → Except PyErr Store) (st : Store × List Store) (case : Str) :
    Except PyErr (Store × List Store) :=
  match getValue st.1 (case ++ ".simDefinitionFile".toList) with
  | (.error e, _) => .error e
  | (.ok path, batch) =>
    match load path with
    | .error e => .error e
    | .ok sim =>
      match implementOverrides parseInt case batch sim with
      | .error e => .error e
      | .ok (batch, sim) => .ok (batch, st.2 ++ [sim])

/-- Optimization.py:181-213 `_loadBatchOptimization`: the definitions simulated for every trial point. `load` finds and
reads a definition file. -/
def loadBatch (parseInt : Str → Except PyErr Int) (load : Str → Except PyErr Store) (batch : Store) :
    Except PyErr (List Store) :=
  match ((getImmediateSubDicts batch.dict []).insertionSort (fun a b => strLe a b = true)).foldlM
      (batchCase parseInt load) (batch, []) with
  | .error e => .error e
  | .ok st => .ok st.2

/-- Optimization.py:81-86: the definitions of an optimisation -/
def definitions (parseInt : Str → Except PyErr Int) (load : Str → Except PyErr Store) (s : Store) (path : Str) :
    Except PyErr (List Store) :=
  match getString s path "batchDefinition".toList with
  | (.error .keyError, _) => .ok [s]
  | (.error e, _) => .error e
  | (.ok v, s1) =>
    if v = "notPresent.fakeFile".toList then .ok [s1]
    else
      match getString s1 path "Optimization.batchDefinition".toList with
      | (.error e, _) => .error e
      | (.ok file, _) =>
        match load file with
        | .error e => .error e
        | .ok batch => loadBatch parseInt load batch

/-- The parameters of a particle swarm -/
structure Swarm (K : Type) where
  particles : Int
  rows : Int
  iterations : Int
  c1 : K
  c2 : K
  w : K
  deriving DecidableEq

/-- Optimization.py:355 and 415-430: the number of particles (read twice: once for the positions, without a default, once
for the optimiser), the iterations and the parameters of the swarm; `num` is `float` -/
def swarmOptions [DivisionRing K] (parseInt : Str → Except PyErr Int) (num : Str → Except PyErr K) (s : Store) (path : Str) :
    Except PyErr (Swarm K) :=
  match getParsed parseInt s path "ParticleSwarm.nParticles".toList with
  | (.error e, _) => .error e
  | (.ok rows, s1) => do
    let swarm := path ++ ".ParticleSwarm".toList
    let particles ← (tryGet parseInt s1 swarm "nParticles".toList 20).1
    let iterations ← (tryGet parseInt s1 swarm "nIterations".toList 50).1
    let c1 ← (tryGet num s1 swarm "cognitiveParam".toList (5 / 10)).1
    let c2 ← (tryGet num s1 swarm "socialParam".toList (6 / 10)).1
    let w ← (tryGet num s1 swarm "inertiaParam".toList (9 / 10)).1
    return ⟨particles, rows, iterations, c1, c2, w⟩

/-- What a cost function text stands for -/
inductive Cost
  | custom (module func : Str)
  | formula (text : Str)
  deriving DecidableEq

/-- Optimization.py:34-36: a text with a colon names a function in a module (unpacking anything but two parts fails),
any other is an expression in the results of the flight -/
def costKind (text : Str) : Except PyErr Cost :=
  if isIn [':'] text then
    match splitC ':' text with
    | [m, f] => .ok (.custom m f)
    | _ => .error .valueError
  else .ok (.formula text)

/-! ## MomentPIDCostOptimizationFunction.py -/

/-- MomentPIDCostOptimizationFunction.py:14-21: the control system log among the files -/
def controlLog : List Str → Except PyErr Str
  | [] => .error .valueError
  | f :: fs => if isIn "ControlSystem_Log.csv".toList f then .ok f else controlLog fs

/-- MomentPIDCostOptimizationFunction.py:34-44: one of the sums; `i` runs over the rows after the first -/
def errorIntegral [Ring K] : List K → List K → K
  | t0 :: t1 :: ts, _ :: e1 :: es => e1 ^ 2 * (t1 - t0) + errorIntegral (t1 :: ts) (e1 :: es)
  | _, _ => 0

/-- MomentPIDCostOptimizationFunction.py:8-58: the cost; `columns` are those found for "Time" and "Error" (the fourth is
read last) -/
def momentCost [Field K] (columns : List (List K)) : Except PyErr K :=
  match columns with
  | t :: p :: y :: r :: _ => .ok (100 * (1 / 2 * errorIntegral t p + 1 / 2 * errorIntegral t y + errorIntegral t r))
  | t :: _ => if t.length ≤ 1 then .ok 0 else .error .indexError
  | [] => .error .indexError

/-- MomentPIDCostOptimizationFunction.py:54-55: the files left afterwards: all logs of the run are removed -/
def filesLeft (files logs : List Str) : List Str := files.filter fun f => f ∉ logs

end Mapleaf.Run.OptSetup
