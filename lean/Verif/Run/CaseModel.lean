import Verif.SimDef.StoreModel
import Verif.Motion.InterpModel
import Verif.Motion.VecModel

/-!
# Batch cases: overrides, parameter sweeps, default recording, validation

Model of the parts of SimulationRunners/Batch.py that prepare a case and of `WindTunnelSimulation`
(SimulationRunners/SingleSimulations.py:428-475, 502-522).  Reading a value changes only the access trackers of a
definition; where those are not returned they are dropped.  Building a rocket is not modelled: a force evaluation is the
definition it is made from.
-/

namespace Mapleaf.CaseM
open Str SimDef Motion

/-! ## overrides -/

/-- Batch.py:278-284: one override -/
def overrideStep (root : Str) (st : Store × Store) (key : Str) : Except PyErr (Store × Store) :=
  match getValue st.1 key with
  | (.error e, _) => .error e
  | (.ok v, batch) => .ok (batch, setValue st.2 (replace key (root ++ ['.']) []) v)

/-- Batch.py:254-284 `_implementParameterOverrides`: the batch definition and the definition of the case, afterwards.
`parseInt` is Python's `int`. -/
def implementOverrides (parseInt : Str → Except PyErr Int) (case : Str) (batch sim : Store) :
    Except PyErr (Store × Store) :=
  let sim := setValue sim "SimControl.plot".toList "None".toList
  match getValue sim "SimControl.loggingLevel".toList with
  | (.error e, _) => .error e
  | (.ok text, sim) =>
    match parseInt text with
    | .error e => .error e
    | .ok level =>
      let sim := if level < 3 then setValue sim "SimControl.loggingLevel".toList "3".toList else sim
      let sim := setValue sim "SimControl.RocketPlot".toList "Off".toList
      let root := case ++ '.' :: "ParameterOverrides".toList
      (getSubKeys batch.dict root).foldlM (overrideStep root) (batch, sim)

/-- Batch.py:225-238: the definition a case is run with and whether it is run as a parameter sweep. `load` reads a definition
file. -/
def prepareCase (parseInt : Str → Except PyErr Int) (load : Str → Except PyErr Store) (case : Str) (batch : Store) :
    Except PyErr (Store × Bool) :=
  match getString batch case "simDefinitionFile".toList with
  | (.error e, _) => .error e
  | (.ok path, batch) =>
    match load path with
    | .error e => .error e
    | .ok sim =>
      match implementOverrides parseInt case batch sim with
      | .error e => .error e
      | .ok (batch, sim) =>
        .ok (sim, decide (case ++ ".ParameterSweep".toList ∈ getImmediateSubDicts batch.dict case))

/-! ## parameter sweeps -/

/-- Batch.py:293: the dictionaries inside `ParameterSweep` -/
def sweepDicts (batch : Store) (case : Str) : List Str :=
  readerList (getImmediateSubDicts batch.dict) case (some (case ++ ".ParameterSweep".toList))

/-- Batch.py:294-296: those taken for expected results -/
def resultDicts (batch : Store) (case : Str) : List Str :=
  (sweepDicts batch case).filter (fun d => isIn "Results".toList d)

/-- Batch.py:297-298: those taken for parameters -/
def parameterDicts (batch : Store) (case : Str) : List Str :=
  (sweepDicts batch case).filter (fun d => !isIn "Results".toList d)

section range
variable {K : Type} [Field K]

/-- `np.linspace(a, b, num=n)` for `n ≥ 0` -/
def linspace (a b : K) (n : Nat) : List K := (List.range n).map (fun i : ℕ => a + (i : K) * ((b - a) / ((n : K) - 1)))

/-- Reading and printing of numbers and vectors, and Python's `int` -/
structure Text (K : Type) where
  int : Str → Except PyErr Int
  float : Str → Option K
  vec : Str → Except PyErr (V3 K)
  showF : K → Str
  showV : V3 K → Str

/-- Batch.py:374-409 `_parseParameterSweepValues`. A `ValueError` while reading the two ends as numbers, or from a negative
count, leads to the vector branch; if the first end was already converted, `Vector(float)` raises `AttributeError`. -/
def parseSweepValues (T : Text K) (s : Str) : Except PyErr (List Str) :=
  if ':' ∈ s then
    match splitC ':' s with
    | [a, n, b] =>
      match T.int n with
      | .error e => .error e
      | .ok n =>
        match T.float a with
        | some x =>
          match T.float b with
          | some y => if n < 0 then .error .attributeError else .ok ((linspace x y n.toNat).map T.showF)
          | none => .error .attributeError
        | none =>
          match T.vec a with
          | .error e => .error e
          | .ok u =>
            match T.vec b with
            | .error e => .error e
            | .ok v =>
              if n < 0 then .error .valueError
              else .ok ((List.range n.toNat).map (fun i : ℕ => T.showV
                ⟨((linspace u.x v.x n.toNat)[i]?).getD 0, ((linspace u.y v.y n.toNat)[i]?).getD 0,
                 ((linspace u.z v.z n.toNat)[i]?).getD 0⟩))
    | _ => .error .valueError
  else .ok (splitC ',' s)

/-- Batch.py:300-306: swept parameters and their values -/
def readSweeps (T : Text K) (batch : Store) (case : Str) : Except PyErr (List Str × List (List Str)) := do
  let ds := parameterDicts batch case
  let texts ← ds.mapM (fun d => do
    let p ← (getString batch case (d ++ ".sweptParameter".toList)).1
    let v ← (getString batch case (d ++ ".parameterValues".toList)).1
    .ok (p, v))
  let values ← texts.mapM (fun t => parseSweepValues T t.2)
  .ok (texts.map Prod.fst, values)

end range

/-- Batch.py:309-310: whether points are added between the given ones -/
def smoothLine (batch : Store) (case : Str) (values : List (List Str)) : Except PyErr Str :=
  (tryGet .ok batch case "ParameterSweep.smoothLine".toList
    (if values.length < 25 then "True".toList else "False".toList)).1

/-- Batch.py:334-344: the log column to compare. `logs` are the matching columns of each log file. Without log files the name
is unbound (`.runtimeError` stands for `UnboundLocalError`); `batchRun.warning` is called with one argument too many. -/
def sweepColumn {α : Type} : List (List α) → Except PyErr α
  | [] => .error .runtimeError
  | logs =>
    match logs.find? (fun m => !m.isEmpty) with
    | some [c] => .ok c
    | _ => .error .typeError

/-! ## full flights -/

/-- Batch.py:450-458 `_setUpDefaultResultRecording` -/
def defaultRecording (case : Str) (batch : Store) : Store :=
  ["PositionX", "PositionY", "PositionZ", "VelocityX", "VelocityY", "VelocityZ"].foldl
    (fun b c => setValue b (case ++ ".ExpectedFinalValues.".toList ++ c.toList) "Record".toList) batch

/-- Batch.py:429-435: the batch definition and the list of keys that are checked -/
def expectedKeys (case : Str) (batch : Store) : Store × List Str :=
  let keys := readerList (getSubKeys batch.dict) case (some "ExpectedFinalValues".toList)
  (if keys.length = 0 then defaultRecording case batch else batch, keys)

/-! ## validation -/

section validate
variable {K : Type} [Field K] [LinearOrder K]

/-- `statistics.mean`; an empty list raises `StatisticsError`, a `ValueError` -/
def mean : List K → Except PyErr K
  | [] => .error .valueError
  | l => .ok (l.sum / (l.length : K))

/-- Batch.py:808-819 `getAvgError`; `valX` is the variable of the enclosing function -/
def avgError (X Y valX valY : List K) : Except PyErr K := do
  let m ← valX.mapM (fun x => linInterp X Y x)
  let errors := List.zipWith (fun a b => a - b) m valY
  mean (List.zipWith (fun e v => if v ≠ 0 then e / v else 100) errors valY)

/-- `min` of a non-empty list -/
def minimum : List K → Except PyErr K
  | [] => .error .valueError
  | x :: l => .ok (l.foldl min x)

/-- Batch.py:787-840 `_validate`: the recorded percentage; `none`: a warning and nothing recorded -/
def validate (mX mY : List (List K)) (valY : List (List K)) (valX : List K) : Except PyErr (Option K) :=
  if mX.length ≠ mY.length then .ok none
  else match mX, mY, valY with
    | [X], [Y], [V] => (avgError X Y valX V).map (fun e => some (e * 100))
    | [X], [Y], _ :: _ :: _ => do
      let es ← valY.mapM (fun V => avgError X Y valX V)
      (mean es).map (fun e => some (e * 100))
    | _, _ :: _ :: _, [V] => do
      let es ← (List.zip mX mY).mapM (fun c => avgError c.1 c.2 valX V)
      (minimum es).map (fun e => some (e * 100))
    | _, _, _ => .ok none

end validate

/-! ## wind tunnel simulations -/

/-- SingleSimulations.py:429-440 `WindTunnelSimulation.__init__`: the parameters and their values -/
def windTunnelInit (params : Option (List Str)) (values : Option (List (List Str))) :
    Except PyErr (List Str × List (List Str)) :=
  let params := params.getD ["Rocket.velocity".toList]
  let values := values.getD [["(0 0 100)".toList, "(0 0 200)".toList, "(0 0 300)".toList]]
  if params.length ≠ values.length then .error .valueError
  else if ¬ (∀ v ∈ values, v.length = (values.head?.map List.length).getD 0) then .error .valueError
  else .ok (params, values)

/-- SingleSimulations.py:459-460: the definition of point `i` -/
def setPoint (params : List Str) (values : List (List Str)) (i : Nat) (s : Store) : Except PyErr Store :=
  (List.range values.length).foldlM (fun s j =>
    match params[j]?, (values[j]?).bind (fun v => v[i]?) with
    | some p, some v => .ok (setValue s p v)
    | _, _ => .error .indexError) s

/-- SingleSimulations.py:458-473: the definitions of the force evaluations made, in order -/
def runPoints (params : List Str) (values : List (List Str)) : List Nat → Store → Except PyErr (List Store)
  | [], _ => .ok []
  | i :: l, s => do
    let s ← setPoint params values i s
    let rest ← runPoints params values l s
    .ok (s :: rest)

/-- SingleSimulations.py:444-475 `runSweep`: the definitions of the force evaluations, and whether log files are written.
`level` is the logging level read by `Simulation.__init__` (SingleSimulations.py:49), before the level is set here; `add` is
`_addPoints`. With no points there is no rocket to take results from. -/
def runSweep (add : List (List Str) → Except PyErr (List (List Str))) (smooth : Bool) (level : Int) (params : List Str)
    (values : List (List Str)) (sim : Store) : Except PyErr (List Store × Bool) := do
  let sim := setValue sim "SimControl.loggingLevel".toList "3".toList
  let sim := setValue sim "SimControl.plot".toList "None".toList
  let sim := setValue sim "SimControl.RocketPlot".toList "Off".toList
  let values ← if smooth then add values else .ok values
  match values with
  | [] => .error .indexError
  | v :: _ =>
    let states ← runPoints params values (List.range v.length) sim
    if states.isEmpty then .error .attributeError
    else .ok (states, decide (level > 0))

end Mapleaf.CaseM
