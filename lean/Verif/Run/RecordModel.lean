import Verif.Run.BatchModel
import Verif.Run.CaseModel
import Verif.Run.FigureModel

/-!
# A whole batch run: cases, recording of expected results, summary

Model of `main`, `run`, `_runCase`, `_runFullFlightCase`, `_runParameterSweepCase`, `_checkSimResults`, `printResult` and
`_writeModifiedTestDefinitionFile` (SimulationRunners/Batch.py).  What a simulation logs is a function of its definition.  Reading
a value changes only the access trackers of the batch definition, which no batch run reports; they are dropped.
-/

namespace Mapleaf.Rec
open Str SimDef Run

variable {K : Type} [Field K] [LinearOrder K] [IsStrictOrderedRing K]

/-- The log files of a simulation: for each file, the columns a column specification hits (`Plotting.getLoggedColumns`) -/
abbrev Logs (K : Type) := List (Str → Matches K)

/-- Everything outside Batch.py: reading of numbers and files, simulations, figures -/
structure World (K : Type) where
  parseInt : Str → Except PyErr Int
  text : CaseM.Text K
  /-- Python's `float`; `none`: `ValueError` -/
  float : Str → Option (Fl K)
  /-- Python's `str` of a float -/
  showF : Fl K → Str
  /-- `SimDefinition(path)` -/
  load : Str → Except PyErr Store
  /-- `Simulation(simDefinition).run()` -/
  fly : Store → Except PyErr (Logs K)
  /-- `WindTunnelSimulation(parameters, values, simDefinition, smoothLine).runSweep()` -/
  tunnel : List Str → List (List Str) → Str → Store → Except PyErr (Logs K)
  /-- `_generatePlot`: warnings printed and validation percentages added -/
  figure : Store → Str → Logs K → Except PyErr (Nat × List K)

/-- Settings of a `BatchRun` (Batch.py:45-71) that concern checking -/
structure Settings (K : Type) where
  recordAll : Bool
  pctTol : K
  absTol : K

/-- Results of a `BatchRun` (Batch.py:62-71) that change while cases are run; `recorded` is `casesWithNewRecordedResults` -/
structure St (K : Type) where
  batch : Store
  warnings : Nat
  recorded : List Str
  validation : List K

/-! ## full flights -/

/-- `expectedResult.lower() == "record"` -/
def saysRecord (s : Str) : Bool := s.map Char.toLower = "record".toList

/-- Batch.py:462-486: one pass of the loop of `_checkSimResults` -/
def checkEntry (W : World K) (S : Settings K) (case : Str) (logs : Logs K) (acc : St K × Counts) (key : Str) :
    Except PyErr (St K × Counts) := do
  let spec := getDictName key
  let text ← (getString acc.1.batch case key).1
  match if S.recordAll then none else W.float text with
  | some x =>
    let r ← singleResult (logs.map (fun f => f spec))
    .ok ({ acc.1 with warnings := acc.1.warnings + (if r.2 then 1 else 0) }, checkResult S.pctTol S.absTol acc.2 r.1 x)
  | none =>
    if saysRecord text || S.recordAll then
      let r ← singleResult (logs.map (fun f => f spec))
      match r.1 with
      | some v => .ok ({ acc.1 with batch := setValue acc.1.batch key (W.showF v)
                                    recorded := setAdd acc.1.recorded case }, acc.2)
      | none => .error .typeError
    else .ok ({ acc.1 with warnings := acc.1.warnings + 1 }, acc.2)

/-- Batch.py:411-437 `_runFullFlightCase`: the results, the counters and the log files; 439-447 when the simulation raises -/
def fullFlight (W : World K) (S : Settings K) (case : Str) (sim : Store) (st : St K) :
    Except PyErr (St K × Counts × Logs K) :=
  match W.fly sim with
  | .error _ => .ok (st, crashed, [])
  | .ok logs => do
    let (batch, keys) := CaseM.expectedKeys case st.batch
    let st := { st with batch := batch, warnings := st.warnings + (if keys.length = 0 then 1 else 0) }
    let r ← keys.foldlM (checkEntry W S case logs) (st, ⟨0, 0, 0⟩)
    .ok (r.1, r.2, logs)

/-! ## sweeps -/

/-- Batch.py:361-370 when the expected values are texts: the first comparison raises -/
def textCheck [FloorRing K] (smooth : Bool) (c : Counts) (parts : List Str) (data : List (Fl K)) : Except PyErr Counts :=
  match parts with
  | [_] => if GNC.pyRound ((data.length : K) / ((if smooth then 10 else 1 : ℕ) : K)) ≤ 0 then .ok c else .error .typeError
  | _ => if data.length = 0 then .error .indexError else .error .typeError

/-- Batch.py:348: a single text that is the word "record" -/
def asksRecord (numbers : Option (List (Fl K))) (parts : List Str) : Bool :=
  match numbers, parts with
  | none, [p] => saysRecord p
  | _, _ => false

/-- Batch.py:325-370: one dictionary of expected results -/
def sweepEntry [FloorRing K] (W : World K) (S : Settings K) (case smooth : Str) (logs : Logs K) (acc : St K × Counts) (d : Str) :
    Except PyErr (St K × Counts) := do
  let spec ← (getString acc.1.batch case (d ++ ".column".toList)).1
  let text ← (getString acc.1.batch case (d ++ ".expectedValues".toList)).1
  let parts := splitC ',' text
  let numbers := parts.mapM W.float
  let data ← CaseM.sweepColumn (logs.map (fun f => f spec))
  if asksRecord numbers parts || S.recordAll then
    .ok ({ acc.1 with batch := setValue acc.1.batch (d ++ ".expectedValues".toList) (join ", ".toList (data.map W.showF))
                      recorded := setAdd acc.1.recorded case }, acc.2)
  else do
    let smooth ← Fig.strtobool smooth
    match numbers with
    | some es =>
      let c ← sweepCheck S.pctTol S.absTol smooth acc.2 es data
      .ok (acc.1, c)
    | none =>
      let c ← textCheck smooth acc.2 parts data
      .ok (acc.1, c)

/-- Batch.py:286-372 `_runParameterSweepCase` -/
def sweepCase [FloorRing K] (W : World K) (S : Settings K) (case : Str) (sim : Store) (st : St K) :
    Except PyErr (St K × Counts × Logs K) := do
  let (params, values) ← CaseM.readSweeps W.text st.batch case
  let smooth ← CaseM.smoothLine st.batch case values
  match W.tunnel params values smooth sim with
  | .error _ => .ok (st, crashed, [])
  | .ok logs =>
    let r ← (CaseM.resultDicts st.batch case).foldlM (sweepEntry W S case smooth logs) (st, ⟨0, 0, 0⟩)
    .ok (r.1, r.2, logs)

/-! ## one case -/

/-- Batch.py:246-248: one figure -/
def drawFigure (W : World K) (logs : Logs K) (st : St K) (d : Str) : Except PyErr (St K) := do
  let f ← W.figure st.batch d logs
  .ok { st with warnings := st.warnings + f.1, validation := st.validation ++ f.2 }

/-- Batch.py:236-241: the prepared case is run -/
def simulate [FloorRing K] (W : World K) (S : Settings K) (case : Str) (p : Store × Bool) (st : St K) :
    Except PyErr (St K × Counts × Logs K) :=
  if p.2 then sweepCase W S case p.1 st else fullFlight W S case p.1 st

/-- Batch.py:244-248: the figures of a case, unless it crashed -/
def drawFigures (W : World K) (case : Str) (logs : Logs K) (st : St K) : Except PyErr (St K) :=
  if logs.length > 0 then
    (readerList (getImmediateSubDicts st.batch.dict) case (some "PlotsToGenerate".toList)).foldlM (drawFigure W logs) st
  else .ok st

/-- Batch.py:201-252 `_runCase` -/
def runCase [FloorRing K] (W : World K) (S : Settings K) (case : Str) (st : St K) : Except PyErr (St K × Counts) := do
  let p ← CaseM.prepareCase W.parseInt W.load case st.batch
  let r ← simulate W S case p st
  let st ← drawFigures W case r.2.2 r.1
  .ok (st, r.2.1)

/-! ## the batch -/

/-- the last word of the summary (Batch.py:136-151) -/
inductive Verdict where
  | ok | warning | fail
deriving DecidableEq, Repr

/-- What `printResult` reports -/
structure Summary where
  /-- the cases with their counters, in the order they were run -/
  cases : List (Str × Counts)
  /-- the names listed under "Failed Cases" -/
  failed : List Str
  warnings : Nat
  verdict : Verdict
  /-- the value returned, the exit status -/
  exit : Nat
  /-- the file written and the definition written to it -/
  written : Option (Str × Dict Str Str)

/-- Batch.py:844-852: the name of the file with the recorded results -/
def newFile (fileName : Str) : Str := replace fileName ".mapleaf".toList "_newExpectedResultsRecorded.mapleaf".toList

/-- Batch.py:89-153 `printResult`; `validate` tells whether a result to validate was given -/
def report (validate : Bool) (fileName : Str) (st : St K) (cases : List (Str × Counts)) : Summary :=
  let failed := (cases.filter (fun c => decide (0 < c.2.failed) || decide (c.2.errors ≠ 0))).map Prod.fst
  let warnings := st.warnings + (if validate && decide (st.validation.length = 0) then 1 else 0)
  { cases := cases
    failed := failed
    warnings := warnings
    verdict := if failed.length = 0 then (if warnings = 0 then .ok else .warning) else .fail
    exit := if failed.length = 0 then 0 else 1
    written := if 0 < st.recorded.length then some (newFile fileName, st.batch.dict) else none }

/-- Batch.py:191-193: one pass of the loop of `run` -/
def runStep [FloorRing K] (W : World K) (S : Settings K) (acc : St K × List (Str × Counts)) (case : Str) :
    Except PyErr (St K × List (Str × Counts)) := do
  let r ← runCase W S case acc.1
  .ok (r.1, acc.2 ++ [(case, r.2)])

/-- Batch.py:161-198 `main` and `run`, after the command line was read and the definition loaded -/
def run [FloorRing K] (W : World K) (S : Settings K) (include? exclude? : Option Str) (validate : Bool) (fileName : Str)
    (batch : Store) : Except PyErr Summary := do
  let r ← (casesToRun include? exclude? (getImmediateSubDicts batch.dict [])).foldlM (runStep W S) (⟨batch, 0, [], []⟩, [])
  .ok (report validate fileName r.1 r.2)

end Mapleaf.Rec
