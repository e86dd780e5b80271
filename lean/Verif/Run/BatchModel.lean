import Verif.Base.Dict
import Verif.Base.Str
import Verif.GNC.GncModel
import Mathlib.Algebra.Module.Basic

/-!
# Batch runs and parameter sweeps

Model of SimulationRunners/Batch.py (verdicts) and of `WindTunnelSimulation._addPoints`
(SimulationRunners/SingleSimulations.py:477-500).  Simulations are not run here: a case is what its log
files contain.  Plotting and validation data are left out.
-/

namespace Mapleaf.Run

/-! ## floating-point values that need not be numbers -/

/-- A Python float: a number, an infinity or not-a-number.  Rounding is not modelled. -/
inductive Fl (K : Type) where
  | nan
  | inf (negative : Bool)
  | fin (x : K)
deriving DecidableEq

variable {K : Type} [Field K] [LinearOrder K] [IsStrictOrderedRing K]

namespace Fl

/-- IEEE subtraction -/
def sub : Fl K → Fl K → Fl K
  | fin a, fin b => fin (a - b)
  | nan, _ => nan
  | _, nan => nan
  | inf s, fin _ => inf s
  | fin _, inf s => inf (!s)
  | inf s, inf t => if s = t then nan else inf s

/-- `abs` -/
def abs : Fl K → Fl K
  | nan => nan
  | inf _ => inf false
  | fin a => fin |a|

/-- `x * 100` -/
def mul100 : Fl K → Fl K
  | nan => nan
  | inf s => inf s
  | fin a => fin (a * 100)

/-- IEEE division by something that is not zero -/
def div : Fl K → Fl K → Fl K
  | fin a, fin b => fin (a / b)
  | nan, _ => nan
  | _, nan => nan
  | inf s, fin b => inf (s ^^ decide (b < 0))
  | fin _, inf _ => fin 0
  | inf _, inf _ => nan

/-- `x > t` for a number `t` -/
def gt : Fl K → K → Bool
  | nan, _ => false
  | inf s, _ => !s
  | fin a, t => decide (t < a)

/-- `x == y` -/
def beq : Fl K → Fl K → Bool
  | fin a, fin b => decide (a = b)
  | inf s, inf t => s == t
  | _, _ => false

/-- `isnan(x)` -/
def isNaN : Fl K → Bool
  | nan => true
  | _ => false

end Fl

/-! ## one comparison -/

/-- The counters of a `CaseResult` (Batch.py:28-41) -/
structure Counts where
  passed : Nat
  failed : Nat
  errors : Nat
deriving DecidableEq, Repr

/-- `errorPercent` (Batch.py:508-512) -/
def errorPercent (expected observed : Fl K) : Fl K :=
  if expected.beq (.fin 0) then
    if expected.beq observed then .fin 0 else .fin 100
  else ((expected.sub observed).abs.mul100.div expected).abs

/-- `_checkResult` (Batch.py:502-521): does the comparison pass? -/
def passes (pctTol absTol : K) (observed : Option (Fl K)) (expected : Fl K) : Bool :=
  match observed with
  | none => false
  | some o =>
    !(((errorPercent expected o).gt pctTol && ((expected.sub o).abs).gt absTol) || (errorPercent expected o).isNaN)

/-- `_checkResult` (Batch.py:488-521): the counters afterwards -/
def checkResult (pctTol absTol : K) (c : Counts) (observed : Option (Fl K)) (expected : Fl K) : Counts :=
  if passes pctTol absTol observed expected then { c with passed := c.passed + 1 }
  else { c with failed := c.failed + 1 }

/-! ## full-flight cases -/

/-- What is written for an expected value (Batch.py:470-486): something `float` accepts, the word "record",
or anything else -/
inductive Expected (K : Type) where
  | num (x : Fl K)
  | record
  | bad

/-- The columns of one log file that match a column specification, each with its data
(`Plotting.getLoggedColumns`) -/
abbrev Matches (K : Type) := List (List (Fl K))

/-- `_getSingleResultFromLogs` (Batch.py:523-539): the value found and whether a warning was printed -/
def singleResult : List (Matches K) → Except PyErr (Option (Fl K) × Bool)
  | [] => .ok (none, true)
  | m :: rest =>
    match m with
    | [] => singleResult rest
    | [col] => match col.getLast? with
      | some v => .ok (some v, false)
      | none => .error .indexError
    | _ :: _ :: _ => .ok (none, true)

/-- State while the expected values of a case are checked: counters, warnings, values recorded -/
structure CaseState (K : Type) where
  counts : Counts
  warnings : Nat
  recorded : Nat

/-- One pass of the loop of `_checkSimResults` (Batch.py:462-486), without `recordAll`; `logs` is what each
log file holds for this key -/
def checkKey (pctTol absTol : K) (st : CaseState K) (e : Expected K × List (Matches K)) :
    Except PyErr (CaseState K) :=
  match e.1 with
  | .num x => do
    let r ← singleResult e.2
    .ok { st with counts := checkResult pctTol absTol st.counts r.1 x
                  warnings := st.warnings + (if r.2 then 1 else 0) }
  | .record => do
    let r ← singleResult e.2
    match r.1 with
    | some _ => .ok { st with recorded := st.recorded + 1 }
    | none => .error .typeError
  | .bad => .ok { st with warnings := st.warnings + 1 }

/-- `_checkSimResults` (Batch.py:460-486) -/
def checkCase (pctTol absTol : K) (es : List (Expected K × List (Matches K))) : Except PyErr (CaseState K) :=
  es.foldlM (checkKey pctTol absTol) { counts := ⟨0, 0, 0⟩, warnings := 0, recorded := 0 }

/-- A simulation that raises: `_handleSimCrash` (Batch.py:439-447) calls `CaseResult.error` (37-41) -/
def crashed : Counts := ⟨0, 1, 1⟩

/-! ## the verdict -/

/-- `printResult` (Batch.py:89-153): the exit code -/
def exitCode (cases : List Counts) : Nat :=
  if (cases.filter (fun c => decide (0 < c.failed) || decide (c.errors ≠ 0))).length = 0 then 0 else 1

/-- `getCasesToRun` (Batch.py:73-87) -/
def casesToRun (include? exclude? : Option Str) (all : List Str) : List Str :=
  match include?, exclude? with
  | none, none => all
  | i, x => all.filter (fun c => (match i with | none => true | some s => Str.isIn s c)
      && (match x with | none => true | some s => !Str.isIn s c))

/-- `run` (Batch.py:183-198): an exception in a case leaves the whole batch -/
def runBatch (cases : List (Except PyErr Counts)) : Except PyErr Nat := do
  let cs ← cases.mapM id
  .ok (exitCode cs)

/-! ## sweeps -/

/-- Batch.py:361-370: the checks of one expected-results dictionary of a sweep -/
def sweepCheck [FloorRing K] (pctTol absTol : K) (smooth : Bool) (c : Counts) (expected data : List (Fl K)) :
    Except PyErr Counts :=
  let step := if smooth then 10 else 1
  let one (c : Counts) (i : Nat) (e : Fl K) : Except PyErr Counts :=
    match data[i * step]? with
    | none => .error .indexError
    | some v => .ok (checkResult pctTol absTol c (some v) e)
  match expected with
  | [] => .error .indexError
  | [e] =>
    (List.range (GNC.pyRound ((data.length : K) / (step : ℕ))).toNat).foldlM (fun c i => one c i e) c
  | es => es.zipIdx.foldlM (fun c ei => one c ei.2 ei.1) c

variable {V : Type} [AddCommGroup V] [Module K V]

/-- One new point (SingleSimulations.py:482-500) -/
def addPoint (m i p : Nat) (vals : List V) : Except PyErr (List V) :=
  match vals[m * i]?, vals[m * i + p]? with
  | some first, some second => .ok (vals.insertIdx (m * i + p) (((p : K) / (m : K)) • (second - first) + first))
  | _, _ => .error .indexError

/-- `_addPoints` (SingleSimulations.py:477-500) for one swept parameter with `pointMultiple = m`; the lists
of the different parameters do not influence each other.  Values are numbers or vectors; the conversion
from and to text is left out. -/
def addPoints (m : Nat) (vals : List V) : Except PyErr (List V) :=
  (List.range (vals.length - 1)).foldlM (fun l i =>
    (List.range (m - 1)).foldlM (fun l p => addPoint (K := K) m i (p + 1) l) l) vals

end Mapleaf.Run
