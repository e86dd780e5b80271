import Verif.Base.Str
import Verif.Base.Dict

/-!
# Model: plotting columns of log files (MAPLEAF/IO/Plotting.py)

The contents of the files are given by a function from paths to tables, or to the exception raised on reading. Regular
expressions are given by a function too: `re.match` is not modelled. `UnboundLocalError` is `runtimeError`. A plot is the list
of its lines.
-/

namespace Mapleaf.LogM
open Mapleaf

variable {V : Type}

/-- a table: named columns, in order -/
abbrev Sheet (V : Type) := List (Str × List V)
/-- what is in the files -/
abbrev Files (V : Type) := Str → Except PyErr (Sheet V)
/-- `re.match(spec, name)` is true; raises for an invalid expression -/
abbrev Regex := Str → Str → Except PyErr Bool

/-- Plotting.py:30-33: the log file cache, in order of insertion -/
abbrev SheetCache (V : Type) := Dict Str (Sheet V)

/-- Plotting.py:123-148: the table, from the cache or from the file; a table read is cached, and the oldest entry dropped
when there are more than 10 -/
def loadSheet (files : Files V) (useCache : Bool) (path : Str) (cache : SheetCache V) :
    Except PyErr (Sheet V) × SheetCache V :=
  match (if useCache then Dict.get? cache path else none) with
  | some df => (.ok df, cache)
  | none =>
    match files path with
    | .error e => (.error e, cache)
    | .ok df =>
      let c := Dict.set cache path df
      (.ok df, if 10 < c.length then c.tail else c)

/-- Plotting.py:155: the condition -/
def wants (rx : Regex) (excl : List Str) (spec name : Str) : Except PyErr Bool :=
  if Str.isIn spec name then .ok (decide (name ∉ excl))
  else do
    let m ← rx spec name
    .ok (m && decide (name ∉ excl))

/-- Plotting.py:154-159: the loop over the columns -/
def pickOne (rx : Regex) (excl : List Str) (spec : Str) : Sheet V → Except PyErr (Sheet V)
  | [] => .ok []
  | c :: df => do
    let w ← wants rx excl spec c.1
    let rest ← pickOne rx excl spec df
    .ok (if w then c :: rest else rest)

/-- Plotting.py:153-159: the loop over the specifications -/
def pick (rx : Regex) (excl : List Str) (df : Sheet V) : List Str → Except PyErr (Sheet V)
  | [] => .ok []
  | s :: specs => do
    let a ← pickOne rx excl s df
    let rest ← pick rx excl df specs
    .ok (a ++ rest)

/-- Plotting.py:105-161 `getLoggedColumns` with a list of specifications: names and data -/
def getLoggedColumns (rx : Regex) (files : Files V) (useCache : Bool) (path : Str) (specs excl : List Str)
    (cache : SheetCache V) : Except PyErr (Sheet V) × SheetCache V :=
  match loadSheet files useCache path cache with
  | (.error e, c) => (.error e, c)
  | (.ok df, c) => (pick rx excl df specs, c)

/-- one line in the plot -/
structure PlotLine (V : Type) where
  x : List V
  y : List V
  label : Str
  deriving DecidableEq

/-- Plotting.py:79-80: `columnSpecs` afterwards -/
def withTime (specs : List Str) : List Str :=
  if "Time(s)".toList ∈ specs then specs else specs ++ ["Time(s)".toList]

/-- Plotting.py:85-90: takes the first column called `Time(s)` -/
def popTime : Sheet V → Option (List V) × Sheet V
  | [] => (none, [])
  | c :: cs => if c.1 = "Time(s)".toList then (some c.2, cs) else ((popTime cs).1, c :: (popTime cs).2)

/-- Plotting.py:85-94: the lines drawn from the matching columns -/
def drawLines (cols : Sheet V) : Except PyErr (List (PlotLine V)) :=
  match popTime cols with
  | (some x, rest) => .ok (rest.map fun c => ⟨x, c.2, c.1⟩)
  | (none, []) => .ok []
  | (none, _ :: _) => .error .runtimeError

/-- Plotting.py:63-103 `tryPlottingFromLog`: the lines; their labels are the names returned -/
def tryPlotting (rx : Regex) (files : Files V) (path : Str) (specs excl : List Str) (cache : SheetCache V) :
    Except PyErr (List (PlotLine V)) × SheetCache V :=
  match getLoggedColumns rx files true path (withTime specs) excl cache with
  | (.error e, c) => (.error e, c)
  | (.ok cols, c) => (drawLines cols, c)

/-- Plotting.py:41-48: the specifications in a plot definition -/
def plotSpecs (definition : Str) : List Str :=
  if definition = "Velocity".toList then
    ["VelocityX(m/s)".toList, "VelocityY(m/s)".toList, "VelocityZ(m/s)".toList]
  else if '&' ∈ definition then Str.splitC '&' definition
  else [definition]

/-- Plotting.py:55-56: the loop over the logs. `columns` is a list that line 80 extends for the following rounds, or a string;
both come to the same, see `withTime_twice`. -/
def plotLogs (rx : Regex) (files : Files V) (specs : List Str) : List Str → List Str → SheetCache V →
    Except PyErr (List (PlotLine V)) × SheetCache V
  | [], _, c => (.ok [], c)
  | p :: ps, excl, c =>
    match tryPlotting rx files p specs excl c with
    | (.error e, c) => (.error e, c)
    | (.ok ls, c) =>
      match plotLogs rx files specs ps (excl ++ ls.map PlotLine.label) c with
      | (.error e, c) => (.error e, c)
      | (.ok rest, c) => (.ok (ls ++ rest), c)

/-- Plotting.py:36-61 `plotFromLogFiles` for a list of paths: all lines in the plot -/
def plotFromLogFiles (rx : Regex) (files : Files V) (paths : List Str) (definition : Str) (c : SheetCache V) :
    Except PyErr (List (PlotLine V)) × SheetCache V :=
  plotLogs rx files (plotSpecs definition) paths [] c

/-! ## Text logs -/

/-- Plotting.py:205-211: the loop; `row` is the number of the line at the head. The first token is read by `time`. -/
def dropRow {K : Type} [Sub K] [LT K] [DecidableLT K] [OfNat K 5] (time : Str → Except PyErr K) :
    Nat → K → List Str → Except PyErr (Option Nat)
  | _, _, [] => .ok none
  | row, last, l :: ls =>
    match Str.wsSplit l with
    | [] => .error .indexError
    | t :: _ => do
      let now ← time t
      if last - now > 5 then .ok (some row) else dropRow time (row + 1) now ls

/-- Plotting.py:195-219 `_getSkipRowsAndFooters_forceEvalLog`: the lines left at the end of the file -/
def forceFooter {K : Type} [Sub K] [LT K] [DecidableLT K] [OfNat K 5] (time : Str → Except PyErr K) (lines : List Str) :
    Except PyErr Int :=
  match lines with
  | _ :: l :: ls =>
    match Str.wsSplit l with
    | [] => .error .indexError
    | t :: _ => do
      let first ← time t
      let r ← dropRow time 2 first ls
      match r with
      | some row => .ok (lines.length + 1 - row)
      | none => .ok 0
  | _ => .error .indexError

/-- `pandas.read_csv` with `skipfooter = k`: the lines that are read -/
def withoutFooter (k : Int) (lines : List Str) : List Str := lines.take (lines.length - k.toNat)

end Mapleaf.LogM
