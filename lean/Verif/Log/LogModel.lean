import Verif.Base.Dict
import Verif.Base.Str
import Mathlib.Order.Basic

/-! # Model: `Log` and `TimeStepLog` (MAPLEAF/IO/CythonLog.pyx)

`τ` is the type of times, `α` the type of logged values. Python keeps the time column in the same dictionary as the
other columns; here it is the separate field `times` (the name `"Time(s)"` is refused for other columns, and
`logValue("Time(s)", …)`, which no caller does, is not modelled). When an operation raises, the partially updated log
is not represented: the callers let the exception end the simulation. -/

namespace Mapleaf.LogM

abbrev Name := Str

def timeName : Name := "Time(s)".toList
def defaultName : Name := "default".toList

/-- CythonLog.pyx:20-43: `logColumns`, `fillValues` (its entry `"default"` is `dflt`) -/
structure Log (τ α : Type) where
  times : List τ
  cols : Dict Name (List α)
  fills : Dict Name α
  dflt : α

variable {τ α : Type}

/-- CythonLog.pyx:55-58: fill value of a column -/
def fillOf (L : Log τ α) (c : Name) : α :=
  if c = defaultName then L.dflt else match Dict.get? L.fills c with
    | some v => v
    | none => L.dflt

/-- CythonLog.pyx:23-43 `__init__` -/
def new (columnNames : List Name) (dflt : α) : Except PyErr (Log τ α) :=
  if columnNames.any (fun c => c.contains ' ') then .error .valueError
  else .ok ⟨[], columnNames.foldl (fun d c => if c = timeName then d else Dict.set d c []) [], [], dflt⟩

/-- CythonLog.pyx:50-60: completing one column to `n` values -/
def completeCol (n : Nat) (fill : α) (vals : List α) : Except PyErr (List α) :=
  if vals.length = n then .ok vals
  else if vals.length < n then .ok (vals ++ [fill])
  else .error .valueError

/-- CythonLog.pyx:50: the loop over all columns -/
def completeCols (L : Log τ α) : Dict Name (List α) → Except PyErr (Dict Name (List α))
  | [] => .ok []
  | (c, vals) :: rest =>
    match completeCol L.times.length (fillOf L c) vals with
    | .error e => .error e
    | .ok vals' =>
      match completeCols L rest with
      | .error e => .error e
      | .ok rest' => .ok ((c, vals') :: rest')

/-- CythonLog.pyx:45-60 `_completeLastLine` -/
def complete (L : Log τ α) : Except PyErr (Log τ α) :=
  match completeCols L L.cols with
  | .error e => .error e
  | .ok cols => .ok { L with cols := cols }

/-- CythonLog.pyx:62-73 `newLogRow` -/
def newLogRow [LinearOrder τ] (L : Log τ α) (t : τ) : Except PyErr (Log τ α) :=
  match complete L with
  | .error e => .error e
  | .ok L1 =>
    match L1.times.getLast? with
    | some last => if t < last then .error .valueError else .ok { L1 with times := L1.times ++ [t] }
    | none => .ok { L1 with times := L1.times ++ [t] }

/-- CythonLog.pyx:75-83 `deleteLastRow` -/
def deleteLastRow (L : Log τ α) : Log τ α :=
  let n := L.times.length
  if n > 0 then
    { L with
      times := L.times.dropLast
      cols := L.cols.map (fun p => (p.1, if p.2.length = n then p.2.dropLast else p.2)) }
  else L

/-- CythonLog.pyx:85-105 `addColumn` -/
def addColumn (L : Log τ α) (c : Name) (fill : Option α) : Except PyErr (Log τ α) :=
  if Dict.has L.cols c || c == timeName then .error .valueError
  else
    let L1 : Log τ α := match fill with
      | some f => if c = defaultName then { L with dflt := f } else { L with fills := Dict.set L.fills c f }
      | none => L
    let v := match fill with
      | some f => f
      | none => L1.dflt
    .ok { L1 with cols := Dict.set L1.cols c (List.replicate L.times.length v) }

/-- CythonLog.pyx:116-118 `logValue` -/
def logValue (L : Log τ α) (c : Name) (v : α) : Except PyErr (Log τ α) :=
  match Dict.get? L.cols c with
  | some vals => .ok { L with cols := Dict.set L.cols c (vals ++ [v]) }
  | none => .error .keyError

/-- Python `bisect_left(l, t)`: CPython's binary search on the index interval `[lo, hi)`; `fuel` bounds the number of
halvings -/
def bisectAux [LinearOrder τ] (l : List τ) (t : τ) : Nat → Nat → Nat → Nat
  | 0, lo, _ => lo
  | fuel + 1, lo, hi =>
    if lo < hi then
      let mid := (lo + hi) / 2
      match l[mid]? with
      | some x => if x < t then bisectAux l t fuel (mid + 1) hi else bisectAux l t fuel lo mid
      | none => lo
    else lo

def bisectLeft [LinearOrder τ] (l : List τ) (t : τ) : Nat := bisectAux l t (l.length + 1) 0 l.length

/-- CythonLog.pyx:120-125 `getValue` (for columns other than time) -/
def getValue [LinearOrder τ] (L : Log τ α) (t : τ) (c : Name) : Except PyErr α :=
  match Dict.get? L.cols c with
  | none => .error .keyError
  | some vals => match vals[bisectLeft L.times t]? with
    | some v => .ok v
    | none => .error .indexError

/-- Operations on a log. -/
inductive Op (τ α : Type)
  | addColumn (c : Name) (fill : Option α)
  | newRow (t : τ)
  | log (c : Name) (v : α)
  | deleteRow

def step [LinearOrder τ] (L : Log τ α) : Op τ α → Except PyErr (Log τ α)
  | .addColumn c f => addColumn L c f
  | .newRow t => newLogRow L t
  | .log c v => logValue L c v
  | .deleteRow => .ok (deleteLastRow L)

def run [LinearOrder τ] : List (Op τ α) → Log τ α → Except PyErr (Log τ α)
  | [], L => .ok L
  | o :: os, L => match step L o with
    | .ok L' => run os L'
    | .error e => .error e

/-- CythonLog.pyx:185-188: row `i` of the written table: the values of all columns (any order); `none` is an
`IndexError` -/
def tableRow (L : Log τ α) (i : Nat) : Option (τ × List (Name × α)) :=
  match L.times[i]?, L.cols.mapM (fun p => (p.2[i]?).map (fun v => (p.1, v))) with
  | some t, some vs => some (t, vs)
  | _, _ => none

/-- CythonLog.pyx:165-192 `writeToCSV`, without `expandIterableColumns` (see `LogExpand`) and without the text
formatting: the rows written. -/
def writeRows (L : Log τ α) : Except PyErr (List (τ × List (Name × α))) :=
  match complete L with
  | .error e => .error e
  | .ok L1 => match (List.range L1.times.length).mapM (tableRow L1) with
    | some rows => .ok rows
    | none => .error .indexError

/-- CythonLog.pyx:199-212 `_calculateTimeStepSizes`: the `"TimeStep(s)"` column -/
def timeStepSizes {K : Type} [Sub K] (times : List K) : List K :=
  let ds := (times.zip times.tail).map (fun p => p.2 - p.1)
  match ds.getLast? with
  | some d => ds ++ [d]
  | none => []

end Mapleaf.LogM
