import Verif.Rocket.MotorModel

/-!
# Model of the reading of motor files (MAPLEAF/Rocket/Propulsion.py:51-100)

The text is what `open(path, "r").read()` returns. `float` is Python's `float(str)`, `none` where it raises `ValueError`.
-/

namespace Mapleaf.Rocket
open Mapleaf.Motion

/-- Propulsion.py:58-60 `re.sub("#.*", "", text)`: `.` matches anything but the end of the line; the flag says whether a comment is being skipped -/
def cutComments : Bool → Str → Str
  | _, [] => []
  | true, c :: cs => if c = '\n' then c :: cutComments false cs else cutComments true cs
  | false, c :: cs => if c = '#' then cutComments true cs else c :: cutComments false cs

/-- Propulsion.py:58-63: the lines that are left -/
def motorLines (text : Str) : List Str := (Str.splitC '\n' (cutComments false text)).filter (fun l => !(Str.strip l).isEmpty)

/-- `l[i]` for `i ≥ 0` -/
def wordAt (l : List Str) (i : Nat) : Except PyErr Str :=
  match l[i]? with
  | some w => .ok w
  | none => .error .indexError

/-- `float(s)` -/
def floatOf {K : Type} (float : Str → Option K) (s : Str) : Except PyErr K :=
  match float s with
  | some x => .ok x
  | none => .error .valueError

/-- `float(words[i])` -/
def floatAt {K : Type} (float : Str → Option K) (words : List Str) (i : Nat) : Except PyErr K := do
  let w ← wordAt words i
  floatOf float w

/-- Propulsion.py:67-70 `float(lines[i].split()[1])` -/
def headerAt {K : Type} (float : Str → Option K) (lines : List Str) (i : Nat) : Except PyErr K := do
  let l ← wordAt lines i
  floatAt float (Str.wsSplit l) 1

/-- `s.index(c, start)` -/
def indexFrom (c : Char) (s : Str) (start : Nat) : Except PyErr Nat :=
  if c ∈ s.drop start then .ok (start + (s.drop start).idxOf c) else .error .valueError

/-- Propulsion.py:89-92 and 95-98: the first bracketed vector from `start` on, and where it ends -/
def vectorFrom {K : Type} (float : Str → Option K) (line : Str) (start : Nat) : Except PyErr (V3 K × Nat) := do
  let a ← indexFrom '(' line start
  let b ← indexFrom ')' line a
  let v ← parseVector float ((line.take (b + 1)).drop a)
  .ok (v, b + 1)

/-- Propulsion.py:81-99: a data line -/
def motorRow {K : Type} (float : Str → Option K) (line : Str) : Except PyErr (MotorRow K) := do
  let info := Str.wsSplit line
  let t ← floatAt float info 0
  let thrust ← floatAt float info 1
  let ox ← floatAt float info 2
  let fuel ← floatAt float info 3
  let (oxMOI, stop) ← vectorFrom float line 0
  let (fuelMOI, _) ← vectorFrom float line stop
  .ok ⟨t, thrust, ox, fuel, oxMOI, fuelMOI⟩

/-- Propulsion.py:81-99: all data lines -/
def motorRows {K : Type} (float : Str → Option K) : List Str → Except PyErr (List (MotorRow K))
  | [] => .ok []
  | l :: ls => do
    let r ← motorRow float l
    let rs ← motorRows float ls
    .ok (r :: rs)

/-- Propulsion.py:51-100: the numbers of a motor file -/
def readMotorFile {K : Type} (float : Str → Option K) (text : Str) : Except PyErr (MotorHeader K × List (MotorRow K)) := do
  let lines := motorLines text
  let a ← headerAt float lines 0
  let b ← headerAt float lines 1
  let c ← headerAt float lines 2
  let d ← headerAt float lines 3
  let rows ← motorRows float (lines.drop 4)
  .ok (⟨a, b, c, d⟩, rows)

/-- Propulsion.py:42-43, 51-127: the motor made of a file, and the shut-off time -/
def motorOfFile {K : Type} [Field K] [LinearOrder K] (float : Str → Option K) (text : Str) (stageZ impulseFactor burnFactor : K) :
    Except PyErr (Motor K × K) := do
  let (h, rows) ← readMotorFile float text
  Motor.build h rows stageZ impulseFactor burnFactor

end Mapleaf.Rocket
