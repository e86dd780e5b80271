import Verif.Log.LogModel

/-! # Model: `Log.expandIterableColumns` (MAPLEAF/IO/CythonLog.pyx:127-162) -/

namespace Mapleaf.LogM
open Str

/-- Logged values as far as `expandIterableColumns` distinguishes them: text, `Vector`s, other sequences with a
length (quaternions, angular velocities, lists), and things that cannot be iterated. -/
inductive Val (K : Type)
  | num (x : K)
  | text (s : Str)
  | vec (x y z : K)
  | seq (xs : List K)
deriving DecidableEq, Repr

variable {K : Type}

/-- CythonLog.pyx:159: `x[i]`. Text is indexed too, giving a one-letter text. -/
def Val.index (i : Nat) : Val K → Except PyErr (Val K)
  | .num _ => .error .typeError
  | .text s => match s[i]? with
    | some c => .ok (.text [c])
    | none => .error .indexError
  | .vec x y z => match [x, y, z][i]? with
    | some v => .ok (.num v)
    | none => .error .indexError
  | .seq xs => match xs[i]? with
    | some v => .ok (.num v)
    | none => .error .indexError

/-- CythonLog.pyx:135-150: the suffixes for a column whose first value is given; `none`: leave the column alone -/
def suffixes : Val K → Option (List Str)
  | .vec _ _ _ => some ["X".toList, "Y".toList, "Z".toList]
  | .text _ => none
  | .seq xs => some ((List.range xs.length).map (fun n => (Nat.repr n).toList))
  | .num _ => none

/-- CythonLog.pyx:154-157: the new column name -/
def expandedName (column suffix : Str) : Str :=
  if isIn ['('] column then replace column ['('] (suffix ++ ['(']) else column ++ suffix

/-- CythonLog.pyx:159: `[ x[i] for x in … ]` -/
def indexAll (i : Nat) : List (Val K) → Except PyErr (List (Val K))
  | [] => .ok []
  | x :: xs => match x.index i, indexAll i xs with
    | .ok v, .ok vs => .ok (v :: vs)
    | .error e, _ => .error e
    | _, .error e => .error e

/-- CythonLog.pyx:153-159: `for i in range(3)` -/
def expandLoop (column : Name) (sfx : List Str) : List Nat → Dict Name (List (Val K)) →
    Except PyErr (Dict Name (List (Val K)))
  | [], d => .ok d
  | i :: is, d =>
    match sfx[i]?, Dict.get? d column with
    | some s, some vals => match indexAll i vals with
      | .ok vs => expandLoop column sfx is (Dict.set d (expandedName column s) vs)
      | .error e => .error e
    | none, _ => .error .indexError
    | _, none => .error .keyError

/-- CythonLog.pyx:131-162: one column -/
def expandColumn (column : Name) (d : Dict Name (List (Val K))) : Except PyErr (Dict Name (List (Val K))) :=
  match Dict.get? d column with
  | none => .error .keyError
  | some [] => .ok d
  | some (x :: _) => match suffixes x with
    | none => .ok d
    | some sfx => match expandLoop column sfx [0, 1, 2] d with
      | .ok d' => .ok (Dict.erase d' column)
      | .error e => .error e

def expandColumns : List Name → Dict Name (List (Val K)) → Except PyErr (Dict Name (List (Val K)))
  | [], d => .ok d
  | c :: cs, d => match expandColumn c d with
    | .ok d' => expandColumns cs d'
    | .error e => .error e

/-- CythonLog.pyx:127-162 `expandIterableColumns` (the time column holds numbers and is never expanded) -/
def expandIterableColumns (d : Dict Name (List (Val K))) : Except PyErr (Dict Name (List (Val K))) :=
  expandColumns (Dict.keys d) d

end Mapleaf.LogM
