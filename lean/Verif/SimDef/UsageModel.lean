import Verif.SimDef.StoreModel
import Verif.SimDef.ParserModel

/-! # Model: the usage reports of `SimDefinition` (MAPLEAF/IO/simDefinition.py:782-822)

What is printed is a list of printed texts, one per call of `print`. If the look-up of a value fails part-way, the lines already printed are
not kept. -/

namespace Mapleaf.SimDef.Report
open Str

/-- simDefinition.py:792, 803: `"{:<45}{}".format(key+":", value)` -/
def column (key value : Str) : Str := (key ++ [':']) ++ List.replicate (45 - (key ++ [':']).length) ' ' ++ value

/-- simDefinition.py:790, 801: `sorted(...)` of a set of keys -/
def sortedKeys (ks : List Str) : List Str := ks.insertionSort (fun a b => strLe a b = true)

/-- simDefinition.py:790-792, 801-803: the loop over the keys -/
def rows (d : Dict Str Str) : List Str → Except PyErr (List Str)
  | [] => .ok []
  | k :: ks =>
    match Dict.get? d k with
    | none => .error .keyError
    | some v =>
      match rows d ks with
      | .error e => .error e
      | .ok ls => .ok (column k v :: ls)

/-- simDefinition.py:783-793 `printUnusedKeys`: the texts printed -/
def unusedText (fileName : Str) (s : Store) : Except PyErr (List Str) :=
  if 0 < s.unaccessed.length then
    match rows s.dict (sortedKeys s.unaccessed) with
    | .error e => .error e
    | .ok ls => .ok (("\nWarning: The following keys were loaded from: ".toList ++ fileName ++ " but never accessed:".toList) :: ls ++ [[]])
  else .ok []

/-- simDefinition.py:795-804 `printDefaultValuesUsed`: the texts printed -/
def defaultsText (s : Store) : Except PyErr (List Str) :=
  if 0 < s.defaultsUsed.length then
    match rows s.defaults (sortedKeys s.defaultsUsed) with
    | .error e => .error e
    | .ok ls => .ok ("\nWarning: The following default values were used in this simulation:".toList :: ls ++
        ["\nIf this was not intended, override the default values by adding the above information to your simulation definition file.\n".toList])
  else .ok []

/-- simDefinition.py:813-822 `__str__` -/
def toStr (fileName : Str) (s : Store) : Str :=
  "File: ".toList ++ fileName ++ ['\n'] ++ s.dict.flatMap (fun kv => kv.1 ++ ": ".toList ++ kv.2 ++ ['\n']) ++ ['\n']

end Mapleaf.SimDef.Report
