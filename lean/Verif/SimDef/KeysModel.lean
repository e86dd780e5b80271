import Verif.Base.Dict
import Verif.Base.Str

/-! # Model: string keys and listing queries of `SimDefinition` (MAPLEAF/IO/simDefinition.py) -/

namespace Mapleaf.SimDef
open Str

/-- simDefinition.py:838-858 `isSubKey` -/
def isSubKey (parent child : Str) : Bool :=
  if parent = [] then true
  else if child.length ≤ parent.length then false
  else if child.take parent.length = parent ∧ child[parent.length]? = some '.' then true
  else false

/-- simDefinition.py:860-870 `getKeyLevel` -/
def getKeyLevel (key : Str) : Int :=
  if key.length = 0 then -1 else (splitC '.' key).length - 1

/-- simDefinition.py:872-882 `getParentKeyAtLevel`. All callers pass a level `≥ 0`; the slice end
`desiredLevel+1` is modelled by `Int.toNat` (Python's negative slice ends are not modelled). -/
def getParentKeyAtLevel (key : Str) (desiredLevel : Int) : Str :=
  join ['.'] ((splitC '.' key).take (desiredLevel + 1).toNat)

/-- simDefinition.py:898-913 `splitKeyAtLevel` (levels `≥ -1`, as above) -/
def splitKeyAtLevel (key : Str) (prefixLevel : Int) : Str × Str :=
  let n := (prefixLevel + 1).toNat
  let keyNames := splitC '.' key
  (join ['.'] (keyNames.take n), join ['.'] (keyNames.drop n))

/-- simDefinition.py:884-896 `getImmediateSubKey` -/
def getImmediateSubKey (parent child : Str) : Except PyErr Str :=
  if !isSubKey parent child then .error .valueError
  else .ok (splitKeyAtLevel child (getKeyLevel parent + 1)).1

/-- simDefinition.py:675-691 `getSubKeys` -/
def getSubKeys (D : Dict Str Str) (key : Str) : List Str :=
  (Dict.keys D).filter (fun k => isSubKey key k)

/-- Python `set.add` on a set represented by a duplicate-free list. The order of Python's `list(set)` is
arbitrary; theorems only speak about membership and absence of duplicates. -/
def setAdd (s : List Str) (x : Str) : List Str := if x ∈ s then s else s ++ [x]

/-- simDefinition.py:693-714 `getImmediateSubKeys` -/
def getImmediateSubKeys (D : Dict Str Str) (key : Str) : List Str :=
  (Dict.keys D).foldl (fun results potentialChildKey =>
    if isSubKey key potentialChildKey then
      match getImmediateSubKey key potentialChildKey with
      | .ok immediateSubkey => if Dict.has D immediateSubkey then setAdd results immediateSubkey else results
      | .error _ => results     -- unreachable: guarded by `isSubKey`
    else results) []

/-- simDefinition.py:716-738 `getImmediateSubDicts` -/
def getImmediateSubDicts (D : Dict Str Str) (key : Str) : List Str :=
  let keyLevel := getKeyLevel key
  (getSubKeys D key).foldl (fun subDictionaries subKey =>
    if getKeyLevel subKey - keyLevel > 1 then
      setAdd subDictionaries (getParentKeyAtLevel subKey (keyLevel + 1))
    else subDictionaries) []

/-- simDefinition.py:648-673 `findKeysContaining` (argument already a list; `None` when nothing matches) -/
def findKeysContaining (D : Dict Str Str) (keyContains : List Str) : Option (List Str) :=
  let matchingKeys := (Dict.keys D).filter (fun k => keyContains.all (fun s => isIn s k))
  if matchingKeys.length > 0 then some matchingKeys else none

end Mapleaf.SimDef
