import Verif.SimDef.KeysModel

/-! # Model: value access of `SimDefinition` (MAPLEAF/IO/simDefinition.py) and `SubDictReader`
(MAPLEAF/IO/subDictReader.py) -/

namespace Mapleaf.SimDef
open Str

/-- simDefinition.py:152-195: the fields of a `SimDefinition` used by value access. Python sets are lists here
(only membership matters). -/
structure Store where
  dict : Dict Str Str
  defaults : Dict Str Str
  unaccessed : List Str
  defaultsUsed : List Str
deriving DecidableEq, Repr

/-- simDefinition.py:806-810 `_resetUsageTrackers` -/
def resetTrackers (s : Store) : Store := { s with unaccessed := Dict.keys s.dict, defaultsUsed := [] }

/-- simDefinition.py:182-195: state after construction -/
def newStore (dict defaults : Dict Str Str) : Store := resetTrackers ⟨dict, defaults, [], []⟩

def dotClass : Str := ".class".toList

/-- simDefinition.py:751-780: the search loop of `_getClassBasedDefaultValue`; `n` is `splitLevel + 1`. Returns the
value together with the class key and default key that were used. -/
def classLoop (s : Store) (key : Str) : Nat → Option (Str × Str × Str)
  | 0 => none
  | n + 1 =>
    let (pre, suf) := splitKeyAtLevel key n
    let classKey := pre ++ dotClass
    match Dict.get? s.dict classKey with
    | some className =>
      let defKey := className ++ '.' :: suf
      match Dict.get? s.defaults defKey with
      | some v => some (v, classKey, defKey)
      | none => none
    | none => classLoop s key n

/-- simDefinition.py:740-780 `_getClassBasedDefaultValue` -/
def classBased (s : Store) (key : Str) : Option (Str × Str × Str) := classLoop s key (getKeyLevel key + 1).toNat

/-- simDefinition.py:534-561 `getValue`: result and new state -/
def getValue (s : Store) (key0 : Str) : Except PyErr Str × Store :=
  let key := strip key0
  match Dict.get? s.dict key with
  | some v => (.ok v, { s with unaccessed := s.unaccessed.filter (· ≠ key) })
  | none =>
    match Dict.get? s.defaults key with
    | some v => (.ok v, { s with defaultsUsed := setAdd s.defaultsUsed key })
    | none =>
      match classBased s key with
      | some (v, classKey, defKey) =>
        (.ok v, { s with unaccessed := s.unaccessed.filter (· ≠ classKey),
                         defaultsUsed := setAdd s.defaultsUsed defKey })
      | none => (.error .keyError, s)

/-- simDefinition.py:563-568 `setValue` -/
def setValue (s : Store) (key v : Str) : Store := { s with dict := Dict.set s.dict (strip key) v }

/-- simDefinition.py:570-575 `removeKey` (returns the removed value, or `None` with a printed warning) -/
def removeKey (s : Store) (key : Str) : Option Str × Store :=
  match Dict.get? s.dict key with
  | some v => (some v, { s with dict := Dict.erase s.dict key })
  | none => (none, s)

/-- simDefinition.py:577-580 `setIfAbsent` -/
def setIfAbsent (s : Store) (key v : Str) : Store := if !Dict.has s.dict key then setValue s key v else s

/-- simDefinition.py:833-835 `__contains__` -/
def contains (s : Store) (key : Str) : Bool := Dict.has s.dict key

/-- simDefinition.py:783-793 `printUnusedKeys`: the (key, value) pairs reported (unsorted), `KeyError` if one of the
keys is no longer in the dictionary -/
def printUnusedKeys (s : Store) : Except PyErr (List (Str × Str)) :=
  s.unaccessed.foldr (fun k acc => match Dict.get? s.dict k, acc with
    | some v, .ok l => .ok ((k, v) :: l)
    | none, _ => .error .keyError
    | _, .error e => .error e) (.ok [])

/-! ## SubDictReader -/

/-- subDictReader.py:29 and 34: `path + "." + key` -/
def relKey (path key : Str) : Str := path ++ '.' :: key

/-- subDictReader.py:21-36 `getString` -/
def getString (s : Store) (path key : Str) : Except PyErr Str × Store :=
  match getValue s (relKey path key) with
  | (.ok v, s1) => (.ok v, s1)
  | (.error .keyError, s1) =>
    match getValue s1 key with
    | (.ok v, s2) => (.ok v, s2)
    | (.error .keyError, s2) => (.error .keyError, s2)
    | (.error e, s2) => (.error e, s2)
  | (.error e, s1) => (.error e, s1)

/-- subDictReader.py:39-49 `getInt/getFloat/getVector/getBool`: `conv` is the conversion, which raises `ValueError`
on malformed text -/
def getParsed {α : Type} (conv : Str → Except PyErr α) (s : Store) (path key : Str) : Except PyErr α × Store :=
  match getString s path key with
  | (.ok v, s1) => (conv v, s1)
  | (.error e, s1) => (.error e, s1)

/-- subDictReader.py:52-80 `tryGet*`: the default replaces a `KeyError` only -/
def tryGet {α : Type} (conv : Str → Except PyErr α) (s : Store) (path key : Str) (dflt : α) : Except PyErr α × Store :=
  match getParsed conv s path key with
  | (.error .keyError, s1) => (.ok dflt, s1)
  | r => r

/-- subDictReader.py:83-93, 95-105, 107-117: the introspection functions; `list` is the corresponding `SimDefinition`
query (`getImmediateSubDicts`, `getSubKeys`, `getImmediateSubKeys`) -/
def readerList (list : Str → List Str) (path : Str) : Option Str → List Str
  | none => list path
  | some key =>
    let result := list (relKey path key)
    if result.length ≠ 0 then result else list key

/-- subDictReader.py:119-121 `getDictName` -/
def getDictName (path : Str) : Str :=
  (path.reverse.takeWhile (fun c => c ≠ '.')).reverse

end Mapleaf.SimDef
