import Verif.Base.Dict
import Verif.Base.Str

/-! # Model: `StateList` (MAPLEAF/Motion/RigidBodyStates.py:225-324)

A heap of state lists. Each list holds its values and a reference to a name table; lists made by arithmetic refer to the
name table of the left operand, as in the code. Values are of any type `V`; what a value offers as attributes (the first
item is the rigid body state) is given by `attrs`, `getA`, `setA`. Simplification: attribute assignment on the first item
replaces the item (in Python the object is updated in place). -/

namespace Mapleaf.Motion.SL

/-- attribute access of the values stored in the list -/
structure Attrs (V : Type) where
  names : V → List Str
  get : V → Str → V
  set : V → Str → V → V

/-- Names found by normal attribute lookup, for which `__getattr__` is not called: methods of Python's `list`, methods of
`StateList` (RigidBodyStates.py:225-353) and the attribute `nameToIndexMap`. Names starting with a double underscore are
left out. -/
def builtinNames : List Str :=
  ["append", "clear", "copy", "count", "extend", "index", "insert", "pop", "remove", "reverse", "sort",
   "addStateVariable", "getLogHeader", "nameToIndexMap"].map String.toList

structure Heap (V : Type) where
  maps : List (Dict Str Nat)
  objs : List (List V × Nat)

/-- what reading an attribute gives -/
inductive Got (V : Type)
  | value (v : V)
  | builtin
  deriving DecidableEq

variable {V : Type}

/-- RigidBodyStates.py:240-273 `StateList(values)` -/
def create (h : Heap V) (items : List V) : Heap V :=
  ⟨h.maps ++ [[]], h.objs ++ [(items, h.maps.length)]⟩

/-- RigidBodyStates.py:266: `{ variableNames[i]:i for i in range(len(variableNames)) }` -/
def nameMap : List (Option Str) → Nat → Dict (Option Str) Nat → Dict (Option Str) Nat
  | [], _, d => d
  | n :: ns, i, d => nameMap ns (i + 1) (Dict.set d n i)

/-- The entries reachable by attribute access: those whose key is a string. -/
def stringKeys (d : Dict (Option Str) Nat) : Dict Str Nat :=
  d.filterMap (fun p => p.1.map (fun n => (n, p.2)))

def forbidden : List Str := ["position", "velocity", "orientation", "angularVelocity"].map String.toList

/-- RigidBodyStates.py:258-270 `StateList(values, names)` (unnamed variables: `None`) -/
def createNamed (h : Heap V) (items : List V) (names : List (Option Str)) : Except PyErr (Heap V) :=
  if names.length = items.length then
    if forbidden.any (fun f => decide (some f ∈ names)) then .error .valueError
    else
      let d := nameMap names 0 []
      if names.length = d.length then .ok ⟨h.maps ++ [stringKeys d], h.objs ++ [(items, h.maps.length)]⟩
      else .error .valueError
  else .error .valueError

/-- RigidBodyStates.py:294-296 `addStateVariable` -/
def addVar (h : Heap V) (o : Nat) (name : Str) (v : V) : Option (Heap V) :=
  match h.objs[o]? with
  | none => none
  | some (items, m) =>
    match h.maps[m]? with
    | none => none
    | some d => some ⟨h.maps.set m (Dict.set d name items.length), h.objs.set o (items ++ [v], m)⟩

/-- RigidBodyStates.py:299-303 `__add__`, `__sub__` -/
def zipped (f : V → V → V) (h : Heap V) (o o' : Nat) : Option (Heap V) :=
  match h.objs[o]?, h.objs[o']? with
  | some (a, m), some (b, _) => some ⟨h.maps, h.objs ++ [(List.zipWith f a b, m)]⟩
  | _, _ => none

/-- RigidBodyStates.py:305-312, 323-324 `__mul__`, `__truediv__`, `__rmul__`, `__neg__` -/
def mapped (f : V → V) (h : Heap V) (o : Nat) : Option (Heap V) :=
  match h.objs[o]? with
  | some (a, m) => some ⟨h.maps, h.objs ++ [(a.map f, m)]⟩
  | none => none

/-- RigidBodyStates.py:275-281 reading attribute `name`: normal lookup first, then `__getattr__` -/
def readVar (A : Attrs V) (h : Heap V) (o : Nat) (name : Str) : Except PyErr (Got V) :=
  match h.objs[o]? with
  | none => .error .attributeError
  | some (items, m) =>
    if name ∈ builtinNames then .ok .builtin
    else
      match Dict.get? (h.maps[m]?.getD []) name with
      | some i => match items[i]? with
        | some v => .ok (.value v)
        | none => .error .indexError
      | none => match items[0]? with
        | some b => if name ∈ A.names b then .ok (.value (A.get b name)) else .error .attributeError
        | none => .error .indexError

/-- RigidBodyStates.py:283-292 `__setattr__` (names other than `nameToIndexMap`) -/
def assignVar (A : Attrs V) (h : Heap V) (o : Nat) (name : Str) (v : V) : Except PyErr (Heap V) :=
  match h.objs[o]? with
  | none => .error .attributeError
  | some (items, m) =>
    match Dict.get? (h.maps[m]?.getD []) name with
    | some i => if i < items.length then .ok ⟨h.maps, h.objs.set o (items.set i v, m)⟩ else .error .indexError
    | none => match items[0]? with
      | some b => if name ∈ A.names b then .ok ⟨h.maps, h.objs.set o (items.set 0 (A.set b name v), m)⟩ else .ok h
      | none => .error .indexError

/-- RigidBodyStates.py:317-321 `__eq__` -/
def listEq [DecidableEq V] (a b : List V) : Bool := (List.zipWith (fun x y => decide (x = y)) a b).all id

/-- RigidBodyStates.py:314-315 `__abs__`: sum of the absolute values -/
def absSum {K : Type} [Add K] [Zero K] (absV : V → K) (a : List V) : K := (a.map absV).foldl (· + ·) 0

/-- One operation of a history. -/
inductive Op (V : Type)
  | create (items : List V)
  | createNamed (items : List V) (names : List (Option Str))
  | addVar (o : Nat) (name : Str) (v : V)
  | zipped (f : V → V → V) (o o' : Nat)
  | mapped (f : V → V) (o : Nat)
  | assign (o : Nat) (name : Str) (v : V)

def Op.run (A : Attrs V) (h : Heap V) : Op V → Except PyErr (Heap V)
  | .create items => .ok (SL.create h items)
  | .createNamed items names => SL.createNamed h items names
  | .addVar o n v => (SL.addVar h o n v).elim (.error .attributeError) .ok
  | .zipped f o o' => (SL.zipped f h o o').elim (.error .attributeError) .ok
  | .mapped f o => (SL.mapped f h o).elim (.error .attributeError) .ok
  | .assign o n v => SL.assignVar A h o n v

def runAll (A : Attrs V) : Heap V → List (Op V) → Except PyErr (Heap V)
  | h, [] => .ok h
  | h, op :: ops => match op.run A h with
    | .ok h' => runAll A h' ops
    | .error e => .error e

end Mapleaf.Motion.SL
