import Verif.Motion.StateModel
import Verif.Motion.ForceModel

/-! # Model: `==` between the value objects, and their constructors

`CythonVector.pyx`, `CythonQuaternion.pyx`, `CythonAngularVelocity.pyx`, `RigidBodyStates.py`, `inertia.py`,
`forceMomentSystem.py` and `simDefinition.py` each define `__eq__` (or, for the 3-DoF states, do not). Python's `a == b`
calls `a.__eq__(b)`; when that returns `NotImplemented`, `b.__eq__(a)`; when that does too, the answer is whether both are
the same object.

Simplifications: a number is a real; a state list holds one 6-DoF rigid body state followed by numbers; the fields of
states and force systems are vectors and quaternions of the documented classes; a simulation definition is its dictionary
together with its file name. -/

namespace Mapleaf.Motion.Eqv

open Classical

/-- The objects that can stand on either side of `==`. Objects without `__eq__` carry their identity. -/
inductive Obj
  | none
  | num (x : ℝ)
  | text (s : Str)
  /-- CythonVector.pyx:13 -/
  | vec (v : V3 ℝ)
  /-- CythonAngularVelocity.pyx:10, a subclass of `Vector` -/
  | ang (v : V3 ℝ)
  | quat (q : Quat ℝ)
  | state3 (id : ℕ) (pos vel : V3 ℝ)
  | deriv3 (id : ℕ) (vel acc : V3 ℝ)
  | state6 (s : RBState)
  | deriv6 (d : RBDeriv)
  | slist (s : RBState) (rest : List ℝ)
  | inertia (i : Inertia ℝ)
  | force (f : FMS ℝ)
  | simdef (d : Dict Str Str) (file : Str)

/-- CythonVector.pyx:90-94, two vectors -/
noncomputable def vecEq (a b : V3 ℝ) : Bool := decide (a.x = b.x) && decide (a.y = b.y) && decide (a.z = b.z)

/-- CythonQuaternion.pyx:99-100, two quaternions -/
noncomputable def quatEq (a b : Quat ℝ) : Bool :=
  decide (a.q0 = b.q0) && decide (a.q1 = b.q1) && decide (a.q2 = b.q2) && decide (a.q3 = b.q3)

/-- RigidBodyStates.py:141-145: position, velocity, orientation and angular velocity, pairwise -/
noncomputable def stateEq (a b : RBState) : Bool :=
  [vecEq a.pos b.pos, vecEq a.vel b.vel, quatEq a.ori b.ori, vecEq a.angVel b.angVel].all id

/-- RigidBodyStates.py:213-217 -/
noncomputable def derivEq (a b : RBDeriv) : Bool :=
  [vecEq a.vel b.vel, vecEq a.acc b.acc, vecEq a.angVel b.angVel, vecEq a.angAcc b.angAcc].all id

/-- inertia.py:127-136 -/
noncomputable def inertiaEq (a b : Inertia ℝ) : Bool :=
  vecEq a.moi b.moi && vecEq a.about b.about && decide (a.mass = b.mass) && vecEq a.cg b.cg

/-- forceMomentSystem.py:58-59 -/
noncomputable def forceEq (a b : FMS ℝ) : Bool :=
  vecEq a.force b.force && vecEq a.loc b.loc && vecEq a.moment b.moment

/-- Python: `d1 == d2` for dictionaries -/
noncomputable def dictEq (d e : Dict Str Str) : Bool :=
  decide (d.length = e.length) && d.all fun p => decide (Dict.get? e p.1 = some p.2)

/-- RigidBodyStates.py:141-147 `RigidBodyState.__eq__`. A state list answers for the four attribute names with those of
its rigid body state (RigidBodyStates.py:279-285); nothing else has all four, so `AttributeError` is caught. -/
noncomputable def state6Method (a : RBState) : Obj → Bool
  | .state6 b => stateEq a b
  | .slist b _ => stateEq a b
  | _ => false

/-- RigidBodyStates.py:315-319 `StateList.__eq__`: element by element over the shorter of both. Vectors, quaternions and
strings can be iterated over; zipping with anything else raises `TypeError`. -/
noncomputable def slistMethod (a : RBState) (r : List ℝ) : Obj → Bool
  | .slist b r' => (stateEq a b :: List.zipWith (fun x y => decide (x = y)) r r').all id
  | .vec v => (List.zipWith (fun p (_ : ℝ) => p) (state6Method a (.num v.x) :: r.map fun _ => true) [v.x, v.y, v.z]).all id
  | .ang v => (List.zipWith (fun p (_ : ℝ) => p) (state6Method a (.num v.x) :: r.map fun _ => true) [v.x, v.y, v.z]).all id
  | .quat q =>
    (List.zipWith (fun p (_ : ℝ) => p) (state6Method a (.num q.q0) :: r.map fun _ => true) [q.q0, q.q1, q.q2, q.q3]).all id
  | .text s => (List.zipWith (fun p (_ : Char) => p) (state6Method a (.text s) :: r.map fun _ => false) s).all id
  | _ => false

/-- `a.__eq__(b)`; `none` is `NotImplemented` -/
noncomputable def method : Obj → Obj → Except PyErr (Option Bool)
  | .none, .none => .ok (some true)
  | .none, _ => .ok none
  | .num x, .num y => .ok (some (decide (x = y)))
  | .num _, _ => .ok none
  | .text x, .text y => .ok (some (decide (x = y)))
  | .text _, _ => .ok none
  -- CythonVector.pyx:90-94
  | .vec a, .vec b => .ok (some (vecEq a b))
  | .vec a, .ang b => .ok (some (vecEq a b))
  | .vec _, _ => .ok (some false)
  | .ang a, .vec b => .ok (some (vecEq a b))
  | .ang a, .ang b => .ok (some (vecEq a b))
  | .ang _, _ => .ok (some false)
  -- CythonQuaternion.pyx:99-100: reads `q2.Q0` of anything
  | .quat a, .quat b => .ok (some (quatEq a b))
  | .quat _, _ => .error .attributeError
  -- RigidBodyStates.py:12-48, 52-86: no `__eq__`
  | .state3 i _ _, .state3 j _ _ => if i = j then .ok (some true) else .ok none
  | .state3 _ _ _, _ => .ok none
  | .deriv3 i _ _, .deriv3 j _ _ => if i = j then .ok (some true) else .ok none
  | .deriv3 _ _ _, _ => .ok none
  | .state6 a, b => .ok (some (state6Method a b))
  -- RigidBodyStates.py:213-219
  | .deriv6 a, .deriv6 b => .ok (some (derivEq a b))
  | .deriv6 _, _ => .ok (some false)
  | .slist a r, b => .ok (some (slistMethod a r b))
  -- inertia.py:127-139
  | .inertia a, .inertia b => .ok (some (inertiaEq a b))
  | .inertia _, _ => .ok (some false)
  -- forceMomentSystem.py:58-59: reads `force2.force` of anything
  | .force a, .force b => .ok (some (forceEq a b))
  | .force _, _ => .error .attributeError
  -- simDefinition.py:824-831
  | .simdef a _, .simdef b _ => .ok (some (dictEq a b))
  | .simdef _ _, _ => .ok (some false)

/-- `a == b`. Two different objects are left when both methods return `NotImplemented`. -/
noncomputable def pyEq (a b : Obj) : Except PyErr Bool :=
  match method a b with
  | .error e => .error e
  | .ok (some r) => .ok r
  | .ok none =>
    match method b a with
    | .error e => .error e
    | .ok (some r) => .ok r
    | .ok none => .ok false

/-- `a != b`: Python inverts `==` when a class defines no `__ne__` (none of these does) -/
noncomputable def pyNe (a b : Obj) : Except PyErr Bool :=
  match pyEq a b with
  | .error e => .error e
  | .ok r => .ok (!r)

/-! ## Constructors -/

/-- An argument of a constructor -/
inductive Arg
  | none
  | num (x : ℝ)
  | vec (v : V3 ℝ)
  | list (l : List ℝ)

/-- A C double attribute: only a number can be stored -/
def toDouble : Arg → Except PyErr ℝ
  | .num x => .ok x
  | _ => .error .typeError

/-- Python `l[i]` of a list of numbers; vectors can be indexed too (CythonVector.pyx:54-63), numbers cannot -/
def item : Arg → ℕ → Except PyErr ℝ
  | .list l, i => match l[i]? with
    | some x => .ok x
    | Option.none => .error .indexError
  | .vec v, i => if i = 0 then .ok v.x else if i = 1 then .ok v.y else if i = 2 then .ok v.z else .error .indexError
  | _, _ => .error .typeError

/-- CythonQuaternion.pyx:38-64 `Quaternion.__init__(axisOfRotation, angle, components, Q3)` -/
noncomputable def quatInit (a b c d : Arg) : Except PyErr (Quat ℝ) :=
  match d with
  | .none =>
    match a, b with
    | .none, _ | _, .none =>
      match c with
      | .none => .error .valueError
      | c => do
        let q0 ← item c 0
        let q1 ← item c 1
        let q2 ← item c 2
        let q3 ← item c 3
        return ⟨q0, q1, q2, q3⟩
    | .vec axis, .num angle => .ok (Quat.axisAngle axis angle)
    | .vec _, _ => .error .typeError
    | _, _ => .error .attributeError
  | d => do
    let q0 ← toDouble a
    let q1 ← toDouble b
    let q2 ← toDouble c
    let q3 ← toDouble d
    return ⟨q0, q1, q2, q3⟩

/-- `.normalize() * angularVel` then `.X` (CythonAngularVelocity.pyx:33-36): the product with another vector is a number,
which has no `X`; with a list it raises `NotImplementedError` -/
noncomputable def axisRate (axis rate : Arg) : Except PyErr (V3 ℝ) :=
  match axis with
  | .vec a =>
    match rate with
    | .num r => .ok (r • a.normalize)
    | .vec _ => .error .attributeError
    | _ => .error .runtimeError
  | _ => .error .attributeError

/-- CythonAngularVelocity.pyx:16-45 `AngularVelocity.__init__(axisOfRotation, angularVel, rotationVector)`. The `ValueError`
of line 45 is created but not raised: the C attributes keep their initial value 0. -/
noncomputable def angInit (a b c : Arg) : Except PyErr (V3 ℝ) :=
  match a, b, c with
  | .num x, .num y, .num z => .ok ⟨x, y, z⟩
  | a, b, c =>
    match a, b with
    | .none, _ | _, .none =>
      match c with
      | .none => .ok ⟨0, 0, 0⟩
      | .vec v => .ok v
      | _ => .error .attributeError
    | a, b => axisRate a b

/-- RigidBodyStates.py:104-108 `RigidBodyState.__init__`: defaults for arguments left out -/
def stateInit (pos vel : Option (V3 ℝ)) (ori : Option (Quat ℝ)) (w : Option (V3 ℝ)) : RBState :=
  ⟨pos.getD ⟨0, 0, 0⟩, vel.getD ⟨0, 0, 0⟩, ori.getD ⟨1, 0, 0, 0⟩, w.getD ⟨0, 0, 0⟩⟩

/-- forceMomentSystem.py:12-23 `ForceMomentSystem.__init__` -/
def forceInit (f : V3 ℝ) (loc moment : Option (V3 ℝ)) : FMS ℝ := ⟨f, loc.getD ⟨0, 0, 0⟩, moment.getD ⟨0, 0, 0⟩⟩

/-- RigidBodyStates.py:204-211 `RigidBodyStateDerivative.__abs__` -/
noncomputable def derivAbs (d : RBDeriv) : ℝ := (d.angVel.length + d.angAcc.length) * 100

/-! ## Products of the three geometric classes -/

/-- A left operand with its own `__mul__` and any right operand. CythonVector.pyx:96-107, CythonAngularVelocity.pyx:47-67,
CythonQuaternion.pyx:102-119. `NotImplementedError` is a `RuntimeError`. Only the cases in which the left operand's own
method answers are modelled: `Vector * AngularVelocity` (the right operand is of a subclass, Python asks it first) runs the
same comparison of types and raises as well. -/
noncomputable def product : Obj → Obj → Except PyErr Obj
  | .vec a, .vec b => .ok (.num (V3.dot a b))
  | .vec a, .num k => .ok (.vec (k • a))
  | .vec _, _ => .error .runtimeError
  | .ang a, .ang b => .ok (.num (V3.dot a b))
  | .ang a, .num k => .ok (.ang (k • a))
  | .ang a, .quat q => .ok (.quat ((Quat.ofRotationVector a).mul q))
  | .ang _, _ => .error .runtimeError
  | .quat a, .quat b => .ok (.quat (a.mul b))
  | .quat a, .num k => .ok (.quat (a.scale k))
  | .quat a, .ang b => .ok (.quat (a.mul (Quat.ofRotationVector b)))
  | .quat _, _ => .error .runtimeError
  | _, _ => .error .typeError

end Mapleaf.Motion.Eqv
