import Verif.Motion.StateModel
import Verif.Motion.StateListModel
import Verif.Motion.IntegModel

/-!
# Model: bodies that are integrated (MAPLEAF/Motion/RigidBodies.py, the 3-DoF states of RigidBodyStates.py, the choice of integrator in
Integration.py:56-102, the switches between bodies in Rocket/rocket.py:363-406, 700-725)
-/

namespace Mapleaf.Motion.Stepper
open Mapleaf Mapleaf.Motion

/-! ## 3-DoF states -/

/-- RigidBodyStates.py:53-56 `RigidBodyStateDerivative_3DoF` -/
structure RBDeriv3 where
  vel : V3 ℝ
  acc : V3 ℝ

/-- RigidBodyStates.py:25-30 `__add__` -/
noncomputable def add3 (a b : RBState3) : RBState3 := ⟨a.pos + b.pos, a.vel + b.vel⟩

/-- RigidBodyStates.py:32-38 `__mul__` -/
noncomputable def mul3 (a : RBState3) (s : ℝ) : RBState3 := ⟨s • a.pos, s • a.vel⟩

/-- RigidBodyStates.py:50-51 `__neg__` -/
noncomputable def neg3 (a : RBState3) : RBState3 := mul3 a (-1)

/-- RigidBodyStates.py:40-44 `__abs__` -/
noncomputable def abs3 (a : RBState3) : ℝ := a.pos.length + a.vel.length

/-- RigidBodyStates.py:58-63 `__add__` of derivatives -/
noncomputable def dAdd3 (a b : RBDeriv3) : RBDeriv3 := ⟨a.vel + b.vel, a.acc + b.acc⟩

/-- RigidBodyStates.py:65-72, 87-88 `__mul__`, `__rmul__`: a derivative times a time is a change of state -/
noncomputable def dMul3 (a : RBDeriv3) (dt : ℝ) : RBState3 := ⟨dt • a.vel, dt • a.acc⟩

open Classical in
/-- RigidBodyStates.py:74-84 `__truediv__` -/
noncomputable def dDiv3 (a : RBDeriv3) (s : ℝ) : Except PyErr RBDeriv3 :=
  if s = 0 then .error .zeroDivision else .ok ⟨(1 / s) • a.vel, (1 / s) • a.acc⟩

/-- the right-hand side of a 3-DoF body of mass `mass` (RigidBodies.py:41-47) as a function of pairs (position, velocity) -/
noncomputable def fall (force : ℝ → V3 ℝ × V3 ℝ → V3 ℝ) (mass : ℝ → V3 ℝ × V3 ℝ → ℝ) (t : ℝ) (s : V3 ℝ × V3 ℝ) : V3 ℝ × V3 ℝ :=
  (s.2, (1 / mass t s) • force t s)

/-! ## Stepping -/

/-- what an integrator returns (Integration.py:125-142) -/
structure Result (S D : Type) where
  newValue : S
  dt : ℝ
  derivative : D

/-- RigidBodies.py:30-39, 83-86, 122-126: the changing part of a body -/
structure Stepped (S D : Type) where
  time : ℝ
  state : S
  last : D

/-- RigidBodies.py:49-62, 139-152 `timeStep`; `integrate` is the integrator applied to the body's right-hand side. (The attribute
`estimatedDerivative` set on the state is read nowhere.) -/
noncomputable def timeStep {S D : Type} (integrate : S → ℝ → ℝ → Except PyErr (Result S D)) (b : Stepped S D) (deltaT : ℝ) :
    Except PyErr (Result S D × Stepped S D) :=
  match integrate b.state b.time deltaT with
  | .error e => .error e
  | .ok r => .ok (r, ⟨b.time + r.dt, r.newValue, r.derivative⟩)

/-- steps of the given sizes -/
noncomputable def timeSteps {S D : Type} (integrate : S → ℝ → ℝ → Except PyErr (Result S D)) :
    Stepped S D → List ℝ → Except PyErr (List (Result S D) × Stepped S D)
  | b, [] => .ok ([], b)
  | b, dt :: dts =>
    match timeStep integrate b dt with
    | .error e => .error e
    | .ok (r, b') =>
      match timeSteps integrate b' dts with
      | .error e => .error e
      | .ok (rs, b'') => .ok (r :: rs, b'')

/-- Integration.py:145-195: a fixed-step integrator for the right-hand side `f` -/
noncomputable def fixedStep {S : Type} [AddCommGroup S] [Module ℝ S] (method : String) (f : ℝ → S → S) (s : S) (t dt : ℝ) :
    Except PyErr (Result S S) :=
  match RK.classicalStep method f t s dt with
  | .error e => .error e
  | .ok r => .ok ⟨r.newValue, dt, r.derivative⟩

/-! ## Choice of the integrator -/

/-- what the factory makes -/
inductive Chosen
  | classical (method : Str)
  | elementary (method : Str) (safety : Str)
  | pid (method : Str) (coefficients : List Str)
  deriving DecidableEq

/-- Integration.py:56-102 `integratorFactory`; `get` reads a text below `SimControl.TimeStepAdaptation`, `none` when there is no
definition. The limits (lines 78-82) are the same for both controllers and left out. An unknown controller leaves the
variables of lines 71-76 undefined: `UnboundLocalError`, modelled as `runtimeError`. -/
def integratorFactory (method : Str) (get : Option (Str → Except PyErr Str)) : Except PyErr Chosen :=
  if Str.isIn "Adapt".toList method then
    match get with
    | none => .error .valueError
    | some get => do
      let controller ← get "controller".toList
      if controller = "PID".toList then
        let c ← get "PID.coefficients".toList
        .ok (.pid method (Str.wsSplit c))
      else if controller = "elementary".toList then
        let s ← get "Elementary.safetyFactor".toList
        .ok (.elementary method s)
      else .error .runtimeError
  else .ok (.classical method)

/-! ## Bodies with further variables -/

/-- a state list with the names of its variables (heap aside, see `StateListModel`) -/
structure Vars (V : Type) where
  items : List V
  names : Dict Str Nat

/-- a body with further variables: state and right-hand sides (RigidBodies.py:117-137) -/
structure Stateful (V F : Type) where
  state : Vars V
  funcs : List F

/-- RigidBodies.py:122-126 `StatefulRigidBody(…)` -/
def stateful {V F : Type} (rigid : V) (rigidFunc : F) : Stateful V F := ⟨⟨[rigid], []⟩, [rigidFunc]⟩

/-- RigidBodies.py:128-134, RigidBodyStates.py:294-296 `addStateVariable` -/
def Stateful.addVar {V F : Type} (b : Stateful V F) (name : Str) (v : V) (f : F) : Stateful V F :=
  ⟨⟨b.state.items ++ [v], Dict.set b.state.names name b.state.items.length⟩, b.funcs ++ [f]⟩

/-- RigidBodies.py:136-137 `getStateDerivative` -/
def Stateful.derivative {V D : Type} (b : Stateful V (ℝ → Vars V → D)) (t : ℝ) : List D := b.funcs.map fun f => f t b.state

/-- RigidBodyStates.py:299-300, 305-306 with Integration.py:193-195: an Euler step of a body with further variables; `advance` is
`x + d*dt` of one item -/
def Stateful.euler {V D : Type} (advance : V → D → ℝ → V) (b : Stateful V (ℝ → Vars V → D)) (t dt : ℝ) :
    Stateful V (ℝ → Vars V → D) :=
  ⟨⟨List.zipWith (fun x d => advance x d dt) b.state.items (b.derivative t), b.state.names⟩, b.funcs⟩

/-- RigidBodyStates.py:275-281 reading a variable by name, for names without meaning for lists and rigid bodies -/
def Vars.read {V : Type} (s : Vars V) (name : Str) : Except PyErr V :=
  match Dict.get? s.names name with
  | some i =>
    match s.items[i]? with
    | some v => .ok v
    | none => .error .indexError
  | none => .error .attributeError

/-- what a component asks to be integrated -/
structure Extra (V F : Type) where
  names : List Str
  values : List V
  funcs : List F

/-- rocket.py:373-383: all components are asked; those that raise `AttributeError` are passed over -/
def collect {V F : Type} : List (Except PyErr (Extra V F)) → Except PyErr (Extra V F)
  | [] => .ok ⟨[], [], []⟩
  | .error .attributeError :: cs => collect cs
  | .error e :: _ => .error e
  | .ok x :: cs =>
    match collect cs with
    | .error e => .error e
    | .ok r => .ok ⟨x.names ++ r.names, x.values ++ r.values, x.funcs ++ r.funcs⟩

/-- rocket.py:404-406: the variables are added one by one -/
def addVars {V F : Type} : Stateful V F → List Str → List V → List F → Stateful V F
  | b, n :: ns, v :: vs, f :: fs => addVars (b.addVar n v f) ns vs fs
  | b, _, _, _ => b

/-- rocket.py:363-406 `_switchToStatefulRigidBodyIfRequired`: `none` when the body stays as it is -/
def switchToStateful {V F : Type} (components : List (Except PyErr (Extra V F))) (rigid : V) (rigidFunc : F) :
    Except PyErr (Option (Stateful V F)) :=
  match collect components with
  | .error e => .error e
  | .ok x =>
    if x.names.length > 0 then
      if x.names.length ≠ x.values.length ∨ x.values.length ≠ x.funcs.length then .error .valueError
      else .ok (some (addVars (stateful rigid rigidFunc) x.names x.values x.funcs))
    else .ok none

/-- rocket.py:408-414 `_precomputeComponentProperties`: the components prepared, in order; `AttributeError`s are passed over, whether
the method is missing or fails -/
def precompute {C : Type} (prepare : C → Except PyErr C) : List C → Except PyErr (List C)
  | [] => .ok []
  | c :: cs =>
    match prepare c with
    | .ok c' =>
      match precompute prepare cs with
      | .ok r => .ok (c' :: r)
      | .error e => .error e
    | .error .attributeError =>
      match precompute prepare cs with
      | .ok r => .ok (c :: r)
      | .error e => .error e
    | .error e => .error e

/-- the body flown with: after rocket.py:700-725 `_switchTo3DoF` it is a 3-DoF body -/
inductive Flown (V F : Type)
  | six (time : ℝ) (state : RBState)
  | extended (time : ℝ) (state : RBState) (vars : Stateful V F)
  | three (time : ℝ) (state : RBState3)

/-- rocket.py:700-725 `_switchTo3DoF` -/
def Flown.switch {V F : Type} : Flown V F → Flown V F
  | .six t s => .three t ⟨s.pos, s.vel⟩
  | .extended t s _ => .three t ⟨s.pos, s.vel⟩
  | .three t s => .three t s

/-- reading a further variable of the state (RigidBodyStates.py:275-281) -/
def Flown.variable {V F : Type} : Flown V F → Str → Except PyErr V
  | .extended _ _ b, n => b.state.read n
  | _, _ => .error .attributeError

/-! ## Log files -/

/-- rocket.py:729-758 `writeLogsToFile`: the paths returned. `level` is the logging level, `written` tells whether a log has rows
(CythonLog.pyx: nothing is written otherwise), `control` the path of the control log if there is one. -/
def logFiles (level : Nat) (directory top : Str) (stateRows forceRows : Bool) (join : Str → Str → Str) (expand : Str → Str)
    (control : Option Str) : List Str :=
  if level > 0 then
    let p1 := join directory (top ++ "_timeStepLog.csv".toList)
    let p2 := join directory (top ++ "_derivativeEvaluationLog.csv".toList)
    (if stateRows then [p1] else []) ++
      (if level > 1 ∧ forceRows = true then p2 :: (if level > 2 then [expand p2] else []) else []) ++
      control.toList
  else []

end Mapleaf.Motion.Stepper
