import Verif.Motion.StateModel
import Verif.Motion.IntegModel

/-!
# Model: integration of rigid-body states and of state lists (MAPLEAF/Motion/Integration.py with the operators of RigidBodyStates.py)

The same code as in `IntegModel`, for states whose operators are given: rigid-body states, where `+` multiplies rotations and a
derivative times a number is a change of state; and state lists, whose `+=` is the one of Python's `list`. The right-hand side
may raise. No rounding. Normalising an orientation in place (`Quaternion.normalize`) is not tracked: all states of a step have
unit orientations once the first one has.
-/

namespace Mapleaf.Motion.Body
open Mapleaf Mapleaf.Motion
open Mapleaf.Motion.RK (Tableau checkTableau classicalTableau adaptiveTableau)

/-- the operators used on states `S` and derivatives `D`; `aug`, `daug` are the augmented assignments `+=` -/
structure Arith (S D : Type) where
  add : S → S → Except PyErr S
  aug : S → S → Except PyErr S
  smul : S → ℝ → Except PyErr S
  neg : S → Except PyErr S
  mag : S → Except PyErr ℝ
  dmul : D → ℝ → Except PyErr S
  ddiv : D → ℝ → Except PyErr D
  dadd : D → D → Except PyErr D
  daug : D → D → Except PyErr D

section step
variable {S D : Type} (A : Arith S D)

open Classical in
/-- `k / (1/w)` -/
noncomputable def divInv (k : D) (w : ℝ) : Except PyErr D :=
  if w = 0 then .error .zeroDivision else A.ddiv k (1 / w)

/-- Integration.py:221-222, 232-233, 438-440: the remaining terms of a sum of derivatives; `plus` is `+` or `+=` -/
noncomputable def accum (plus : D → D → Except PyErr D) (dt : ℝ) : D → List ℝ → List D → Except PyErr D
  | acc, [], _ => .ok acc
  | _, _ :: _, [] => .error .indexError
  | acc, w :: ws, k :: ks =>
    match divInv A k (w * dt) with
    | .error e => .error e
    | .ok x =>
      match plus acc x with
      | .error e => .error e
      | .ok acc' => accum plus dt acc' ws ks

/-- Integration.py:220-222; 231-233, 436-440 with factor 1 -/
noncomputable def combine (plus : D → D → Except PyErr D) (dt : ℝ) (ws : List ℝ) (ks : List D) : Except PyErr D :=
  match ws, ks with
  | w :: ws, k :: ks =>
    match divInv A k (w * dt) with
    | .ok x => accum A plus dt x ws ks
    | .error e => .error e
  | _, _ => .error .indexError

/-- `y + d*s`: a state plus a derivative times a number -/
noncomputable def plus (y : S) (d : D) (s : ℝ) : Except PyErr S :=
  match A.dmul d s with
  | .error e => .error e
  | .ok c => A.add y c

/-- Integration.py:214-225: the derivatives, one per row after the first; `ks` are those known so far, `evals` the points at
which the right-hand side was asked -/
noncomputable def stages (f : ℝ → S → Except PyErr D) (t : ℝ) (y : S) (dt : ℝ) :
    Tableau ℝ → List D → List (ℝ × S) → Except PyErr (List D × List (ℝ × S))
  | [], ks, evals => .ok (ks, evals)
  | row :: rows, ks, evals =>
    match row with
    | [] => .error .indexError
    | c :: as =>
      match combine A A.dadd dt as ks with
      | .error e => .error e
      | .ok evalK =>
        match plus A y evalK 1 with
        | .error e => .error e
        | .ok evalY =>
          match f (t + dt * c) evalY with
          | .error e => .error e
          | .ok k => stages f t y dt rows (ks ++ [k]) (evals ++ [(t + dt * c, evalY)])

/-- what a step returns: new state, derivative estimate, and the points asked -/
structure Step (S D : Type) where
  newValue : S
  derivative : D
  evals : List (ℝ × S)

/-- Integration.py:197-236 `_integrateByButcherTableau` -/
noncomputable def rkStep (tab : Tableau ℝ) (f : ℝ → S → Except PyErr D) (t : ℝ) (y : S) (dt : ℝ) : Except PyErr (Step S D) :=
  match f t y with
  | .error e => .error e
  | .ok k0 =>
    match stages A f t y dt tab.dropLast [k0] [(t, y)] with
    | .error e => .error e
    | .ok (ks, evals) =>
      match combine A A.dadd 1 (tab.getLast?.getD []) ks with
      | .error e => .error e
      | .ok d =>
        match plus A y d dt with
        | .error e => .error e
        | .ok y' => .ok ⟨y', d, evals⟩

/-- Integration.py:193-195 `_integrateEuler` -/
noncomputable def eulerStep (f : ℝ → S → Except PyErr D) (t : ℝ) (y : S) (dt : ℝ) : Except PyErr (Step S D) :=
  match f t y with
  | .error e => .error e
  | .ok k =>
    match plus A y k dt with
    | .error e => .error e
    | .ok y' => .ok ⟨y', k, [(t, y)]⟩

/-- Integration.py:147-190 `ClassicalIntegrator(method)(y, t, f, dt)` -/
noncomputable def classicalStep (method : String) (f : ℝ → S → Except PyErr D) (t : ℝ) (y : S) (dt : ℝ) : Except PyErr (Step S D) :=
  match classicalTableau method with
  | .error e => .error e
  | .ok none => eulerStep A f t y dt
  | .ok (some tab) =>
    match checkTableau (tab.map (fun r : List ℚ => r.map (fun q : ℚ => (q : ℝ)))) with
    | .error e => .error e
    | .ok tab' => rkStep A tab' f t y dt

/-! ### Adaptive methods -/

/-- Integration.py:425-426: `evalK += k[a-1] * tab[i][a]`, where `evalK` is a change of state already -/
noncomputable def changeGo : S → List ℝ → List D → Except PyErr S
  | acc, [], _ => .ok acc
  | _, _ :: _, [] => .error .indexError
  | acc, w :: ws, k :: ks =>
    match A.dmul k w with
    | .error e => .error e
    | .ok c =>
      match A.aug acc c with
      | .error e => .error e
      | .ok acc' => changeGo acc' ws ks

/-- Integration.py:424-426: `k[0]*a1 + k[1]*a2 + …`, a change of state -/
noncomputable def change (ws : List ℝ) (ks : List D) : Except PyErr S :=
  match ws, ks with
  | w :: ws, k :: ks =>
    match A.dmul k w with
    | .error e => .error e
    | .ok c => changeGo A c ws ks
  | _, _ => .error .indexError

/-- Integration.py:424-427: the state of a stage, `y + (k[0]*a1 + …)*dt` -/
noncomputable def stageState (y : S) (dt : ℝ) (ws : List ℝ) (ks : List D) : Except PyErr S :=
  match change A ws ks with
  | .error e => .error e
  | .ok c =>
    match A.smul c dt with
    | .error e => .error e
    | .ok c' => A.add y c'

/-- Integration.py:419-429 -/
noncomputable def stagesA (f : ℝ → S → Except PyErr D) (t : ℝ) (y : S) (dt : ℝ) :
    Tableau ℝ → List D → List (ℝ × S) → Except PyErr (List D × List (ℝ × S))
  | [], ks, evals => .ok (ks, evals)
  | row :: rows, ks, evals =>
    match row with
    | [] => .error .indexError
    | c :: as =>
      match stageState A y dt as ks with
      | .error e => .error e
      | .ok evalY =>
        match f (t + dt * c) evalY with
        | .error e => .error e
        | .ok k => stagesA f t y dt rows (ks ++ [k]) (evals ++ [(t + dt * c, evalY)])

/-- what one attempt of an adaptive step returns -/
structure Attempt (S D : Type) where
  newValue : S
  derivative : D
  error : ℝ
  last : D
  evals : List (ℝ × S)

/-- Integration.py:436-449: predictions, error estimate and result, from the derivatives (the two sums are formed in turns; which
of two errors is raised first is not tracked) -/
noncomputable def finish (tab : Tableau ℝ) (y : S) (dt : ℝ) (ks : List D) (last : D) (evals : List (ℝ × S)) :
    Except PyErr (Attempt S D) :=
  match combine A A.daug 1 (tab.dropLast.getLast?.getD []) ks, combine A A.daug 1 (tab.getLast?.getD []) ks with
  | .ok fine, .ok coarse =>
    match plus A y fine dt, plus A y coarse dt with
    | .ok finePred, .ok coarsePred =>
      match A.neg coarsePred with
      | .error e => .error e
      | .ok n =>
        match A.add n finePred with
        | .error e => .error e
        | .ok diff =>
          match A.mag diff with
          | .error e => .error e
          | .ok err => .ok ⟨finePred, fine, err, last, evals⟩
    | .error e, _ => .error e
    | _, .error e => .error e
  | .error e, _ => .error e
  | _, .error e => .error e

/-- Integration.py:413-417: the first derivative and the points asked for it -/
noncomputable def firstK (cache : Option D) (f : ℝ → S → Except PyErr D) (t : ℝ) (y : S) : Except PyErr (D × List (ℝ × S)) :=
  match cache with
  | some k => .ok (k, [])
  | none =>
    match f t y with
    | .error e => .error e
    | .ok k => .ok (k, [(t, y)])

/-- Integration.py:392-449 `_integrate`; `cache` is the reused derivative -/
noncomputable def attempt (tab : Tableau ℝ) (cache : Option D) (f : ℝ → S → Except PyErr D) (t : ℝ) (y : S) (dt : ℝ) :
    Except PyErr (Attempt S D) :=
  match firstK cache f t y with
  | .error e => .error e
  | .ok (k0, ev) =>
    match stagesA A f t y dt tab.dropLast.dropLast [k0] ev with
    | .error e => .error e
    | .ok (ks, evals) => finish A tab y dt ks (ks.getLastD k0) evals

end step

/-! ## Rigid-body states -/

/-- the operators of `RigidBodyState` and `RigidBodyStateDerivative` (RigidBodyStates.py:110-212); neither class defines `__iadd__`,
so `+=` is `+` -/
noncomputable def bodyArith : Arith RBState RBDeriv where
  add := RBState.add
  aug := RBState.add
  smul := RBState.mul
  neg s := .ok s.neg
  mag := RBState.abs
  dmul := RBDeriv.mul
  ddiv := RBDeriv.div
  dadd a b := .ok (a.add b)
  daug a b := .ok (a.add b)

/-- RigidBodies.py:88-115: the right-hand side of a 6-DoF body from its force, moment and inertia functions (the inertia is asked
for at `time` and at `time + 1e-8`) -/
noncomputable def bodyRhs (force moment : ℝ → RBState → V3 ℝ) (inertia : ℝ → RBState → MassProps) (t : ℝ) (s : RBState) :
    Except PyErr RBDeriv :=
  rigidBodyDerivative s (force t s) (moment t s) (inertia t s) (inertia (t + 1e-8) s)

/-! ## State lists -/

section lists
variable {S D : Type} (A : Arith S D)

/-- `[ f(x) for x in self ]` -/
def mapE {X Y : Type} (f : X → Except PyErr Y) : List X → Except PyErr (List Y)
  | [] => .ok []
  | x :: xs =>
    match f x with
    | .error e => .error e
    | .ok y =>
      match mapE f xs with
      | .error e => .error e
      | .ok ys => .ok (y :: ys)

/-- `[ f(x, y) for x, y in zip(self, other) ]` -/
def zipE {X : Type} (f : X → X → Except PyErr X) : List X → List X → Except PyErr (List X)
  | x :: xs, y :: ys =>
    match f x y with
    | .error e => .error e
    | .ok z =>
      match zipE f xs ys with
      | .error e => .error e
      | .ok zs => .ok (z :: zs)
  | _, _ => .ok []

/-- `sum([ abs(x) for x in self ])` -/
noncomputable def sumE (xs : Except PyErr (List ℝ)) : Except PyErr ℝ :=
  match xs with
  | .error e => .error e
  | .ok l => .ok l.sum

/-- the operators of `StateList` (RigidBodyStates.py:299-324), given those of the items. The class derives from `list` and does not
define `__iadd__`: `a += b` is `list.__iadd__`, which appends the items of `b` to `a`. (The table of names is left out.) -/
noncomputable def listArith : Arith (List S) (List D) where
  add := zipE A.add
  aug a b := .ok (a ++ b)
  smul a s := mapE (fun x => A.smul x s) a
  neg := mapE A.neg
  mag a := sumE (mapE A.mag a)
  dmul a s := mapE (fun x => A.dmul x s) a
  ddiv a s := mapE (fun x => A.ddiv x s) a
  dadd := zipE A.dadd
  daug a b := .ok (a ++ b)

end lists

/-- an item of the state of a rocket: its rigid-body state, or a value (number or vector) of a component -/
inductive Val (E : Type)
  | body (s : RBState)
  | lin (x : E)

/-- an item of a derivative -/
inductive DVal (E : Type)
  | body (d : RBDeriv)
  | lin (x : E)

section items
variable {E : Type} [AddCommGroup E] [Module ℝ E] (size : E → ℝ)

/-- `+` of two items: `RigidBodyState.__add__` of a number is an `AttributeError`, the sum of a number and a rigid-body state a
`TypeError` -/
noncomputable def Val.add : Val E → Val E → Except PyErr (Val E)
  | .body a, .body b => match a.add b with
    | .error e => .error e
    | .ok c => .ok (.body c)
  | .lin a, .lin b => .ok (.lin (a + b))
  | .body _, .lin _ => .error .attributeError
  | .lin _, .body _ => .error .typeError

noncomputable def Val.smul : Val E → ℝ → Except PyErr (Val E)
  | .body a, s => match a.mul s with
    | .error e => .error e
    | .ok c => .ok (.body c)
  | .lin a, s => .ok (.lin (s • a))

noncomputable def Val.neg : Val E → Except PyErr (Val E)
  | .body a => .ok (.body a.neg)
  | .lin a => .ok (.lin (-a))

noncomputable def Val.mag : Val E → Except PyErr ℝ
  | .body a => a.abs
  | .lin a => .ok (size a)

noncomputable def DVal.mul : DVal E → ℝ → Except PyErr (Val E)
  | .body d, s => match d.mul s with
    | .error e => .error e
    | .ok c => .ok (.body c)
  | .lin a, s => .ok (.lin (s • a))

open Classical in
noncomputable def DVal.div : DVal E → ℝ → Except PyErr (DVal E)
  | .body d, s => match d.div s with
    | .error e => .error e
    | .ok c => .ok (.body c)
  | .lin a, s => if s = 0 then .error .zeroDivision else .ok (.lin ((1 / s) • a))

noncomputable def DVal.add : DVal E → DVal E → Except PyErr (DVal E)
  | .body a, .body b => .ok (.body (a.add b))
  | .lin a, .lin b => .ok (.lin (a + b))
  | .body _, .lin _ => .error .attributeError
  | .lin _, .body _ => .error .typeError

/-- the operators of the items of a rocket's state list; `size` is `abs` of a component's value -/
noncomputable def itemArith : Arith (Val E) (DVal E) where
  add := Val.add
  aug := Val.add
  smul := Val.smul
  neg := Val.neg
  mag := Val.mag size
  dmul := DVal.mul
  ddiv := DVal.div
  dadd := DVal.add
  daug := DVal.add

/-- RigidBodies.py:117-152: the operators of the state of a rocket with components that have state variables -/
noncomputable def rocketArith : Arith (List (Val E)) (List (DVal E)) := listArith (itemArith size)

/-- RigidBodies.py:136-137 `getStateDerivative`: one right-hand side per item -/
def listRhs {S D : Type} (fs : List (ℝ → List S → Except PyErr D)) (t : ℝ) (y : List S) : Except PyErr (List D) :=
  mapE (fun f => f t y) fs

end items

end Mapleaf.Motion.Body
