import Verif.Base.Dict
import Mathlib.Algebra.Order.Field.Basic
import Mathlib.Algebra.Order.Floor.Ring
import Mathlib.Algebra.Order.Round
import Mathlib.Analysis.SpecialFunctions.Exp

/-! # Model of the guidance, navigation and control building blocks

PID controller (MAPLEAF/GNC/PID.py), first-order actuator (MAPLEAF/GNC/Actuators.py) and the scheduling of the control loop
(MAPLEAF/GNC/ControlSystems.py). -/

set_option linter.unusedSectionVars false

namespace Mapleaf.GNC

open Mapleaf

section pid
variable {K : Type} [Field K] [LinearOrder K] [IsStrictOrderedRing K]

/-- MAPLEAF/GNC/PID.py:8-19, scalar valued. Vector valued controllers work element by element: see `vecStep`. -/
structure PID (K : Type) where
  P : K
  I : K
  D : K
  lastError : K
  integral : K
  limit : Option K
deriving DecidableEq

/-- PID.py:10-19 `__init__` -/
def PID.make (P I D initialError : K) (maxIntegral : Option K) : PID K :=
  ⟨P, I, D, initialError, initialError * 0, maxIntegral.map abs⟩

/-- PID.py:34-46: limiting the integral -/
def PID.cap (limit : Option K) (x : K) : K :=
  match limit with
  | none => x
  | some m => if |x| > m then x * m / |x| else x

/-- PID.py:27-51 `getNewSetPoint` -/
def PID.step (c : PID K) (e dt : K) : Except PyErr (K × PID K) :=
  if dt = 0 then .error .zeroDivision
  else
    let derivative := (e - c.lastError) / dt
    let integral := PID.cap c.limit (c.integral + (e + c.lastError) * dt / 2)
    .ok (c.P * e + c.I * integral + c.D * derivative, { c with integral := integral, lastError := e })

/-- PID.py:53-57 `updateCoefficients`; the limit argument defaults to `None` -/
def PID.updateCoefficients (c : PID K) (P I D : K) (maxIntegral : Option K := none) : PID K :=
  { c with P := P, I := I, D := D, limit := maxIntegral.map abs }

/-- PID.py:59-60 `resetIntegral` -/
def PID.resetIntegral (c : PID K) : PID K := { c with integral := c.lastError * 0 }

/-- PID.py:87-89 `ScheduledGainPIDController.updateCoefficientsFromGainTable`, the looked-up gains given -/
def PID.updateFromGainTable (c : PID K) (gains : K × K × K) : PID K := c.updateCoefficients gains.1 gains.2.1 gains.2.2

/-- What a user can do with a controller. -/
inductive PidOp (K : Type)
  | step (e dt : K)
  | gains (P I D : K) (maxIntegral : Option K)
  | reset

/-- One operation; a step returns its output. -/
def PidOp.apply (c : PID K) : PidOp K → Except PyErr (Option K × PID K)
  | .step e dt => match c.step e dt with
    | .ok (u, c') => .ok (some u, c')
    | .error err => .error err
  | .gains P I D m => .ok (none, c.updateCoefficients P I D m)
  | .reset => .ok (none, c.resetIntegral)

/-- A history of operations: the outputs and the final controller. -/
def runPid (c : PID K) : List (PidOp K) → Except PyErr (List (Option K) × PID K)
  | [] => .ok ([], c)
  | o :: os => match o.apply c with
    | .error e => .error e
    | .ok (u, c') => match runPid c' os with
      | .error e => .error e
      | .ok (us, c'') => .ok (u :: us, c'')

/-- PID.py:35-41 and the elementwise numpy arithmetic: a vector valued controller is one scalar controller per element
(MomentControllers.py:34-39, 65-68). -/
def vecStep (cs : List (PID K)) (es : List K) (dt : K) : Except PyErr (List (K × PID K)) :=
  match cs, es with
  | [], [] => .ok []
  | c :: cs, e :: es => match c.step e dt, vecStep cs es dt with
    | .ok r, .ok rs => .ok (r :: rs)
    | .error err, _ => .error err
    | _, .error err => .error err
  | _, _ => .error .valueError

/-- Integration.py:384-389: factor asked for by the PID step-size controller -/
def pidFactor (c : PID K) (target err dt : K) : Except PyErr (K × PID K) :=
  if target = 0 then .error .zeroDivision
  else match c.step (min 1 ((err - target) / target)) dt with
    | .error e => .error e
    | .ok (u, c') => .ok (1 + u, c')

end pid

/-! ## First-order actuator -/

/-- Actuators.py:18-30 `FirstOrderSystem.getPosition`; `1e-17` is `ε` -/
noncomputable def getPosition (τ currentTime lastTime lastPosition lastTarget : ℝ) : Except PyErr ℝ := by
  classical
  exact
    let dt := currentTime - lastTime
    if dt < -(1 / 10 ^ 17) then .error .valueError
    else
      let dt := if dt < 0 then 0 else dt
      if τ = 0 then .error .zeroDivision
      else .ok (lastPosition + (lastTarget - lastPosition) * (1 - Real.exp (-dt / τ)))

/-- Actuators.py:106-119 `FirstOrderActuator` -/
structure Actuator where
  τ : ℝ
  last : ℝ
  lastTime : ℝ
  target : ℝ
  maxD : Option ℝ
  minD : Option ℝ

/-- Actuators.py:113-119 `__init__`: the initial time is accepted but not used, the first target is 0 -/
def Actuator.make (τ initialDeflection _initialTime : ℝ) (maxD minD : Option ℝ) : Actuator :=
  ⟨τ, initialDeflection, 0, 0, maxD, minD⟩

/-- Actuators.py:135-136 `getDeflection` -/
noncomputable def Actuator.deflection (a : Actuator) (t : ℝ) : Except PyErr ℝ := getPosition a.τ t a.lastTime a.last a.target

/-- Actuators.py:126-130: limiters -/
noncomputable def limitTarget (maxD minD : Option ℝ) (x : ℝ) : ℝ :=
  let y := match maxD with
    | some m => min x m
    | none => x
  match minD with
  | some m => max y m
  | none => y

/-- Actuators.py:121-133 `setTargetDeflection` -/
noncomputable def Actuator.setTarget (a : Actuator) (x t : ℝ) : Except PyErr Actuator :=
  match a.deflection t with
  | .error e => .error e
  | .ok d => .ok { a with last := d, lastTime := t, target := limitTarget a.maxD a.minD x }

/-- A history of commands `(target, time)`. -/
noncomputable def Actuator.commands (a : Actuator) : List (ℝ × ℝ) → Except PyErr Actuator
  | [] => .ok a
  | (x, t) :: cs => match a.setTarget x t with
    | .error e => .error e
    | .ok a' => a'.commands cs

/-! ## Control loop scheduling -/

section loop
variable {K : Type} [Field K] [LinearOrder K] [IsStrictOrderedRing K]

/-- Python's `round` to an integer: halves go to the even neighbour. -/
def pyRound [FloorRing K] (x : K) : ℤ :=
  let f := ⌊x⌋
  if x - f < 1 / 2 then f
  else if x - f > 1 / 2 then f + 1
  else if f % 2 = 0 then f else f + 1

/-- ControlSystems.py:120-153 `_checkSimTimeStepping`: the control period and the simulation step size in use afterwards
(`timeStep` is the configured one). -/
def checkTimeStepping [FloorRing K] (updateRate timeStep : K) : Except PyErr (K × K) :=
  if updateRate > 0 then
    let period := 1 / updateRate
    if timeStep = 0 then .error .zeroDivision
    else if period / timeStep ≠ (pyRound (period / timeStep) : K) then
      .ok (period, period / (max 1 (pyRound (period / timeStep)) : ℤ))
    else .ok (period, timeStep)
  else .ok (0, timeStep)

/-- ControlSystems.py:170-211 `runControlLoopIfRequired`: whether the loop runs at time `t`, and the time of the last run
afterwards. The loop is given the time since its last run as `dt`. -/
def runIfRequired (period last t : K) : Bool × K :=
  if t - last + 1 / 10 ^ 10 ≥ period then (true, t) else (false, last)

/-- Calls at the given times: which of them run. -/
def schedule (period last : K) : List K → List Bool
  | [] => []
  | t :: ts => (runIfRequired period last t).1 :: schedule period (runIfRequired period last t).2 ts

/-- The times at which the loop runs. -/
def runTimes (period last : K) : List K → List K
  | [] => []
  | t :: ts => if (runIfRequired period last t).1 then t :: runTimes period t ts else runTimes period last ts

/-- The `dt`s the moment controller gets (ControlSystems.py:174, 180). -/
def loopDts (period last : K) : List K → List K
  | [] => []
  | t :: ts => if (runIfRequired period last t).1 then (t - last) :: loopDts period t ts else loopDts period last ts

end loop
end Mapleaf.GNC
