import Verif.GNC.GncModel
import Verif.ENV.FactoryModel

/-!
# Model of the rocket's control system (MAPLEAF/GNC/ControlSystems.py, MomentControllers.py, Navigation.py, actuatedSystem.py, the
actuator controller of Actuators.py, and its use in MAPLEAF/Rocket/rocket.py)

Interpolation in several dimensions (scipy) is an arbitrary function built from a table. The values of the parameters that schedule
gains or deflections (Mach number, altitude, ...) are an arbitrary function as well. numpy divides by zero without raising; the
non-finite result is represented by `zeroDivision`.
-/

namespace Mapleaf.GNC
open Mapleaf.Motion Mapleaf.ENV

/-- Navigation.py:15-21 `Stabilizer.__init__`: the target orientation -/
noncomputable def stabilizer (direction : V3 ℝ) : Except PyErr (Quat ℝ) :=
  let d := direction.normalize
  match V3.angle ⟨0, 0, 1⟩ d with
  | .error e => .error e
  | .ok θ => .ok (Quat.axisAngle (V3.cross ⟨0, 0, 1⟩ d) θ)

/-- MomentControllers.py:41-42, 70-71 `_getOrientationError` and ControlSystems.py:37-44 `calculateAngularError` -/
noncomputable def orientationError (orientation target : Quat ℝ) : Except PyErr (V3 ℝ) :=
  match target.divQuat orientation with
  | .error e => .error e
  | .ok q => q.toRotationVector

/-- a table made into a function by `NoNaNLinearNDInterpolator` (Interpolation.py:109-125) -/
abbrev Lookup := List ℝ → Except PyErr (List ℝ)

/-- the moment controllers: MomentControllers.py:19-91 -/
inductive MomentControl where
  | constant (axes : List (PID ℝ))
  | scheduled (keys : List Rocket.AeroKey) (gains : Lookup) (axes : List (PID ℝ))
  | ideal

/-- MomentControllers.py:28-39, 58-68: longitudinal, longitudinal and roll coefficients -/
noncomputable def setGains (axes : List (PID ℝ)) (gains : List ℝ) : Except PyErr (List (PID ℝ)) :=
  match gains, axes with
  | [pxy, ixy, dxy, pz, iz, dz], [a, b, c] =>
    .ok [a.updateCoefficients pxy ixy dxy, b.updateCoefficients pxy ixy dxy, c.updateCoefficients pz iz dz]
  | _, _ => .error .valueError

/-- the controllers of the three axes before the first loop: PID.py:10-19 with the error 0 -/
noncomputable def freshAxes : List (PID ℝ) := [PID.make 0 0 0 0 none, PID.make 0 0 0 0 none, PID.make 0 0 0 0 none]

/-- AeroParameters.py:96-108 `getAeroPropertiesList` -/
def parameters (value : Rocket.AeroKey → Except PyErr ℝ) : List Rocket.AeroKey → Except PyErr (List ℝ)
  | [] => .ok []
  | k :: ks => do
    let x ← value k
    let xs ← parameters value ks
    .ok (x :: xs)

/-- MomentControllers.py:44-56, 73-83 `getDesiredMoments` -/
noncomputable def desiredMoments (m : MomentControl) (value : Rocket.AeroKey → Except PyErr ℝ) (orientation target : Quat ℝ) (dt : ℝ) :
    Except PyErr (List ℝ × MomentControl) := do
  match m with
  | .ideal => .error .typeError
  | .constant axes =>
    let e ← orientationError orientation target
    let r ← vecStep axes [e.x, e.y, e.z] dt
    .ok (r.map Prod.fst, .constant (r.map Prod.snd))
  | .scheduled keys gains axes =>
    let e ← orientationError orientation target
    let ks ← parameters value keys
    let g ← gains ks
    let axes ← setGains axes g
    let r ← vecStep axes [e.x, e.y, e.z] dt
    .ok (r.map Prod.fst, .scheduled keys gains (r.map Prod.snd))

/-- what the control system moves: a component (`part` stands for the object's identity) with its actuators, and the table of its
actuator controller: Actuators.py:43-82 -/
structure Driven where
  part : Nat
  actuators : List Actuator
  keys : List Rocket.AeroKey
  table : Lookup

/-- Actuators.py:77-78: every actuator gets its entry -/
noncomputable def setAll (t : ℝ) : List Actuator → List ℝ → Except PyErr (List Actuator)
  | [], _ => .ok []
  | _ :: _, [] => .error .indexError
  | a :: as, x :: xs => do
    let a' ← a.setTarget x t
    let as' ← setAll t as xs
    .ok (a' :: as')

/-- Actuators.py:64-80 `setTargetActuatorDeflections` -/
noncomputable def Driven.command (d : Driven) (value : Rocket.AeroKey → Except PyErr ℝ) (moments : List ℝ) (t : ℝ) :
    Except PyErr (List ℝ × Driven) := do
  let ks ← parameters value d.keys
  let targets ← d.table (ks ++ moments)
  let as ← setAll t d.actuators targets
  .ok (targets, { d with actuators := as })

/-- ControlSystems.py:46-118: the attributes used in flight. `modified` is `timeSteppingModified`, `logging`: there is a log. -/
structure Control where
  target : Quat ℝ
  moment : MomentControl
  period : ℝ
  last : ℝ
  driven : Option Driven
  modified : Bool
  logging : Bool

/-- one row of the control system's log -/
structure ControlRow where
  time : ℝ
  error : V3 ℝ
  targets : List ℝ
  deflections : List ℝ

/-- ControlSystems.py:195-203: the logged deflections -/
noncomputable def deflectionsAt (t : ℝ) : List Actuator → Nat → Except PyErr (List ℝ)
  | _, 0 => .ok []
  | [], _ + 1 => .error .indexError
  | a :: as, n + 1 => do
    let x ← a.deflection t
    let xs ← deflectionsAt t as n
    .ok (x :: xs)

/-- what a call of the control loop gives: the row it logs, the control system and the rocket's state -/
structure LoopResult where
  ran : Bool
  row : Option ControlRow
  control : Control
  state : RBState

open Classical in
/-- ControlSystems.py:170-211 `runControlLoopIfRequired` (and MomentControllers.py:85-91 for the ideal controller, which changes the
state itself) -/
noncomputable def Control.run (c : Control) (t : ℝ) (s : RBState) (value : Rocket.AeroKey → Except PyErr ℝ) : Except PyErr LoopResult := do
  if t - c.last + 1 / 10 ^ 10 ≥ c.period then
    match c.moment with
    | .ideal =>
      let s' : RBState := { s with ori := c.target, angVel := ⟨0, 0, 0⟩ }
      let e ← orientationError s'.ori c.target
      let row : ControlRow := ⟨t, e, [], []⟩
      .ok ⟨true, if c.logging then some row else none, { c with last := t }, s'⟩
    | _ =>
      let (moments, m) ← desiredMoments c.moment value s.ori c.target (t - c.last)
      match c.driven with
      | none => .error .attributeError
      | some d =>
        let (targets, d') ← d.command value moments t
        let e ← orientationError s.ori c.target
        let c' : Control := { c with moment := m, driven := some d', last := t }
        if c.logging then
          let defl ← deflectionsAt t d'.actuators targets.length
          .ok ⟨true, some ⟨t, e, targets, defl⟩, c', s⟩
        else .ok ⟨true, none, c', s⟩
  else .ok ⟨false, none, c, s⟩

/-- rocket.py:646-656 `_runControlSystem` -/
noncomputable def runControl (c : Option Control) (underChute : Bool) (t : ℝ) (s : RBState)
    (value : Rocket.AeroKey → Except PyErr ℝ) : Except PyErr (Option Control × RBState) :=
  match c with
  | none => .ok (none, s)
  | some c =>
    if underChute then .ok (some c, s)
    else
      match c.run t s value with
      | .error e => .error e
      | .ok r => .ok (some r.control, r.state)

/-! ## Setting up -/

/-- a component of the rocket as the control system sees it: its identity, the path of its dictionary (none for the boat tail that the
rocket adds itself, rocket.py:513-525), and its number of fins (other components have no actuators) -/
structure Part where
  id : Nat
  path : Option Str
  fins : Option Nat

/-- ControlSystems.py:88-92, the components of one stage -/
def findIn (path : Str) : List Part → Except PyErr (Option Part)
  | [] => .ok none
  | p :: ps =>
    match p.path with
    | none => .error .attributeError
    | some q => if q = path then .ok (some p) else findIn path ps

/-- ControlSystems.py:84-96: the component to control; `break` leaves the components of one stage only -/
def findControlled (path : Str) (found : Option Part) : List (List Part) → Except PyErr (Option Part)
  | [] => .ok found
  | stage :: rest =>
    match findIn path stage with
    | .error e => .error e
    | .ok p => findControlled path (p.orElse fun _ => found) rest

/-- what the set-up of tables takes from its surroundings: `np.loadtxt(path, skiprows=1)` and the interpolator made of keys and
values -/
structure Tables where
  loadtxt : Str → Except PyErr (List (List ℝ))
  lookup : List (List ℝ) → List (List ℝ) → Except PyErr Lookup

/-- a dictionary lookup in `stringToAeroFunctionMap` for every name -/
def aeroKeys : List Str → Except PyErr (List Rocket.AeroKey)
  | [] => .ok []
  | n :: ns =>
    match Rocket.aeroKeyOf n with
    | none => .error .keyError
    | some k => do
      let ks ← aeroKeys ns
      .ok (k :: ks)

/-- PID.py:64-85 `ScheduledGainPIDController.__init__` as called in MomentControllers.py:20-28: keys in the first columns, gains in the
next six -/
def gainTable (tb : Tables) (file : Str) (n : Nat) : Except PyErr Lookup := do
  let rows ← tb.loadtxt file
  let _ ← Rocket.load2D rows
  tb.lookup (rows.map fun r => r.take n) (rows.map fun r => (r.drop n).take 6)

/-- ControlSystems.py:57-75: the moment controller -/
noncomputable def momentFactory (d : Source) (tb : Tables) (path kind : Str) : Except PyErr MomentControl := do
  if kind = "ConstantGainPIDRocket".toList then
    let pxy ← (d.reader path).getFloat "MomentController.Pxy".toList
    let ixy ← (d.reader path).getFloat "MomentController.Ixy".toList
    let dxy ← (d.reader path).getFloat "MomentController.Dxy".toList
    let pz ← (d.reader path).getFloat "MomentController.Pz".toList
    let iz ← (d.reader path).getFloat "MomentController.Iz".toList
    let dz ← (d.reader path).getFloat "MomentController.Dz".toList
    let axes ← setGains freshAxes [pxy, ixy, dxy, pz, iz, dz]
    .ok (.constant axes)
  else if kind = "ScheduledGainPIDRocket".toList then
    let file ← d.text path "MomentController.gainTableFilePath".toList
    let names ← d.text path "MomentController.scheduledBy".toList
    let keys ← aeroKeys (Str.wsSplit names)
    let gains ← gainTable tb file keys.length
    .ok (.scheduled keys gains freshAxes)
  else if kind = "IdealMomentController".toList then .ok .ideal
  else .error .valueError

/-- actuatedSystem.py:28-40: one actuator -/
noncomputable def actuatorFactory (d : Source) (path : Str) : Except PyErr Actuator := do
  let model ← d.text path "Actuators.responseModel".toList
  if model = "FirstOrder".toList then
    let τ ← (d.reader path).getFloat "Actuators.responseTime".toList
    let mx ← (d.reader path).tryGetFloat "Actuators.maxDeflection".toList
    let mn ← (d.reader path).tryGetFloat "Actuators.minDeflection".toList
    .ok (Actuator.make τ 0 0 mx mn)
  else .error .valueError

/-- actuatedSystem.py:29: the same for every actuator -/
noncomputable def actuatorList (d : Source) (path : Str) : Nat → Except PyErr (List Actuator)
  | 0 => .ok []
  | n + 1 => do
    let a ← actuatorFactory d path
    let as ← actuatorList d path n
    .ok (a :: as)

/-- `"Desired" in key` -/
def isDesired (key : Str) : Bool := decide ("Desired".toList <:+: key)

/-- actuatedSystem.py:24-64 `ActuatedSystem.__init__` and Actuators.py:47-62 -/
noncomputable def actuatedSystem (d : Source) (tb : Tables) (path : Str) (part n : Nat) : Except PyErr Driven := do
  let actuators ← actuatorList d path n
  let kind ← d.text path "Actuators.controller".toList
  if kind = "TableInterpolating".toList then
    let file ← d.text path "Actuators.deflectionTablePath".toList
    let names ← d.text path "Actuators.deflectionKeyColumns".toList
    let columns := Str.wsSplit names
    let plain := columns.takeWhile fun k => !isDesired k
    if (columns.drop plain.length).all isDesired then
      let keys ← aeroKeys plain
      let rows ← tb.loadtxt file
      let width ← Rocket.load2D rows
      if n = width - columns.length then
        let table ← tb.lookup (rows.map fun r => r.take columns.length) (rows.map fun r => r.drop columns.length)
        .ok ⟨part, actuators, keys, table⟩
      else .error .valueError
    else .error .valueError
  else .error .valueError

/-- ControlSystems.py:120-153 `_checkSimTimeStepping`: the control period, the time step of the simulation afterwards and whether the time
stepping was changed (an adaptive method is replaced as well) -/
noncomputable def timeStepping (d : Source) (path : Str) (rate : ℝ) : Except PyErr (ℝ × Option ℝ × Bool × Bool) := do
  if rate > 0 then
    let method ← d.text path "SimControl.timeDiscretization".toList
    let adaptive := decide ("Adaptive".toList <:+: method)
    let dt ← (d.reader path).getFloat "SimControl.timeStep".toList
    let (period, dt') ← checkTimeStepping rate dt
    .ok (period, some dt', adaptive, adaptive || decide (dt' ≠ dt))
  else .ok (0, none, false, false)

/-- ControlSystems.py:49-118 `RocketControlSystem.__init__`: the control system, the time step of the simulation if a rate is given and
whether the integration method was replaced by RK4 -/
noncomputable def controlFactory (d : Source) (tb : Tables) (path : Str) (stages : List (List Part)) (t0 : ℝ) (log : Bool) :
    Except PyErr (Control × Option ℝ × Bool) := do
  let direction ← (d.reader path).getVector "desiredFlightDirection".toList
  let target ← stabilizer direction
  let kind ← d.text path "MomentController.Type".toList
  let moment ← momentFactory d tb path kind
  if kind = "IdealMomentController".toList then
    .ok (⟨target, moment, 0, t0, none, false, log⟩, none, false)
  else
    let rate ← (d.reader path).getFloat "updateRate".toList
    let name ← d.text path "controlledSystem".toList
    let found ← findControlled name none stages
    match found with
    | none => .error .valueError
    | some p =>
      match p.fins with
      | none => .error .attributeError
      | some n =>
        let driven ← actuatedSystem d tb name p.id n
        let (period, dt, rk4, modified) ← timeStepping d path rate
        .ok (⟨target, moment, period, t0, some driven, modified, log⟩, dt, rk4)

/-- rocket.py:211-219: whether a control system is created at all -/
def controlWanted (d : Source) (path : Str) (dropped : Bool) : Except PyErr Bool := do
  let system ← d.tryString path "ControlSystem.controlledSystem".toList
  let wanted ← (if system.isSome then Except.ok true
    else do
      let kind ← d.tryString path "ControlSystem.MomentController.Type".toList
      Except.ok (decide (kind = some "IdealMomentController".toList)))
  .ok (wanted && !dropped)

/-- rocket.py:481-487: the control system after the stage with these components was dropped. `restoreOriginalTimeStepping`
(ControlSystems.py:155-168) reads attributes that do not exist when the time stepping was changed. -/
def dropControl (c : Option Control) (dropped : List Part) : Except PyErr (Option Control) :=
  match c with
  | none => .ok none
  | some c =>
    match c.driven with
    | none => .ok (some c)
    | some d =>
      if d.part ∈ dropped.map Part.id then
        if c.modified then .error .attributeError else .ok none
      else .ok (some c)

end Mapleaf.GNC
