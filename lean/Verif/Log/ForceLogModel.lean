import Verif.Log.LogModel
import Verif.Motion.ForceModel
import Verif.Motion.QuatModel

/-!
# Model: the force log (derivative evaluation log) of a rocket

MAPLEAF/Rocket/rocket.py:170-195, 548-612, RocketComponentFactory.py:33-61, CompositeObject.py:81-99, Utilities.py:3-24,
SimulationRunners/SingleSimulations.py:300-313, 449-478.

A rocket has a log with one row per evaluation of its force. Each component holds references to two columns of the log
that existed when the component was built and appends its force and moment to them. A reference is the index of the log
in memory and the name of the column; a column object is never replaced while forces are evaluated. `getAppliedForce` of
rockets and stages is one memoised function: its single cell holds the last object, arguments and result. `A` is what a
force evaluation is given (time, state, environment and centre of gravity), `eqv` Python's `==` on it. Components and
environment are arbitrary functions that do not raise.
-/

namespace Mapleaf.FLog
open Mapleaf.Motion Mapleaf.LogM

/-- What a cell of the log can hold -/
inductive Val (K : Type)
  | num (x : K)
  | vec (v : V3 K)
  | quat (q : Quat K)

/-- RocketComponentFactory.py:60-61: `forcesLog` and `momentsLog`, columns of the log number `log` -/
structure Ref where
  log : Nat
  f : Name
  m : Name

/-- A component of a stage: its force and, if forces are logged, its columns -/
structure Part (A K : Type) where
  force : A → V3 K → FMS K
  ref : Option Ref

/-- stage.py:13: a stage object (`id` its identity) and its components -/
structure StageC (A K : Type) where
  id : Nat
  parts : List (Part A K)

/-- rocket.py:27: a rocket object; `log` is `derivativeEvaluationLog` -/
structure RocketC (A K : Type) where
  id : Nat
  stages : List (StageC A K)
  log : Option Nat
  recovery : Option (Part A K)
  underChute : Bool

/-- The logs in memory and the cell of `CompositeObject.getAppliedForce` (Utilities.py:8-10) -/
structure Mem (A K : Type) where
  logs : List (Log K (Val K))
  cell : Option ((Nat × A) × FMS K)

/-- What is logged and added besides the components: rocket.py:551-610 -/
structure Physics (A K : Type) where
  time : A → K
  position : A → V3 K
  velocity : A → V3 K
  orientation : A → Quat K
  angularVelocity : A → V3 K
  mach : A → K
  unitRe : A → K
  aoaDeg : A → K
  roll : A → K
  wind : A → V3 K
  density : A → K
  inertia : A → Inertia K
  gravity : A → FMS K
  rail : A → FMS K → FMS K
  cpz : FMS K → K

section
variable {A K : Type} [Field K] [LinearOrder K]

/-- Changing one of the logs -/
def onLog (mem : Mem A K) (i : Nat) (g : Log K (Val K) → Except PyErr (Log K (Val K))) : Except PyErr (Mem A K) :=
  match mem.logs[i]? with
  | none => .error .indexError
  | some L =>
    match g L with
    | .error e => .error e
    | .ok L' => .ok { mem with logs := mem.logs.set i L' }

/-- `logValue` called for each of the values -/
def logAll (vals : List (Name × Val K)) (L : Log K (Val K)) : Except PyErr (Log K (Val K)) :=
  vals.foldlM (fun L v => logValue L v.1 v.2) L

/-! ## setting up the columns -/

/-- rocket.py:175-195 -/
def baseColumns : List (Name × Val K) :=
  let z : Val K := .vec ⟨0, 0, 0⟩
  [("Position(m)".toList, z), ("Velocity(m/s)".toList, z), ("OrientationQuaternion".toList, .quat ⟨0, 0, 0, 0⟩),
   ("AngularVelocity(rad/s)".toList, z), ("CG(m)".toList, z), ("MOI(kg*m^2)".toList, z), ("Mass(kg)".toList, .num 0),
   ("Wind(m/s)".toList, z), ("AirDensity(kg/m^3)".toList, .num 0), ("Mach".toList, .num 0), ("UnitRe".toList, .num 0),
   ("AOA(deg)".toList, .num 0), ("RollAngle(deg)".toList, .num 0), ("CPZ(m)".toList, .num 0), ("AeroF(N)".toList, z),
   ("AeroM(Nm)".toList, z), ("GravityF(N)".toList, z), ("TotalF(N)".toList, z)]

/-- rocket.py:152-195: none below level 2; `Log()` has the default fill value 0 -/
def newForceLog (level : Int) : Except PyErr (Option (Log K (Val K))) :=
  if level > 1 then
    match LogM.new [] (.num 0) with
    | .error e => .error e
    | .ok L =>
      match baseColumns.foldlM (fun L c => addColumn L c.1 (some c.2)) L with
      | .error e => .error e
      | .ok L => .ok (some L)
  else .ok none

/-- RocketComponentFactory.py:58: `subDictPath[subDictPath.index(".")+1:]` -/
def columnStem (path : Str) : Except PyErr Str :=
  if '.' ∈ path then .ok ((path.dropWhile (· ≠ '.')).drop 1) else .error .valueError

/-- RocketComponentFactory.py:56-61 `initializeForceLogging`; `log` is the number and the content of the rocket's log -/
def initLogging (log : Option (Nat × Log K (Val K))) (path : Str) :
    Except PyErr (Option (Nat × Log K (Val K)) × Option Ref) :=
  match log with
  | none => .ok (none, none)
  | some (i, L) =>
    match columnStem path with
    | .error e => .error e
    | .ok n =>
      match addColumn L (n ++ "F(N)".toList) (some (.vec ⟨0, 0, 0⟩)) with
      | .error e => .error e
      | .ok L1 =>
        match addColumn L1 (n ++ "M(Nm)".toList) (some (.vec ⟨0, 0, 0⟩)) with
        | .error e => .error e
        | .ok L2 => .ok (some (i, L2), some ⟨i, n ++ "F(N)".toList, n ++ "M(Nm)".toList⟩)

/-- stage.py:57-59, RocketComponentFactory.py:33-54: the components of all stages, in the order in which they are built -/
def buildParts (log : Option (Nat × Log K (Val K))) :
    List (Str × (A → V3 K → FMS K)) → Except PyErr (Option (Nat × Log K (Val K)) × List (Part A K))
  | [] => .ok (log, [])
  | c :: cs =>
    match initLogging log c.1 with
    | .error e => .error e
    | .ok (log1, r) =>
      match buildParts log1 cs with
      | .error e => .error e
      | .ok (log2, ps) => .ok (log2, ⟨c.2, r⟩ :: ps)

/-! ## one force evaluation -/

/-- CompositeObject.py:93-95, rocket.py:584-586 -/
def logPart (mem : Mem A K) (p : Part A K) (f : FMS K) : Except PyErr (Mem A K) :=
  match p.ref with
  | none => .ok mem
  | some r =>
    match onLog mem r.log (fun L => logValue L r.f (.vec f.force)) with
    | .error e => .error e
    | .ok m => onLog m r.log (fun L => logValue L r.m (.vec f.moment))

/-- CompositeObject.py:90-97 for a component -/
def partStep (a : A) (cg : V3 K) (acc : Mem A K × FMS K) (p : Part A K) : Except PyErr (Mem A K × FMS K) :=
  match logPart acc.1 p (p.force a cg) with
  | .error e => .error e
  | .ok m => .ok (m, acc.2.add (p.force a cg))

/-- Utilities.py:14-15: the cached result -/
def cached (eqv : A → A → Bool) (mem : Mem A K) (id : Nat) (a : A) : Option (FMS K) :=
  match mem.cell with
  | none => none
  | some (k, r) => if k.1 = id ∧ eqv k.2 a = true then some r else none

/-- CompositeObject.py:81-99 `getAppliedForce` of a stage, memoised -/
def stageForce (eqv : A → A → Bool) (a : A) (cg : V3 K) (mem : Mem A K) (s : StageC A K) : Except PyErr (Mem A K × FMS K) :=
  match cached eqv mem s.id a with
  | some r => .ok (mem, r)
  | none =>
    match s.parts.foldlM (partStep a cg) (mem, FMS.make ⟨0, 0, 0⟩ (some cg) none) with
    | .error e => .error e
    | .ok r => .ok ({ r.1 with cell := some ((s.id, a), r.2) }, r.2)

/-- CompositeObject.py:90-97 for a stage (stages have no `forcesLog`) -/
def stageStep (eqv : A → A → Bool) (a : A) (cg : V3 K) (acc : Mem A K × FMS K) (s : StageC A K) :
    Except PyErr (Mem A K × FMS K) :=
  match stageForce eqv a cg acc.1 s with
  | .error e => .error e
  | .ok r => .ok (r.1, acc.2.add r.2)

/-- CompositeObject.py:81-99 `getAppliedForce` of the rocket, memoised -/
def rocketForces (eqv : A → A → Bool) (a : A) (cg : V3 K) (mem : Mem A K) (R : RocketC A K) :
    Except PyErr (Mem A K × FMS K) :=
  match cached eqv mem R.id a with
  | some r => .ok (mem, r)
  | none =>
    match R.stages.foldlM (stageStep eqv a cg) (mem, FMS.make ⟨0, 0, 0⟩ (some cg) none) with
    | .error e => .error e
    | .ok r => .ok ({ r.1 with cell := some ((R.id, a), r.2) }, r.2)

/-- Logging into the rocket's own log, if it has one -/
def onRocketLog (R : RocketC A K) (mem : Mem A K) (g : Log K (Val K) → Except PyErr (Log K (Val K))) :
    Except PyErr (Mem A K) :=
  match R.log with
  | none => .ok mem
  | some i => onLog mem i g

variable (P : Physics A K)

/-- rocket.py:556-558 -/
def startRow (a : A) (L : Log K (Val K)) : Except PyErr (Log K (Val K)) :=
  match newLogRow L (P.time a) with
  | .error e => .error e
  | .ok L => logAll [("Position(m)".toList, .vec (P.position a)), ("Velocity(m/s)".toList, .vec (P.velocity a))] L

/-- rocket.py:569-574 -/
def flowVals (a : A) : List (Name × Val K) :=
  [("Mach".toList, .num (P.mach a)), ("UnitRe".toList, .num (P.unitRe a)), ("AOA(deg)".toList, .num (P.aoaDeg a)),
   ("RollAngle(deg)".toList, .num (P.roll a)), ("OrientationQuaternion".toList, .quat (P.orientation a)),
   ("AngularVelocity(rad/s)".toList, .vec (P.angularVelocity a))]

/-- rocket.py:588-595: the forces of the components at the centre of gravity, and the total -/
def atCG (a : A) (f : FMS K) : FMS K := f.getAt (P.inertia a).cg
def totalForce (a : A) (f : FMS K) : FMS K := P.rail a ((atCG P a f).add (P.gravity a))

/-- rocket.py:599-610 -/
def endVals (a : A) (f : FMS K) : List (Name × Val K) :=
  [("Wind(m/s)".toList, .vec (P.wind a)), ("AirDensity(kg/m^3)".toList, .num (P.density a)),
   ("CG(m)".toList, .vec (P.inertia a).cg), ("MOI(kg*m^2)".toList, .vec (P.inertia a).moi),
   ("Mass(kg)".toList, .num (P.inertia a).mass), ("CPZ(m)".toList, .num (P.cpz (atCG P a f))),
   ("AeroF(N)".toList, .vec (atCG P a f).force), ("AeroM(Nm)".toList, .vec (atCG P a f).moment),
   ("GravityF(N)".toList, .vec (P.gravity a).force), ("TotalF(N)".toList, .vec (totalForce P a f).force)]

/-- rocket.py:560-586: the forces of the components; without a recovery system the call is made on `None` -/
def componentForces (eqv : A → A → Bool) (R : RocketC A K) (a : A) (mem : Mem A K) : Except PyErr (Mem A K × FMS K) :=
  if R.underChute then
    match R.recovery with
    | none => .error .attributeError
    | some p =>
      match logPart mem p (p.force a ⟨0, 0, -1⟩) with
      | .error e => .error e
      | .ok m => .ok (m, p.force a ⟨0, 0, -1⟩)
  else
    match onRocketLog R mem (logAll (flowVals P a)) with
    | .error e => .error e
    | .ok m => rocketForces eqv a (P.inertia a).cg m R

/-- rocket.py:548-612 `_getAppliedForce` -/
def evaluate (eqv : A → A → Bool) (R : RocketC A K) (a : A) (mem : Mem A K) : Except PyErr (Mem A K × FMS K) :=
  match onRocketLog R mem (startRow P a) with
  | .error e => .error e
  | .ok m =>
    match componentForces P eqv R a m with
    | .error e => .error e
    | .ok r =>
      match onRocketLog R r.1 (logAll (endVals P a r.2)) with
      | .error e => .error e
      | .ok m => .ok (m, totalForce P a r.2)

/-! ## what else happens to the logs -/

/-- SingleSimulations.py:310-312: `n` rows are deleted from the log of every rocket of the simulation; a rocket without a log has no
`deleteLastRow` -/
def discard (n : Nat) (rockets : List (RocketC A K)) (mem : Mem A K) : Except PyErr (Mem A K) :=
  ((List.replicate n rockets).flatten).foldlM (fun m (R : RocketC A K) =>
    match R.log with
    | none => .error .attributeError
    | some i => onLog m i (fun L => .ok (deleteLastRow L))) mem

/-- rocket.py:467-468 `_dropStage`: the bottom stage leaves, its columns stay -/
def dropStage (R : RocketC A K) : RocketC A K := { R with stages := R.stages.dropLast }

/-- rocket.py:502-519: a boat tail with columns of its own is added to the bottom stage -/
def addTail (R : RocketC A K) (force : A → V3 K → FMS K) (mem : Mem A K) : Except PyErr (Mem A K × RocketC A K) :=
  match R.stages.getLast? with
  | none => .error .indexError
  | some s =>
    match R.log with
    | none => .ok (mem, { R with stages := R.stages.dropLast ++ [{ s with parts := s.parts ++ [⟨force, none⟩] }] })
    | some i =>
      match mem.logs[i]? with
      | none => .error .indexError
      | some L =>
        match initLogging (some (i, L)) "FakeRocketName.Auto-AddedZeroLengthBoatTail".toList with
        | .error e => .error e
        | .ok (none, _) => .error .indexError
        | .ok (some (_, L'), r) =>
          .ok ({ mem with logs := mem.logs.set i L' },
            { R with stages := R.stages.dropLast ++ [{ s with parts := s.parts ++ [⟨force, r⟩] }] })

/-- Recovery.py:90-97: a parachute is deployed -/
def deploy (R : RocketC A K) : RocketC A K := { R with underChute := true }

/-! ## creating rockets -/

/-- stage.py:57-59, rocket.py:313-319: the components of the stages, one stage after the other -/
def buildAll (log : Option (Nat × Log K (Val K))) :
    List (List (Str × (A → V3 K → FMS K))) → Except PyErr (Option (Nat × Log K (Val K)) × List (List (Part A K)))
  | [] => .ok (log, [])
  | s :: ss =>
    match buildParts log s with
    | .error e => .error e
    | .ok (log1, ps) =>
      match buildAll log1 ss with
      | .error e => .error e
      | .ok (log2, pss) => .ok (log2, ps :: pss)

/-- Stage objects with the next free identities -/
def withIds (n : Nat) : List (List (Part A K)) → List (StageC A K)
  | [] => []
  | ps :: pss => ⟨n, ps⟩ :: withIds (n + 1) pss

/-- The rockets of a simulation, its memory, and the next free identity -/
structure Sim (A K : Type) where
  rockets : List (RocketC A K)
  mem : Mem A K
  next : Nat

/-- rocket.py:34-200: a rocket is created. `rec` says which of the components, in the order of creation, is the recovery system
(Recovery.py:14-22). Sorting the components from top to bottom changes no column and is left out. -/
def create (level : Int) (stages : List (List (Str × (A → V3 K → FMS K)))) (rec : Option Nat) (S : Sim A K) :
    Except PyErr (Sim A K) :=
  match newForceLog level with
  | .error e => .error e
  | .ok L =>
    match buildAll (L.map fun L => (S.mem.logs.length, L)) stages with
    | .error e => .error e
    | .ok (L, pss) =>
      let R : RocketC A K := ⟨S.next, withIds (S.next + 1) pss, L.map Prod.fst, rec.bind fun k => pss.flatten[k]?, false⟩
      let logs := match L with
        | none => S.mem.logs
        | some (_, L) => S.mem.logs ++ [L]
      .ok ⟨S.rockets ++ [R], { S.mem with logs := logs }, S.next + 1 + pss.length⟩

/-! ## a simulation, as far as the force logs are concerned -/

/-- What can happen: rocket `k` has its force evaluated, `n` evaluations are discarded, rocket `k` drops its bottom stage (and gets a
boat tail), a parachute of rocket `k` is deployed, a rocket is created -/
inductive Ev (A K : Type)
  | eval (k : Nat) (a : A)
  | discard (n : Nat)
  | drop (k : Nat) (tail : Option (A → V3 K → FMS K))
  | deploy (k : Nat)
  | create (level : Int) (stages : List (List (Str × (A → V3 K → FMS K)))) (rec : Option Nat)

/-- rocket.py:461-475, 519: separation as far as components are concerned -/
def separation (R : RocketC A K) (tail : Option (A → V3 K → FMS K)) (mem : Mem A K) : Except PyErr (Mem A K × RocketC A K) :=
  match tail with
  | none => .ok (mem, dropStage R)
  | some f => addTail (dropStage R) f mem

def step (eqv : A → A → Bool) (S : Sim A K) : Ev A K → Except PyErr (Sim A K)
  | .eval k a =>
    match S.rockets[k]? with
    | none => .error .indexError
    | some R =>
      match evaluate P eqv R a S.mem with
      | .error e => .error e
      | .ok r => .ok { S with mem := r.1 }
  | .discard n =>
    match discard n S.rockets S.mem with
    | .error e => .error e
    | .ok m => .ok { S with mem := m }
  | .drop k tail =>
    match S.rockets[k]? with
    | none => .error .indexError
    | some R =>
      match separation R tail S.mem with
      | .error e => .error e
      | .ok r => .ok { S with mem := r.1, rockets := S.rockets.set k r.2 }
  | .deploy k =>
    match S.rockets[k]? with
    | none => .error .indexError
    | some R => .ok { S with rockets := S.rockets.set k (deploy R) }
  | .create level stages rec => create level stages rec S

def run (eqv : A → A → Bool) (S : Sim A K) (evs : List (Ev A K)) : Except PyErr (Sim A K) := evs.foldlM (step P eqv) S

/-- Before anything happens -/
def Sim.start : Sim A K := ⟨[], ⟨[], none⟩, 0⟩

/-! ## parameter sweeps -/

/-- SingleSimulations.py:463-475: one point of a sweep. A rocket is created, with a log of its own; from the second point on its log is
replaced by that of the first rocket; its force is evaluated once. -/
def sweepPoint (eqv : A → A → Bool) (first : Bool) (S : Sim A K)
    (pt : List (List (Str × (A → V3 K → FMS K))) × A) : Except PyErr (Sim A K) :=
  match create 3 pt.1 none S with
  | .error e => .error e
  | .ok S1 =>
    match S1.rockets.getLast? with
    | none => .error .indexError
    | some R =>
      match evaluate P eqv (if first then R else { R with log := some 0 }) pt.2 S1.mem with
      | .error e => .error e
      | .ok r => .ok { S1 with mem := r.1 }

/-- SingleSimulations.py:449-475 `runSweep`: log number 0 is the one that is written -/
def runSweep (eqv : A → A → Bool) : List (List (List (Str × (A → V3 K → FMS K))) × A) → Except PyErr (Sim A K)
  | [] => .ok Sim.start
  | pt :: pts =>
    match sweepPoint P eqv true Sim.start pt with
    | .error e => .error e
    | .ok S => pts.foldlM (sweepPoint P eqv false) S

end
end Mapleaf.FLog
