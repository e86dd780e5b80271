import Verif.Rocket.EventModel
import Verif.Motion.ForceModel
import Verif.Motion.QuatModel
import Verif.Motion.InterpModel

/-!
# Model of the recovery system (MAPLEAF/Rocket/Recovery.py, rocket.py)

One recovery system on a rocket. The rest of the simulation is an arbitrary `σ` with arbitrary callbacks. Callback 0 is
`_deployNextStage`; callback `n+1` is the `n`-th of the others. The printed messages are left out. `numStages` is the
length of the list of stages (a negative number behaves like an empty list without the error at start-up).
-/

namespace Mapleaf.Rocket
open Mapleaf.Motion

/-- Recovery.py:31-40: what is read for one stage -/
structure Chute (K : Type) where
  trigger : String
  value : Option K
  area : K
  cd : K
  delay : K

/-- Recovery.py:88-94 and simEventDetector.py:47-60: the trigger as a registered event. An unknown name is not in the map
(`KeyError`). A missing number is only noticed at the first comparison, as a `TypeError`. -/
def triggerKind {K : Type} (trigger : String) (value : Option K) : Except PyErr (Kind K) :=
  if trigger = "Apogee" ∨ trigger = "apogee" then .ok .apogee
  else if trigger = "motorBurnout" then .ok .burnout
  else if trigger = "Altitude" ∨ trigger = "descendingThroughAltitude" then
    match value with
    | some v => .ok (.below v)
    | none => .error .typeError
  else if trigger = "ascendingThroughAltitude" then
    match value with
    | some v => .ok (.above v)
    | none => .error .typeError
  else if trigger = "Time" ∨ trigger = "timeReached" then
    match value with
    | some v => .ok (.timeReached v)
    | none => .error .typeError
  else .error .keyError

/-- The rigid body: position, velocity, and orientation and angular velocity unless it is a `RigidBody_3DoF` -/
structure Body (K : Type) where
  pos : V3 K
  vel : V3 K
  rot : Option (Quat K × V3 K)
  time : K

/-- rocket.py:700-726 `_switchTo3DoF` -/
def Body.switchTo3DoF {K : Type} (b : Body K) : Body K := { b with rot := none }

/-- the recovery system and the attributes of the rocket it sets -/
structure Flight (σ K : Type) where
  rest : σ
  /-- `rocket.rigidBody`, `None` while the components are created -/
  body : Option (Body K)
  current : Int
  underChute : Bool
  mainTime : Option K

variable {σ K : Type}

/-- Recovery.py:65-97 `_deployNextStage` -/
def deployNext (cs : List (Chute K)) (w : Flight σ K) : Except PyErr (Flight σ K × List (Sub K)) :=
  let w := { w with current := w.current + 1 }
  match (if w.current = 1 then
      match w.body with
      | none => Except.error PyErr.attributeError
      | some b => .ok { w with underChute := true, body := some b.switchTo3DoF }
    else Except.ok w) with
  | .error e => .error e
  | .ok w =>
    match (if w.current = (cs.length : Int) then
        match w.body with
        | none => Except.error PyErr.attributeError
        | some b => .ok { w with mainTime := some b.time }
      else Except.ok w) with
    | .error e => .error e
    | .ok w =>
      if w.current < (cs.length : Int) then
        match cs[w.current.toNat]? with
        | none => .error .indexError
        | some c =>
          match triggerKind c.trigger c.value with
          | .error e => .error e
          | .ok k => .ok (w, [⟨k, 0, c.delay⟩])
      else .ok (w, [])

/-- Recovery.py:42-47, while `rocket.rigidBody` is still `None` (rocket.py:82, 198-199) -/
def initRecovery (cs : List (Chute K)) (rest : σ) : Except PyErr (Flight σ K × List (Sub K)) :=
  deployNext cs ⟨rest, none, -1, false, none⟩

/-- the simulation around the recovery system: what the detector reads, and the other callbacks. Altitude and vertical velocity
depend on position and velocity only; the other callbacks do not touch the body or the recovery system. -/
structure Outside (σ K : Type) where
  posZ : V3 K → V3 K → K
  velZ : V3 K → V3 K → K
  shutOff : σ → K
  other : Nat → σ → σ × List (Sub K)

/-- A body before the flight begins, only so that the readings of the detector are defined -/
def noBody [Zero K] : Body K := ⟨⟨0, 0, 0⟩, ⟨0, 0, 0⟩, none, 0⟩

/-- what the event detector sees. A failing deployment ends the program; here it leaves the world unchanged
(`deploy_total` says when it does not fail). -/
def recoveryWorld [Zero K] (o : Outside σ K) (cs : List (Chute K)) : World (Flight σ K) K where
  time w := (w.body.getD noBody).time
  shutOff w := o.shutOff w.rest
  posZ w := o.posZ (w.body.getD noBody).pos (w.body.getD noBody).vel
  velZ w := o.velZ (w.body.getD noBody).pos (w.body.getD noBody).vel
  call
    | 0, w => match deployNext cs w with
      | .ok r => r
      | .error _ => (w, [])
    | n + 1, w => ({ w with rest := (o.other n w.rest).1 },
        (o.other n w.rest).2.map fun s => { s with cb := s.cb + 1 })

/-- Recovery.py:50-63 `getAppliedForce`; the lists have a leading entry 0, so `chuteCds[i]` is the drag coefficient of stage `i`. A
negative index counts from the end. AeroParameters.py:131-133, 144-152. -/
noncomputable def chuteForce (cs : List (Chute ℝ)) (current : Int) (vel wind : V3 ℝ) (density : ℝ) : Except PyErr (FMS ℝ) :=
  if current = 0 then .ok (FMS.make ⟨0, 0, 0⟩ none none)
  else
    let airVel := (-1 : ℝ) • (vel - wind)
    match pyGet (0 :: cs.map (·.cd)) current, pyGet (0 :: cs.map (·.area)) current with
    | .ok cd, .ok area =>
      .ok (FMS.make ((cd * area * (airVel.length * airVel.length * density / 2)) • airVel.normalize) none none)
    | _, _ => .error .indexError

end Mapleaf.Rocket
