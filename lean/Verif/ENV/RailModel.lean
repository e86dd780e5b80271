import Verif.Motion.QuatModel
import Verif.Motion.StateModel
import Verif.Motion.ForceModel

/-!
# Model of the launch rail (MAPLEAF/ENV/launchRail.py, MAPLEAF/ENV/environment.py)

Vectors and times are real. Quaternion rotations may raise in general (zero quaternion), so the functions that use them
return `Except`; `RailProps` shows that the rail's own rotations never raise. The print of line 205 of `environment.py` is
left out.
-/

namespace Mapleaf.ENV
open Mapleaf.Motion

/-- launchRail.py:8-14: the attributes of a `LaunchRail` -/
structure Rail where
  pos : V3 ℝ
  dir : V3 ℝ
  length : ℝ
  rate : ℝ

namespace Rail

/-- launchRail.py:9-14 `__init__`: the direction is normalised -/
noncomputable def make (pos dir : V3 ℝ) (length rate : ℝ) : Rail := ⟨pos, dir.normalize, length, rate⟩

/-- launchRail.py:18-21, 26-29: the rotation of the earth since time 0 -/
noncomputable def spin (r : Rail) (time : ℝ) : Quat ℝ := Quat.axisAngle ⟨0, 0, 1⟩ (r.rate * time)

/-- launchRail.py:16-22 `getPosition` -/
noncomputable def getPosition (r : Rail) (time : ℝ) : Except PyErr (V3 ℝ) :=
  ((r.spin time).rotate r.pos).map Prod.fst

/-- launchRail.py:24-30 `getDirection` -/
noncomputable def getDirection (r : Rail) (time : ℝ) : Except PyErr (V3 ℝ) :=
  ((r.spin time).rotate r.dir).map Prod.fst

/-- launchRail.py:32-35 `getVelocity` -/
noncomputable def getVelocity (r : Rail) (time : ℝ) : Except PyErr (V3 ℝ) :=
  match r.getPosition time with
  | .error e => .error e
  | .ok p => .ok (V3.cross ⟨0, 0, r.rate⟩ p)

open Classical in
/-- launchRail.py:37-56 `applyLaunchTowerForce`; `pos` is `state.position` -/
noncomputable def applyForce (r : Rail) (pos : V3 ℝ) (time : ℝ) (f : FMS ℝ) : Except PyErr (FMS ℝ) :=
  match r.getPosition time with
  | .error e => .error e
  | .ok p =>
    if (pos - p).length < r.length then
      match r.getDirection time with
      | .error e => .error e
      | .ok d => .ok ⟨V3.dot f.force d • r.dir, 0, 0⟩
    else .ok f

open Classical in
/-- launchRail.py:58-81 `applyLaunchTowerMotionConstraint`: still on the rail?, new position, new velocity. The orientation
and the angular velocity of the state are not touched. -/
noncomputable def constrain (r : Rail) (s : RBState3) (time : ℝ) : Except PyErr (Bool × RBState3) :=
  match r.getPosition time with
  | .error e => .error e
  | .ok p =>
    match r.getDirection time with
    | .error e => .error e
    | .ok d =>
      let dist := V3.dot (s.pos - p) d
      if dist < r.length then
        if dist ≤ 0 then
          if V3.dot s.vel d < 0 then
            match r.getVelocity time with
            | .error e => .error e
            | .ok v => .ok (true, ⟨p, v⟩)
          else .ok (true, ⟨p, s.vel⟩)
        else .ok (true, s)
      else .ok (false, s)

end Rail

/-- environment.py:195-207 `Environment.applyLaunchRailMotionConstraints`: the state returned, and the attribute
`launchRail` afterwards -/
noncomputable def envConstrain (rail : Option Rail) (s : RBState3) (time : ℝ) :
    Except PyErr (RBState3 × Option Rail) :=
  match rail with
  | none => .ok (s, none)
  | some r =>
    match r.constrain s time with
    | .error e => .error e
    | .ok (true, s') => .ok (s', some r)
    | .ok (false, s') => .ok (s', none)

/-- environment.py:209-214 `Environment.applyLaunchTowerForce` -/
noncomputable def envForce (rail : Option Rail) (pos : V3 ℝ) (time : ℝ) (f : FMS ℝ) : Except PyErr (FMS ℝ) :=
  match rail with
  | none => .ok f
  | some r => r.applyForce pos time f

/-- What a simulation asks of the environment about the rail (rocket.py:669 and rocket.py:596), in any order -/
inductive RailCall where
  | constrain (s : RBState3) (time : ℝ)
  | force (pos : V3 ℝ) (time : ℝ) (f : FMS ℝ)

/-- The answer to a call -/
inductive RailAnswer where
  | state (s : RBState3)
  | force (f : FMS ℝ)

/-- one call: the answer and the rail afterwards -/
noncomputable def railCall (rail : Option Rail) : RailCall → Except PyErr (RailAnswer × Option Rail)
  | .constrain s t => (envConstrain rail s t).map fun r => (.state r.1, r.2)
  | .force p t f => (envForce rail p t f).map fun g => (.force g, rail)

/-- a history of calls: the answers and the final rail -/
noncomputable def railCalls : Option Rail → List RailCall → Except PyErr (List RailAnswer × Option Rail)
  | rail, [] => .ok ([], rail)
  | rail, c :: cs =>
    match railCall rail c with
    | .error e => .error e
    | .ok (a, rail') =>
      match railCalls rail' cs with
      | .error e => .error e
      | .ok (as, r) => .ok (a :: as, r)

/-- rocket.py:596 and RigidBodies.py:101 for a 6-DoF rocket: the total force `f`, in the rocket's own frame, goes
through the rail and is then rotated into the global frame by the orientation. -/
noncomputable def globalForce (rail : Option Rail) (pos : V3 ℝ) (ori : Quat ℝ) (time : ℝ) (f : FMS ℝ) :
    Except PyErr (V3 ℝ) :=
  match envForce rail pos time f with
  | .error e => .error e
  | .ok g => (ori.rotate g.force).map Prod.fst

end Mapleaf.ENV
