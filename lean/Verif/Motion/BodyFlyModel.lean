import Verif.Motion.BodyStepModel

/-!
# Model: flights of rigid bodies with an adaptive integrator (Integration.py:331-357, RigidBodies.py:30-62, 65-115)

The default setting: a rocket of which no component has state variables of its own is a `RigidBody` (rocket.py:278-289) whose state is a
`RigidBodyState`. As in `AdaptFlightModel`, the step sizes requested are a parameter, so that every step size controller is covered; the controller may
itself raise (C22), which ends the flight. States whose arithmetic may raise: an attempt may raise.
-/

namespace Mapleaf.Motion.Body
open Mapleaf Mapleaf.Motion
open Mapleaf.Motion.RK (Tableau Settings isclose)

/-- RigidBodies.py:30-39, Integration.py:249: time, state and the derivative kept by the integrator -/
structure Flyer (S D : Type) where
  time : ℝ
  state : S
  cache : Option D

/-- Integration.py:338-347: the `while` loop when `errorMagEstimate` is `err`, the step size `dt` and the last attempt `prev`; `fuel` bounds the number of
iterations. Leaving the loop without an attempt is the `UnboundLocalError` of line 350 or 353. Returns the size and the attempt. -/
noncomputable def tryLoop {α : Type} (s : Settings ℝ) (err : α → ℝ) (try_ : ℝ → Except PyErr α) : ℕ → ℝ → ℝ → Option α → Except PyErr (ℝ × α)
  | fuel, dt, e, prev =>
    if e > 20 * s.targetError then
      match fuel with
      | 0 => .error .outOfFuel
      | fuel + 1 =>
        match try_ (max s.minTimeStep (dt / 3)) with
        | .error e => .error e
        | .ok a =>
          if isclose (max s.minTimeStep (dt / 3)) s.minTimeStep then .ok (max s.minTimeStep (dt / 3), a)
          else tryLoop s err try_ fuel (max s.minTimeStep (dt / 3)) (err a) (some a)
    else
      match prev with
      | some a => .ok (dt, a)
      | none => .error .runtimeError

section flight
variable {S D : Type} (A : Arith S D)

/-- RigidBodies.py:49-62 with Integration.py:331-350: one call of `timeStep`; also returns the step taken -/
noncomputable def flyStep (s : Settings ℝ) (tab : Tableau ℝ) (fsal : Bool) (f : ℝ → S → Except PyErr D) (fuel : ℕ) (b : Flyer S D) (dt : ℝ) :
    Except PyErr (ℝ × Flyer S D) :=
  match tryLoop s Attempt.error (fun h => attempt A tab b.cache f b.time b.state h) fuel (dt * 3) 10000000 none with
  | .error e => .error e
  | .ok (h, a) => .ok (h, ⟨b.time + h, a.newValue, if fsal then some a.last else b.cache⟩)

/-- one call after the other, with the requested sizes; returns the steps taken -/
noncomputable def flyAdaptive (s : Settings ℝ) (tab : Tableau ℝ) (fsal : Bool) (f : ℝ → S → Except PyErr D) (fuel : ℕ) :
    Flyer S D → List ℝ → Except PyErr (List ℝ × Flyer S D)
  | b, [] => .ok ([], b)
  | b, dt :: dts =>
    match flyStep A s tab fsal f fuel b dt with
    | .error e => .error e
    | .ok (h, b') =>
      match flyAdaptive s tab fsal f fuel b' dts with
      | .error e => .error e
      | .ok (hs, b'') => .ok (h :: hs, b'')

end flight
end Mapleaf.Motion.Body
