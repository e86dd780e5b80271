import Verif.Motion.IntegModel
import Mathlib.Data.Real.Basic

/-!
# Model: flights with an adaptive integrator (Integration.py:331-357, RigidBodies.py:49-62, 139-152)

States are vectors (numbers, 3-DoF states); what the step size controller asks for next (C22) is not computed here: the step sizes requested are a
parameter, so that every controller is covered. The controller may itself raise (C22), which ends the flight.
-/

namespace Mapleaf.Motion.RK

/-- RigidBodies.py:30-39, Integration.py:249: time, state and the derivative kept by the integrator -/
structure Adapted (S : Type) where
  time : ℝ
  state : S
  cache : Option S

section flight
variable {S : Type} [AddCommGroup S] [Module ℝ S]

/-- RigidBodies.py:49-62 with Integration.py:331-350: one call of `timeStep`; also returns the step taken -/
noncomputable def adaptStep (s : Settings ℝ) (mag : S → ℝ) (tab : Tableau ℝ) (fsal : Bool) (f : ℝ → S → S) (fuel : ℕ) (b : Adapted S) (dt : ℝ) :
    Except PyErr (ℝ × Adapted S) :=
  match adaptiveCall s (fun h => attempt mag tab b.cache f b.time b.state h) fuel dt with
  | .error e => .error e
  | .ok r => .ok (r.dt, ⟨b.time + r.dt, r.result.newValue, newCache fsal b.cache r.result⟩)

/-- one call after the other, with the requested sizes; returns the steps taken -/
noncomputable def adaptSteps (s : Settings ℝ) (mag : S → ℝ) (tab : Tableau ℝ) (fsal : Bool) (f : ℝ → S → S) (fuel : ℕ) :
    Adapted S → List ℝ → Except PyErr (List ℝ × Adapted S)
  | b, [] => .ok ([], b)
  | b, dt :: dts =>
    match adaptStep s mag tab fsal f fuel b dt with
    | .error e => .error e
    | .ok (h, b') =>
      match adaptSteps s mag tab fsal f fuel b' dts with
      | .error e => .error e
      | .ok (hs, b'') => .ok (h :: hs, b'')

end flight
end Mapleaf.Motion.RK
