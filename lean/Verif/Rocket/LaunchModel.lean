import Verif.Rocket.AscentModel

/-!
# Model: from the launch definition to a flight (MAPLEAF/ENV/environment.py, MAPLEAF/Rocket/rocket.py)
-/

namespace Mapleaf.Rocket
open Mapleaf.Motion V3 ENV

/-- what a simulation definition says about the launch: `position`, `velocity`, `angularVelocity`, `rotationAxis` and `rotationAngle` (if
given), `initialDirection`, and the launch rail's length; with the initial centre of gravity of the rocket -/
structure Launch where
  pos : V3 ℝ
  vel : V3 ℝ
  angVel : V3 ℝ
  rotation : Option (V3 ℝ × ℝ)
  dir : V3 ℝ
  cg : V3 ℝ
  railLength : ℝ

/-- environment.py:55-91 (the rail), rocket.py:251-291, 416-422 (the initial state), then the flight of `fly`, from time 0 -/
noncomputable def launchFlight (E : Env) (l : Launch) (method : String) (steps : List (Craft × ℝ)) : Except PyErr InFlight := do
  let rail ← makeRail E.earth E.elevation E.lat E.lon l.railLength l.pos l.rotation l.dir
  let s ← Env.initialState { E with rail := rail } l.pos l.vel l.angVel l.rotation l.dir l.cg
  fly E method ⟨0, s, rail, none⟩ steps

end Mapleaf.Rocket
