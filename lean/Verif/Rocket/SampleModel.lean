import Verif.Motion.BodyStepModel

/-!
# Model: the sample component with a state variable (MAPLEAF/Rocket/sampleStatefulRocketComponent.py)

Numbers are reals. `AttributeError` is raised by looking up a name on the rocket; the only such name here is the logging function.
-/

namespace Mapleaf.Rocket.Sample
open Mapleaf Mapleaf.Motion

/-- sampleStatefulRocketComponent.py:12-18 `getExtraParametersToIntegrate`: names, initial values (the derivative function is
`tankDerivative`) -/
def extra : List String × List ℚ := (["tankLevel"], [1])

/-- sampleStatefulRocketComponent.py:20-21 `getTankLevelDerivative` -/
noncomputable def tankDerivative (level : ℝ) : ℝ := -2 * level

/-- sampleStatefulRocketComponent.py:23-29 `getAppliedForce`; `hasLog` says whether the rocket has a function
`appendToForceLogLine` -/
noncomputable def appliedForce (hasLog : Bool) (level : ℝ) : Except PyErr (V3 ℝ) :=
  if hasLog then .ok ⟨0, 0, -2000 * tankDerivative level⟩ else .error .attributeError

/-- the functions of a rocket: no class of the code defines `appendToForceLogLine` (Rocket/rocket.py, Rocket/CompositeObject.py) -/
def rocketHasLog : Bool := false

/-- sampleStatefulRocketComponent.py:31-38 `getInertia` -/
noncomputable def inertia (level : ℝ) : MassProps :=
  let mass := 5 + level * 4.56
  ⟨mass, ⟨mass, mass, mass * 0.05⟩, ⟨0, 0, -3 + level⟩⟩

end Mapleaf.Rocket.Sample
