import Verif.Base.Dict
import Mathlib.Analysis.SpecialFunctions.Pow.Real
import Mathlib.Analysis.SpecialFunctions.Log.Basic

/-!
# Grid convergence

Model of IO/gridConvergenceFunctions.py:12-115 and of the sequence of step sizes of
`ConvergenceSimRunner.convergeSimEndPosition` (SimulationRunners/Convergence.py:47-139).
-/

namespace Mapleaf.Run.Conv

open Classical in
/-- gridConvergenceFunctions.py:12-24 `orderOfConvergence` -/
noncomputable def orderOf (coarse med fine ratio minOrder maxOrder : ℝ) : Except PyErr ℝ :=
  if med - fine = 0 then .error .zeroDivision
  else
    let body := (coarse - med) / (med - fine)
    if body ≤ 0 then .ok minOrder
    else if ratio ≤ 0 then .error .valueError
    else if Real.log ratio = 0 then .error .zeroDivision
    else .ok (min maxOrder (max minOrder (Real.log body / Real.log ratio)))

open Classical in
/-- gridConvergenceFunctions.py:40-41 `richardsonExtrap` -/
noncomputable def richardson (finer coarser ratio order : ℝ) : Except PyErr ℝ :=
  if ratio ^ order - 1 = 0 then .error .zeroDivision
  else .ok (finer + (finer - coarser) / (ratio ^ order - 1))

open Classical in
/-- gridConvergenceFunctions.py:43-44 `errorEstimate` -/
noncomputable def errorEstimate (order fine med ratio : ℝ) : Except PyErr ℝ :=
  if ratio ^ order - 1 = 0 then .error .zeroDivision
  else .ok (|fine - med| / (ratio ^ order - 1))

open Classical in
/-- gridConvergenceFunctions.py:29-35 `GCI` without a normalisation constant -/
noncomputable def gci (coarser finer ratio order fs : ℝ) : Except PyErr ℝ :=
  if finer = 0 then .error .zeroDivision
  else if ratio ^ order - 1 = 0 then .error .zeroDivision
  else .ok (|fs * |(coarser - finer) / finer| / (ratio ^ order - 1)| * 100)

open Classical in
/-- gridConvergenceFunctions.py:37-38 `asymptoticCheck` -/
noncomputable def asymptotic (gciFiner gciCoarser ratio order : ℝ) : Except PyErr ℝ :=
  if gciFiner * ratio ^ order = 0 then .error .zeroDivision
  else .ok (gciCoarser / (gciFiner * ratio ^ order))

/-- gridConvergenceFunctions.py:72-73 `uncertainty_GCI2g`, the default uncertainty -/
noncomputable def uncertainty (fine med ratio formalOrder : ℝ) : Except PyErr ℝ := do
  let e ← errorEstimate formalOrder fine med ratio
  .ok (3 * e)

/-- Convergence.py:50, 102-112: the step sizes (or target errors) of the successive simulations -/
def stepLoop {K : Type} [Field K] (ratio : K) : Nat → K → List K
  | 0, _ => []
  | n + 1, h => h / ratio :: stepLoop ratio n (h / ratio)

/-- Convergence.py:50-52: the loop starts from the configured value times the ratio -/
def stepHistory {K : Type} [Field K] (ratio h0 : K) (simLimit : Nat) : List K := stepLoop ratio simLimit (h0 * ratio)

end Mapleaf.Run.Conv
