import Verif.Base.Dict
import Mathlib.Algebra.Module.Basic
import Mathlib.Algebra.Order.Field.Basic
import Mathlib.Data.Rat.Cast.CharZero
import Mathlib.Algebra.Order.Field.Rat

/-! # Model: MAPLEAF/Motion/Integration.py

States and derivatives are elements of a module `S` over an ordered field `K` (numbers, translational states, and for the
fixed-step methods `StateList`s of numbers). Rigid-body orientations, where `+` multiplies rotations, and `StateList`s with the
adaptive methods, where `+=` appends, are not covered here (see `BodyStepModel`).
No rounding. An `AssertionError` is modelled as `runtimeError`. -/

namespace Mapleaf.Motion.RK

abbrev Tableau (K : Type) := List (List K)

section check
variable {K : Type} [Field K] [LinearOrder K]

/-- `math.isclose(a, b)` with its default relative tolerance 1e-9 -/
def isclose (a b : K) : Bool := decide (|a - b| ≤ (1 / 1000000000) * max |a| |b|)

/-- Integration.py:35-49: the consistency check of `checkButcherTableau` -/
def rowsConsistent : Nat → Tableau K → Bool
  | _, [] => true
  | last, row :: rows =>
    (if row.length = last then isclose row.sum 1
     else isclose (row.headD 0) row.tail.sum) && rowsConsistent row.length rows

/-- Integration.py:51-54: zero coefficients are replaced by 1e-16 -/
def patch (tab : Tableau K) : Tableau K := tab.map (fun row => row.map (fun x => if x = 0 then 1 / 10 ^ 16 else x))

/-- Integration.py:33-54 `checkButcherTableau` -/
def checkTableau (tab : Tableau K) : Except PyErr (Tableau K) :=
  if rowsConsistent 0 tab then .ok (patch tab) else .error .runtimeError

end check

/-! ### The built-in tableaus -/

/-- Integration.py:154-159 -/
def tabRK2Midpoint : Tableau ℚ := [[1/2, 1/2], [0, 1]]
/-- Integration.py:160-165 -/
def tabRK2Heun : Tableau ℚ := [[1, 1], [1/2, 1/2]]
/-- Integration.py:166-173 -/
def tabRK4 : Tableau ℚ := [[1/2, 1/2], [1/2, 0, 1/2], [1, 0, 0, 1], [1/6, 1/3, 1/3, 1/6]]
/-- Integration.py:174-181 -/
def tabRK438 : Tableau ℚ := [[1/3, 1/3], [2/3, -1/3, 1], [1, 1, -1, 1], [1/8, 3/8, 3/8, 1/8]]
/-- Integration.py:251-256 -/
def tabRK12 : Tableau ℚ := [[1/2, 1/2], [0, 1], [1, 0]]
/-- Integration.py:258-265 -/
def tabRK23 : Tableau ℚ := [[1/2, 1/2], [3/4, 0, 3/4], [1, 2/9, 1/3, 4/9], [2/9, 1/3, 4/9, 0], [7/24, 1/4, 1/3, 1/8]]
/-- Integration.py:267-277 -/
def tabRK45 : Tableau ℚ :=
  [[1/5, 1/5], [3/10, 3/40, 9/40], [4/5, 44/45, -56/15, 32/9],
   [8/9, 19372/6561, -25360/2187, 64448/6561, -212/729],
   [1, 9017/3168, -355/33, 46732/5247, 49/176, -5103/18656],
   [1, 35/384, 0, 500/1113, 125/192, -2187/6784, 11/84],
   [35/384, 0, 500/1113, 125/192, -2187/6784, 11/84, 0],
   [5179/57600, 0, 7571/16695, 393/640, -92097/339200, 187/2100, 1/40]]
/-- Integration.py:279-295 -/
def tabRK78 : Tableau ℚ :=
  [[1/18, 1/18], [1/12, 1/48, 1/16], [1/8, 1/32, 0, 3/32], [5/16, 5/16, 0, -75/64, 75/64],
   [3/8, 3/80, 0, 0, 3/16, 3/20],
   [59/400, 29443841/614563906, 0, 0, 77736538/692538347, -28693883/1125000000, 23124283/1800000000],
   [93/200, 16016141/946692911, 0, 0, 61564180/158732637, 22789713/633445777, 545815736/2771057229,
    -180193667/1043307555],
   [5490023248/9719169821, 39632708/573591083, 0, 0, -433636366/683701615, -421739975/2616292301, 100302831/723423059,
    790204164/839813087, 800635310/3783071287],
   [13/20, 246121993/1340847787, 0, 0, -37695042795/15268766246, -309121744/1061227803, -12992083/490766935,
    6005943493/2108947869, 393006217/1396673457, 123872331/1001029789],
   [1201146811/1299019798, -1028468189/846180014, 0, 0, 8478235783/508512852, 1311729495/1432422823,
    -10304129995/1701304382, -48777925059/3047939560, 15336726248/1032824649, -45442868181/3398467696,
    3065993473/597172653],
   [1, 185892177/718116043, 0, 0, -3185094517/667107341, -477755414/1098053517, -703635378/230739211,
    5731566787/1027545527, 5232866602/850066563, -4093664535/808688257, 3962137247/1805957418, 65686358/487910083],
   [1, 403863854/491063109, 0, 0, -5068492393/434740067, -411421997/543043805, 652783627/914296604,
    11173962825/925320556, -13158990841/6184727034, 3936647629/1978049680, -160528059/685178525, 248638103/1413531060, 0],
   [14005451/335480064, 0, 0, 0, 0, -59238493/1068277825, 181606767/758867731, 561292985/797845732,
    -1041891430/1371343529, 760417239/1151165299, 118820643/751138087, -528747749/2220607170, 1/4],
   [13451932/455176623, 0, 0, 0, 0, -808719846/976000145, 1757004468/5645159321, 656045339/265891186,
    -3867574721/1518517206, 465885868/322736535, 53011238/667516719, 2/45, 0]]

/-- Integration.py:152-183: fixed-step methods (`none`: Euler, which has no tableau) -/
def classicalTableau (method : String) : Except PyErr (Option (Tableau ℚ)) :=
  if method = "Euler" then .ok none
  else if method = "RK2Midpoint" then .ok (some tabRK2Midpoint)
  else if method = "RK2Heun" then .ok (some tabRK2Heun)
  else if method = "RK4" then .ok (some tabRK4)
  else if method = "RK4_3/8" then .ok (some tabRK438)
  else .error .valueError

/-- Integration.py:251-298: adaptive methods and whether their last derivative is reused -/
def adaptiveTableau (method : String) : Except PyErr (Tableau ℚ × Bool) :=
  if method = "RK12Adaptive" then .ok (tabRK12, false)
  else if method = "RK23Adaptive" then .ok (tabRK23, true)
  else if method = "RK45Adaptive" then .ok (tabRK45, true)
  else if method = "RK78Adaptive" then .ok (tabRK78, false)
  else .error .valueError

section step
variable {K S : Type} [Field K] [LinearOrder K] [AddCommGroup S] [Module K S]

/-- `k / (1/w)`: a `ZeroDivisionError` when `w` is zero -/
def divInv (k : S) (w : K) : Except PyErr S := if w = 0 then .error .zeroDivision else .ok ((1 / (1 / w)) • k)

/-- Integration.py:221-222, 232-233: the remaining terms of `k[0]/(1/w0) + k[1]/(1/w1) + …` -/
def accum (dt : K) : S → List K → List S → Except PyErr S
  | acc, [], _ => .ok acc
  | _, _ :: _, [] => .error .indexError
  | acc, w :: ws, k :: ks =>
    match divInv k (w * dt) with
    | .ok x => accum dt (acc + x) ws ks
    | .error e => .error e

/-- Integration.py:220-222 (and 231-233 with factor 1) -/
def combine (dt : K) (ws : List K) (ks : List S) : Except PyErr S :=
  match ws, ks with
  | w :: ws, k :: ks =>
    match divInv k (w * dt) with
    | .ok x => accum dt x ws ks
    | .error e => .error e
  | _, _ => .error .indexError

/-- The derivatives computed so far and the points at which the right-hand side was evaluated. -/
structure Stages (K S : Type) where
  ks : List S
  evals : List (K × S)

/-- Integration.py:216-225: one derivative evaluation per tableau row -/
def stages (f : K → S → S) (t : K) (y : S) (dt : K) : Tableau K → Stages K S → Except PyErr (Stages K S)
  | [], st => .ok st
  | row :: rows, st =>
    match row with
    | [] => .error .indexError
    | c :: as =>
      match combine dt as st.ks with
      | .error e => .error e
      | .ok e => stages f t y dt rows ⟨st.ks ++ [f (t + dt * c) (y + e)], st.evals ++ [(t + dt * c, y + e)]⟩

/-- The part of `IntegrationResult` (Integration.py:125-142) the step itself computes, and the evaluations made. -/
structure StepResult (K S : Type) where
  newValue : S
  derivative : S
  evals : List (K × S)

/-- Integration.py:197-236 `_integrateByButcherTableau` -/
def rkStep (tab : Tableau K) (f : K → S → S) (t : K) (y : S) (dt : K) : Except PyErr (StepResult K S) :=
  match stages f t y dt tab.dropLast ⟨[f t y], [(t, y)]⟩ with
  | .error e => .error e
  | .ok st =>
    match combine 1 (tab.getLast?.getD []) st.ks with
    | .error e => .error e
    | .ok d => .ok ⟨y + dt • d, d, st.evals⟩

/-- Integration.py:193-195 `_integrateEuler` -/
def eulerStep (f : K → S → S) (t : K) (y : S) (dt : K) : StepResult K S := ⟨y + dt • f t y, f t y, [(t, y)]⟩

/-- Integration.py:147-190 `ClassicalIntegrator(method)(y, t, f, dt)` -/
def classicalStep (method : String) (f : K → S → S) (t : K) (y : S) (dt : K) : Except PyErr (StepResult K S) :=
  match classicalTableau method with
  | .error e => .error e
  | .ok none => .ok (eulerStep f t y dt)
  | .ok (some tab) =>
    match checkTableau (tab.map (fun r : List ℚ => r.map (fun q : ℚ => (q : K)))) with
    | .error e => .error e
    | .ok tab' => rkStep tab' f t y dt

/-- Integration.py:424-426: `k[0]*a1 + k[1]*a2 + …` -/
def linComb : List K → List S → Except PyErr S
  | w :: ws, k :: ks => go (w • k) ws ks
  | _, _ => .error .indexError
where
  go : S → List K → List S → Except PyErr S
  | acc, [], _ => .ok acc
  | _, _ :: _, [] => .error .indexError
  | acc, w :: ws, k :: ks => go (acc + w • k) ws ks

/-- Integration.py:420-429 -/
def stagesA (f : K → S → S) (t : K) (y : S) (dt : K) : Tableau K → Stages K S → Except PyErr (Stages K S)
  | [], st => .ok st
  | row :: rows, st =>
    match row with
    | [] => .error .indexError
    | c :: as =>
      match linComb as st.ks with
      | .error e => .error e
      | .ok e => stagesA f t y dt rows ⟨st.ks ++ [f (t + dt * c) (y + dt • e)], st.evals ++ [(t + dt * c, y + dt • e)]⟩

/-- Result of one attempt of an adaptive step. -/
structure Attempt (K S : Type) where
  newValue : S
  derivative : S
  error : K
  last : S
  evals : List (K × S)

/-- Integration.py:413-417: the first derivative -/
def initStages (cache : Option S) (f : K → S → S) (t : K) (y : S) : Stages K S :=
  match cache with
  | some k => ⟨[k], []⟩
  | none => ⟨[f t y], [(t, y)]⟩

/-- Integration.py:392-449 `_integrate`; `cache` is the reused derivative, `mag` is `abs` of the state type -/
def attempt (mag : S → K) (tab : Tableau K) (cache : Option S) (f : K → S → S) (t : K) (y : S) (dt : K) :
    Except PyErr (Attempt K S) :=
  match stagesA f t y dt tab.dropLast.dropLast (initStages cache f t y) with
  | .error e => .error e
  | .ok st =>
    match combine 1 (tab.dropLast.getLast?.getD []) st.ks, combine 1 (tab.getLast?.getD []) st.ks with
    | .ok fine, .ok coarse =>
      let finePred := y + dt • fine
      let coarsePred := y + dt • coarse
      .ok ⟨finePred, fine, mag (-coarsePred + finePred), st.ks.getLastD (f t y), st.evals⟩
    | .error e, _ => .error e
    | _, .error e => .error e

/-- Integrator settings (Integration.py:303-307) -/
structure Settings (K : Type) where
  targetError : K
  minTimeStep : K
  maxTimeStep : K
  minFactor : K
  maxFactor : K
  safetyFactor : K

/-- Outcome of the attempt loop: the accepted attempt, its step size, the attempts made in order (step sizes) and the
number of calls of the discard callback. -/
structure Loop (K S : Type) where
  result : Attempt K S
  dt : K
  tried : List K
  discards : Nat

/-- Integration.py:338-347: the `while` loop after `errorMagEstimate` has value `err`; `fuel` bounds the number of
iterations. `acc` holds the previous attempt, the step sizes tried and the discard calls so far. Leaving the loop without
an attempt is the `UnboundLocalError` at line 350/353, modelled as `runtimeError`. -/
def attemptLoop (s : Settings K) (try_ : K → Except PyErr (Attempt K S)) :
    Nat → K → K → Option (Attempt K S) → List K → Nat → Except PyErr (Loop K S)
  | fuel, dt, err, prev, tried, disc =>
    if err > 20 * s.targetError then
      match fuel with
      | 0 => .error .outOfFuel
      | fuel + 1 =>
        let disc' := if err ≠ 10000000 then disc + 1 else disc
        let dt' := max s.minTimeStep (dt / 3)
        match try_ dt' with
        | .error e => .error e
        | .ok a =>
          if isclose dt' s.minTimeStep then .ok ⟨a, dt', tried ++ [dt'], disc'⟩
          else attemptLoop s try_ fuel dt' a.error (some a) (tried ++ [dt']) disc'
    else
      match prev with
      | some a => .ok ⟨a, dt, tried, disc⟩
      | none => .error .runtimeError

/-- Integration.py:331-350: the attempts of `AdaptiveIntegrator.__call__` -/
def adaptiveCall (s : Settings K) (try_ : K → Except PyErr (Attempt K S)) (fuel : Nat) (dt : K) :
    Except PyErr (Loop K S) :=
  attemptLoop s try_ fuel (dt * 3) 10000000 none [] 0

/-- Integration.py:349-350: the derivative kept for the next call -/
def newCache (fsal : Bool) (old : Option S) (a : Attempt K S) : Option S := if fsal then some a.last else old

/-- Integration.py:359-374 `_limitAdaptationFactor` -/
def limitFactor (s : Settings K) (desired dt : K) : Except PyErr K :=
  if dt = 0 then .error .zeroDivision
  else
    let minFactor := max (s.minTimeStep / dt) s.minFactor
    let maxFactor := min (s.maxTimeStep / dt) s.maxFactor
    .ok (s.safetyFactor * min (max desired minFactor) maxFactor)

/-- SingleSimulations.py:301-312: rows removed from every derivative evaluation log when an attempt is discarded -/
def discardRows (loggingLevel : Nat) (method : String) (tab : Tableau K) : Nat :=
  if loggingLevel ≥ 2 then (if method = "RK12Adaptive" then 2 else tab.length - 1) else 0

end step
end Mapleaf.Motion.RK
