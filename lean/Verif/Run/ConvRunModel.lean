import Verif.Run.ConvModel
import Verif.SimDef.StoreModel
import Verif.Motion.VecModel

/-!
# Convergence studies

Model of `ConvergenceSimRunner` (SimulationRunners/Convergence.py) and of `checkConvergence`
(IO/gridConvergenceFunctions.py:79-173) on final positions. A simulation is an arbitrary function of the definition and of
a hidden state `E` (the environment object is shared by all runs); it returns the last time and position of the first
flight, the time it took and the definition it leaves behind (a control system changes the time step in it,
GNC/ControlSystems.py:149). Simplifications: usage trackers of the definition, console output and drawing are left out;
`fmt` and `parse` are Python's `str` and `float` on numbers. `disableDistributionSampling` (Convergence.py:302) is left
out: it is only read when values are sampled, which a study never does.
-/

namespace Mapleaf.Run.ConvRun
open Str SimDef Motion Conv

/-- What one run returns: `flights[0].times[-1]`, `flights[0].rigidBodyStates[-1].position` and the wall time -/
structure Flight where
  endTime : ℝ
  endPos : V3 ℝ
  wall : ℝ

/-- gridConvergenceFunctions.py:114-115: the results of one coordinate -/
structure Check where
  order : ℝ
  gci12 : ℝ
  gci23 : ℝ
  asym : ℝ
  extrap : ℝ
  unc : ℝ

open Classical in
/-- gridConvergenceFunctions.py:89-115 `actuallyCheckConvergence` with the default settings -/
noncomputable def checkOne (c m f r p : ℝ) : Except PyErr Check := do
  let g12 ← gci m f r p 3
  let g23 ← gci c m r p 3
  let a ← asymptotic g12 g23 r p
  let (g12, g23) ← if (p < 2 + 0.2 ∧ p > 2 - 0.2) ∧ |a - 1| < 0.05 then do
      let x ← gci m f r p 1.25
      let y ← gci c m r p 1.25
      pure (x, y)
    else pure (g12, g23)
  let v ← richardson f m r p
  let u ← uncertainty f m r 2
  pure ⟨p, g12, g23, a, v, u⟩

/-- gridConvergenceFunctions.py:79-173 `checkConvergence` of three positions: all orders first, then coordinate by
coordinate -/
noncomputable def checkThree (c m f : V3 ℝ) (r : ℝ) : Except PyErr (List Check) := do
  let px ← orderOf c.x m.x f.x r 0.5 2
  let py ← orderOf c.y m.y f.y r 0.5 2
  let pz ← orderOf c.z m.z f.z r 0.5 2
  let x ← checkOne c.x m.x f.x r px
  let y ← checkOne c.y m.y f.y r py
  let z ← checkOne c.z m.z f.z r pz
  pure [x, y, z]

open Classical in
/-- Convergence.py:134: the criterion for stopping; `a`, `b`, `c` are the asymptotic checks of the three coordinates -/
noncomputable def stops (cs : List Check) : Bool :=
  match cs.map Check.asym with
  | [a, b, c] => decide (|(a + b + c) / 3 - 1| < 0.1) && decide (max (max a b) c - min (min a b) c < 0.2)
  | _ => false

/-- Convergence.py:123-125: the last three positions, if there are three -/
def lastThree {α : Type} (l : List α) : Option (α × α × α) :=
  match l.reverse with
  | f :: m :: c :: _ => some (c, m, f)
  | _ => none

/-- the state of the loop, and what is left when it ends -/
structure St (E : Type) where
  steps : List ℝ
  positions : List (V3 ℝ)
  walls : List ℝ
  checks : List (List Check)
  store : Store
  env : E
  /-- Convergence.py:134-137: the flight returned instead of the wall times when the loop was left early -/
  early : Option Flight

variable {E : Type}

/-- Convergence.py:300-317 `_setUpConfigFileForConvergenceRun` -/
noncomputable def setUp (sim : E → Store → Except PyErr (Flight × Store × E)) (fmt : ℝ → Str) (s : Store) (e : E) : Except PyErr (Store × E) :=
  let s := setValue s "SimControl.plot".toList "None".toList
  match (getValue s "SimControl.EndCondition".toList).1 with
  | .error err => .error err
  | .ok c =>
    if c ≠ "Time".toList then
      match sim e s with
      | .error err => .error err
      | .ok (fl, s, e) =>
        let s := setValue s "SimControl.EndCondition".toList "Time".toList
        .ok (setValue s "SimControl.EndConditionValue".toList (fmt fl.endTime), e)
    else .ok (s, e)

open Classical in
/-- Convergence.py:102-139: the loop; the first number is how many simulations are left -/
noncomputable def loop (sim : E → Store → Except PyErr (Flight × Store × E)) (fmt : ℝ → Str) (key : Str) (r : ℝ) (stop : Bool) :
    Nat → ℝ → St E → Except PyErr (St E)
  | 0, _, st => .ok st
  | n + 1, h, st =>
    let h := h / r
    let s := setValue st.store key (fmt h)
    match sim st.env s with
    | .error err => .error err
    | .ok (fl, s, e) =>
      let st' : St E := ⟨st.steps ++ [h], st.positions ++ [fl.endPos], st.walls ++ [fl.wall], st.checks, s, e, none⟩
      match lastThree st'.positions with
      | none => loop sim fmt key r stop n h st'
      | some (c, m, f) =>
        match checkThree c m f r with
        | .error err => .error err
        | .ok cs =>
          if stop && stops cs then .ok { st' with checks := st'.checks ++ [cs], early := some fl }
          else loop sim fmt key r stop n h { st' with checks := st'.checks ++ [cs] }

/-- Convergence.py:41-45: the entry that is refined -/
def stepKey (scheme : Str) : Str :=
  if isIn "Adaptive".toList scheme then "SimControl.TimeStepAdaptation.targetError".toList else "SimControl.timeStep".toList

/-- Convergence.py:15-149 `convergeSimEndPosition` -/
noncomputable def study (sim : E → Store → Except PyErr (Flight × Store × E)) (fmt : ℝ → Str) (parse : Str → Except PyErr ℝ) (r : ℝ)
    (stop : Bool) (limit : Nat) (s : Store) (e : E) : Except PyErr (St E) :=
  match setUp sim fmt s e with
  | .error err => .error err
  | .ok (s, e) =>
    match (getValue s "SimControl.timeDiscretization".toList).1 with
    | .error err => .error err
    | .ok scheme =>
      match (getValue s (stepKey scheme)).1 with
      | .error err => .error err
      | .ok t =>
        match parse t with
        | .error err => .error err
        | .ok h => loop sim fmt (stepKey scheme) r stop limit (h * r) ⟨[], [], [], [], s, e, none⟩

/-- What the third result of a study is (Convergence.py:137, 149) -/
inductive Third
  | walls (l : List ℝ)
  | flight (f : Flight)

def third (st : St E) : Third :=
  match st.early with
  | some f => .flight f
  | none => .walls st.walls

/-- Convergence.py:177-184, 250-257: the studies of all schemes; `t0` is the text of the initial step -/
noncomputable def schemes (sim : E → Store → Except PyErr (Flight × Store × E)) (fmt : ℝ → Str) (parse : Str → Except PyErr ℝ)
    (key t0 : Str) (limit : Nat) : List Str → Store → E → Except PyErr (List (St E))
  | [], _, _ => .ok []
  | c :: cs, s, e =>
    let s := setValue s "SimControl.timeDiscretization".toList c
    let s := setValue s key t0
    match study sim fmt parse 2 false limit s e with
    | .error err => .error err
    | .ok st =>
      match schemes sim fmt parse key t0 limit cs st.store st.env with
      | .error err => .error err
      | .ok l => .ok (st :: l)

/-- Convergence.py:195-198, 268-271: the column headers -/
def header (first : Str) (cs : List Str) : List Str :=
  first :: cs.flatMap (fun c => [c ++ "_FinalX(m)".toList, c ++ "_FinalY(m)".toList, c ++ "_FinalZ(m)".toList, c ++ "_WallTime(s)".toList])

/-- Convergence.py:207-210, 280-283: the entries of one scheme in row `k` -/
def cells (st : St E) (k : Nat) : Except PyErr (List ℝ) :=
  match st.positions[k]?, st.walls[k]? with
  | some p, some w => .ok [p.x, p.y, p.z, w]
  | _, _ => .error .indexError

/-- Convergence.py:204-212, 277-285: row `k` with step `h` -/
def row (l : List (St E)) (h : ℝ) (k : Nat) : Except PyErr (List ℝ) := do
  let parts ← l.mapM (fun st => cells st k)
  pure (h :: parts.flatten)

/-- Convergence.py:182, 203 and 255, 276: the rows; the steps are those of the last scheme -/
def rows (l : List (St E)) : Except PyErr (List (List ℝ)) :=
  let steps := (l.getLast?.map St.steps).getD []
  steps.zipIdx.mapM (fun p => row l p.1 p.2)

/-- Convergence.py:151-222 `compareClassicalIntegrationSchemes` and 224-298 `compareAdaptiveIntegrationSchemes`: the table
written, and then what saving the figure gives. `key` is `SimControl.timeStep` and `first` is `TimeStep(s)`, or `SimControl.TimeStepAdaptation.targetError` and
`TargetError`. `folder` says which folders exist; `save` asks for the figure (214-218, 288-292). -/
noncomputable def compare (sim : E → Store → Except PyErr (Flight × Store × E)) (fmt : ℝ → Str) (parse : Str → Except PyErr ℝ)
    (folder : Str → Bool) (key first : Str) (limit : Nat) (save : Bool) (cs : List Str) (s : Store) (e : E) :
    Except PyErr ((List Str × List (List ℝ)) × Except PyErr Unit) :=
  match (getValue s key).1 with
  | .error err => .error err
  | .ok t =>
    match parse t with
    | .error err => .error err
    | .ok h =>
      match schemes sim fmt parse key (fmt h) limit cs s e with
      | .error err => .error err
      | .ok l =>
        match rows l with
        | .error err => .error err
        | .ok r =>
          .ok ((header first cs, r),
            if save && !(folder "/home/hhstoldt/Documents/flightSimPaper/Figures/Images".toList ||
              folder "C:/Users/rando/Documents/flightSimPaper/Figures/Images".toList) then .error .fileNotFound
            else .ok ())

end Mapleaf.Run.ConvRun
