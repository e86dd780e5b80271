import Verif.SimDef.StoreModel
import Mathlib.Algebra.Order.Field.Basic

/-!
# Optimisation

Model of SimulationRunners/Optimization.py: reading the independent and dependent variables, writing a trial
point into a simulation definition, the cost of a trial point, starting positions, continuation files and the
treatment of crashed trials.  The minimisers themselves (pyswarms, scipy) and the simulations are not modelled:
`run` stands for one simulation followed by the cost function (Optimization.py:23-55).  `shw` is Python's `str`
of a number, `num` is `float` of a text and `ev` evaluates an expression and shows its value
(Utilities.py:24-29).
-/

namespace Mapleaf.Run.Opt
open Str SimDef

variable {K : Type}

/-! ## reading the variables -/

/-- An independent variable: the key it sets, its name, its bounds -/
structure IndepVar (K : Type) where
  key : Str
  name : Str
  lo : K
  hi : K
deriving DecidableEq

/-- Optimization.py:105-123: one entry `key  min < path < max` -/
def parseIndep (num : Str → Except PyErr K) (key text : Str) : Except PyErr (IndepVar K) :=
  match splitC '<' text with
  | [a, b, c] => do
    let lo ← num (strip a)
    let hi ← num (strip c)
    .ok { key := strip b, name := (splitC '.' key).getLastD [], lo := lo, hi := hi }
  | _ => .error .valueError

/-- Optimization.py:88-132 `_loadIndependentVariables` -/
def loadIndep (num : Str → Except PyErr K) (entries : List (Str × Str)) : Except PyErr (List (IndepVar K)) :=
  entries.mapM (fun e => parseIndep num e.1 e.2)

/-- Optimization.py:76 and 80: the text of the cost function of the optimisation read from `path` -/
def costFunctionDef (s : Store) (path : Str) : Except PyErr Str :=
  match getString s path "costFunction".toList with
  | (.error e, _) => .error e
  | (.ok _, s1) => (getString s1 path "Optimization.costFunction".toList).1

/-! ## writing a trial point into a definition -/

/-- Optimization.py:281-294 `_updateIndependentVariableValues` -/
def updateIndep (shw : K → Str) (vars : List (IndepVar K)) (s : Store) (trial : List K) :
    Except PyErr (Store × Dict Str K) :=
  trial.zipIdx.foldlM (fun (sd : Store × Dict Str K) (vi : K × Nat) =>
    match vars[vi.2]? with
    | some x => .ok (setValue sd.1 x.key (shw vi.1), Dict.set sd.2 x.name vi.1)
    | none => .error .indexError) (s, [])

/-- Optimization.py:302-306: every second part is replaced by its value -/
def evalOdd (ev : Str → Except PyErr Str) : Bool → List Str → Except PyErr (List Str)
  | _, [] => .ok []
  | odd, p :: ps => do
    let q ← if odd then ev p else .ok p
    let r ← evalOdd ev (!odd) ps
    .ok (q :: r)

/-- Optimization.py:302-309: the text of a dependent variable with its expressions replaced -/
def substitute (ev : Str → Except PyErr Str) (text : Str) : Except PyErr Str := do
  let ps ← evalOdd ev false (splitC '!' text)
  .ok ps.flatten

/-- Optimization.py:296-310 `_updateDependentVariableValues`; `deps` are the keys and their definitions -/
def updateDep (ev : Dict Str K → Str → Except PyErr Str) (deps : List (Str × Str)) (s : Store) (vals : Dict Str K) :
    Except PyErr Store :=
  deps.foldlM (fun s d => do
    let v ← substitute (ev vals) d.2
    .ok (setValue s d.1 v)) s

/-- What is fixed while an optimisation runs (Optimization.py:69-86) -/
structure Setup (K : Type) where
  shw : K → Str
  ev : Dict Str K → Str → Except PyErr Str
  vars : List (IndepVar K)
  deps : List (Str × Str)
  cases : List Store

/-- Optimization.py:257-263: the definition for one trial point and one case -/
def trialDef (o : Setup K) (trial : List K) (case : Store) : Except PyErr Store := do
  let r ← updateIndep o.shw o.vars case trial
  updateDep o.ev o.deps r.1 r.2

variable [Field K] [LinearOrder K]

/-- Optimization.py:274-277: the mean over the cases, or the only one -/
def combine : List K → Except PyErr K
  | [] => .error .indexError
  | [x] => .ok x
  | xs => .ok (xs.sum / (xs.length : K))

/-- Optimization.py:251-279 `_computeCostFunctionValues_SingleThreaded`; `inner` is the nested optimisation, if
there is one: it changes the definition before the simulation -/
def costsSingle (o : Setup K) (inner : Option (Store → Except PyErr Store)) (run : Store → Except PyErr K)
    (trials : List (List K)) : Except PyErr (List K) :=
  trials.mapM (fun t => do
    let rs ← o.cases.mapM (fun c => do
      let s ← trialDef o t c
      let s ← match inner with | some f => f s | none => .ok s
      run s)
    combine rs)

/-- Optimization.py:220-249 `_computeCostFunctionValues_Parallel`: all simulations are started, then the results
are collected; a nested optimisation is not looked at -/
def costsParallel (o : Setup K) (_inner : Option (Store → Except PyErr Store)) (run : Store → Except PyErr K)
    (trials : List (List K)) : Except PyErr (List K) := do
  let futures ← trials.mapM (fun t => o.cases.mapM (fun c => trialDef o t c))
  futures.mapM (fun fs => do
    let rs ← fs.mapM run
    if 1 < o.cases.length then .ok (rs.sum / (rs.length : K))
    else match rs with
      | x :: _ => .ok x
      | [] => .error .indexError)

/-! ## particle swarm: starting positions and continuation -/

/-- Optimization.py:392-411: the value of variable `x` for a particle with the given entries; `random` is drawn
when there is none -/
def startValue (x : IndepVar K) (given : List (Str × K)) (random : K) : Except PyErr K :=
  match given.find? (fun e => e.1 = x.name) with
  | some e => if e.2 < x.lo ∨ x.hi < e.2 then .error .valueError else .ok e.2
  | none => .ok random

/-- Optimization.py:367-411: one particle -/
def startParticle (vars : List (IndepVar K)) (given : List (Str × K)) (random : Nat → K) : Except PyErr (List K) :=
  if given.all (fun e => (vars.map (·.name)).contains e.1) then
    vars.zipIdx.mapM (fun xj => startValue xj.1 given (random xj.2))
  else .error .valueError

/-- Optimization.py:354-413 `_loadInitialPositions`; `given` lists the particle dictionaries, each as its variable
names and values -/
def loadInitialPositions (vars : List (IndepVar K)) (n : Nat) (given : List (List (Str × K)))
    (random : Nat → Nat → K) : Except PyErr (List (List K)) :=
  if n < given.length then .error .valueError
  else (List.range n).mapM (fun i => startParticle vars (given.getD i []) (random i))

/-- Optimization.py:162-179 `_loadBestPosition` -/
def loadBest (num : Str → Except PyErr K) (pos cost : Option Str) : Except PyErr (Option (List K × K)) := do
  let c ← match cost with
    | some t => (num t).map some
    | none => .ok none
  match pos, c with
  | some p, some c => do
    let xs ← (splitC ' ' p).mapM num
    .ok (some (xs, c))
  | none, none => .ok none
  | _, _ => .error .valueError

/-- Optimization.py:438: `bestPosition != None` used as a condition.  For a numpy array the comparison gives one
truth value per element, and only an array with at most one element can be used as a condition. -/
def bestIsSet (best : Option (List K × K)) : Except PyErr Bool :=
  match best with
  | none => .ok false
  | some ([], _) => .ok false
  | some ([_], _) => .ok true
  | some (_ :: _ :: _, _) => .error .valueError

/-- Optimization.py:438-440: the swarm's best position and cost at the start -/
def swarmBest (best : Option (List K × K)) : Except PyErr (Option (List K × K)) := do
  let b ← bestIsSet best
  .ok (if b then best else none)

/-- Optimization.py:470-471, 480: the dictionary of positions -/
def posPath (path : Str) : Str := path ++ ".IndependentVariables.InitialParticlePositions.".toList

/-- Optimization.py:480: the key of one coordinate of particle `i` -/
def particleKey (path : Str) (i : Nat) (name : Str) : Str :=
  posPath path ++ 'p' :: (Nat.toDigits 10 i ++ '.' :: name)

/-- Optimization.py:456-482 `_createContinuationFile`: the definition that is written; `old` are the position
entries found in the present definition -/
def continuation (shw : K → Str) (path : Str) (vars : List (IndepVar K)) (old : List Str) (s : Store)
    (positions : List (List K)) (best : List K) (cost : K) : Except PyErr Store :=
  let s1 := old.foldl (fun s k => (removeKey s k).2) s
  let s2 := setValue s1 (posPath path ++ "bestPosition".toList) (join [' '] (best.map shw))
  let s3 := setValue s2 (posPath path ++ "bestCost".toList) (shw cost)
  positions.zipIdx.foldlM (fun s pi =>
    pi.1.zipIdx.foldlM (fun s vj =>
      match vars[vj.2]? with
      | some x => .ok (setValue s (particleKey path pi.2 x.name) (shw vj.1))
      | none => .error .indexError) s) s3

/-! ## scipy -/

/-- Optimization.py:594-598: the first point tried -/
def scipyStart (vars : List (IndepVar K)) : List K := vars.map (fun x => (x.lo + x.hi) / 2)

/-- Optimization.py:562-567: the bounds written to the continuation file -/
def scipyContinue (vars : List (IndepVar K)) (x : List K) : Except PyErr (List (IndepVar K)) :=
  vars.zipIdx.mapM (fun vi => match x[vi.2]? with
    | some c => .ok { vi.1 with lo := c - 1 / 10 ^ 12, hi := c + 1 / 10 ^ 12 }
    | none => .error .indexError)

/-- `max` of a list that is not empty -/
def maxOf (x : K) (xs : List K) : K := xs.foldl max x

/-- Optimization.py:533-556 `_evaluateCostFunction`: the cost reported for a trial and the new history -/
def evaluateScipy (history : List K) (outcome : Except PyErr K) : Except PyErr (K × List K) :=
  match outcome with
  | .ok c => .ok (c, history ++ [c])
  | .error e =>
    match history with
    | [] => .error e
    | x :: xs =>
      let c := if 5 < history.length then maxOf x xs else maxOf x xs * (11 / 10)
      .ok (c, history ++ [c])

end Mapleaf.Run.Opt
