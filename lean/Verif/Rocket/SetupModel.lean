import Verif.Rocket.PartModel

/-!
# Setting up a rocket from its definition (MAPLEAF/Rocket/rocket.py)

The definition is given by the immediate sub-dictionaries of a dictionary and the reader of values by full path; building a stage
(stage.py, `Verif.Rocket.PartModel`) is a function of its path.
-/

namespace Mapleaf.Rocket
open Mapleaf.Motion

/-- rocket.py:238-249 `_getStageSubDicts`; `subs` is `getImmediateSubDicts()` -/
def stageDicts (subs : List Str) : List Str :=
  (["Rocket.ControlSystem".toList, "Rocket.HIL".toList, "Rocket.Aero".toList]).foldl (fun l n => if n ∈ l then l.erase n else l) subs

section
variable {K : Type} [Field K] [LinearOrder K]

/-- rocket.py:228-234: one component; the path plus ".class" and ".outerDiameter" are read -/
def tubeStep (r : Reader K) (m : K) (comp : Str) : Except PyErr K :=
  match r.text (comp ++ ".class".toList) with
  | .error e => .error e
  | .ok c =>
    if c = "Bodytube".toList then
      match r.getFloat (comp ++ ".outerDiameter".toList) with
      | .error e => .error e
      | .ok d => .ok (max m d)
    else .ok m

/-- rocket.py:221-236 `_getMaxBodyTubeDiameter`; `comps` gives the immediate sub-dictionaries of a stage -/
def maxTubeDiameter (r : Reader K) (subs : List Str) (comps : Str → List Str) : Except PyErr K :=
  ((stageDicts subs).flatMap comps).foldlM (tubeStep r) 0

/-- rocket.py:300-305: the stage numbers -/
def stageNumbers (r : Reader K) (dicts : List Str) : Except PyErr (List K) :=
  dicts.mapM (fun d => r.getFloat (d ++ ".stageNumber".toList))

/-- rocket.py:313-319: building the stages whose number is wanted (`none`: all) -/
def buildStages {σ : Type} (r : Reader K) (build : Str → Except PyErr σ) (wanted : Option K) : List Str → Except PyErr (List σ)
  | [] => .ok []
  | d :: ds =>
    match r.getFloat (d ++ ".stageNumber".toList) with
    | .error e => .error e
    | .ok n =>
      if wanted = none ∨ wanted = some n then
        match build d with
        | .error e => .error e
        | .ok s =>
          match buildStages r build wanted ds with
          | .error e => .error e
          | .ok l => .ok (s :: l)
      else buildStages r build wanted ds

/-- rocket.py:293-319 `_createStages`; `stage` is the index of the dropped stage, `none` on the pad -/
def createStages {σ : Type} (r : Reader K) (build : Str → Except PyErr σ) (subs : List Str) (stage : Option Nat) : Except PyErr (List σ) :=
  match stage with
  | none => buildStages r build none (stageDicts subs)
  | some i =>
    match stageNumbers r (stageDicts subs) with
    | .error e => .error e
    | .ok ns =>
      if ns.length ≠ ns.dedup.length then .error .valueError
      else
        match (ns.insertionSort (· ≤ ·))[i]? with
        | none => .error .indexError
        | some n => buildStages r build (some n) (stageDicts subs)

/-- stage.py:22-24: trigger type, delay and value of a stage -/
structure Trigger (K : Type) where
  kind : Str
  delay : K
  value : K

/-- rocket.py:342-352: the staging events subscribed to, from the top stage down; `dropped` for a stage flying on its own -/
def stagingTriggers (dropped : Bool) (stages : List (Trigger K)) : List (Trigger K) :=
  if dropped then [] else stages.filter (fun t => t.kind ≠ "None".toList)

end

/-- rocket.py:321-322, stage.py:67-68: `setattr` unless the name is taken; the values are the stage (`some i`) or whatever the rocket keeps
under that name (`none`) -/
def keepStage (attrs : Dict Str (Option Nat)) (name : Str) (i : Nat) : Dict Str (Option Nat) :=
  if Dict.has attrs name then attrs else Dict.set attrs name (some i)

/-- rocket.py:478: `delattr(self, droppedStage.name)` -/
def forgetStage (attrs : Dict Str (Option Nat)) (name : Str) : Except PyErr (Dict Str (Option Nat)) :=
  if Dict.has attrs name then .ok (Dict.erase attrs name) else .error .attributeError

end Mapleaf.Rocket
