import Verif.Log.ReplayModel
import Verif.Log.PlotModel

/-!
# Model: the pictures shown after a simulation (MAPLEAF/SimulationRunners/SingleSimulations.py:395-422, MAPLEAF/IO/Plotting.py:222-317, 700-720)

matplotlib and Mayavi are left out: a picture is the data handed to them. The flights are changed in place by the animation, so the
flights afterwards are returned as well. Errors that matplotlib meets while it plays an animation do not come back to the program and
are not modelled; the pictures of a run that raises are of no consequence and are dropped.
-/

namespace Mapleaf.Show
open Mapleaf Mapleaf.Str Mapleaf.LogM Mapleaf.Motion Mapleaf.Replay

/-- Plotting.py:222-264: curves and limits of the axes of a plot of paths -/
structure PathPlot where
  curves : List (List (V3 ℝ))
  xlim : ℝ × ℝ
  ylim : ℝ × ℝ
  zlim : ℝ × ℝ

/-- Plotting.py:233-244, 292-300: the positions of each flight -/
def pathsOf (flights : List Flight) : List (List (V3 ℝ)) := flights.map (fun f => f.states.map Body.pos)

/-- `statistics.mean` of at least one number -/
noncomputable def meanOf (l : List ℝ) : ℝ := l.sum / l.length

/-- Plotting.py:252-259 and 702-712: the limits of the axes around the points `ps`; `max` of nothing raises `ValueError` -/
noncomputable def limitsAround (ps : List (V3 ℝ)) : Except PyErr ((ℝ × ℝ) × (ℝ × ℝ) × (ℝ × ℝ)) :=
  let xs := ps.map V3.x
  let ys := ps.map V3.y
  let zs := ps.map V3.z
  let all := xs ++ ys ++ zs
  if all.length = 0 then .error .valueError
  else
    let half := (listMax all - listMin all) / 2
    .ok ((meanOf xs - half, meanOf xs + half), (meanOf ys - half, meanOf ys + half), (listMin zs, listMin zs + 2 * half))

/-- Plotting.py:222-267 `plotFlightPaths_NoEarth` -/
noncomputable def pathPlot (flights : List Flight) : Except PyErr PathPlot :=
  match limitsAround (pathsOf flights).flatten with
  | .error e => .error e
  | .ok (x, y, z) => .ok ⟨pathsOf flights, x, y, z⟩

/-- Plotting.py:700-720: the scatter plot of `plotAndSummarizeVectorResult`, as one curve -/
noncomputable def scatterPlot (ps : List (V3 ℝ)) : Except PyErr PathPlot :=
  match limitsAround ps with
  | .error e => .error e
  | .ok (x, y, z) => .ok ⟨[ps], x, y, z⟩

/-- A picture shown, or the message shown in its place -/
inductive Picture (V : Type) where
  | animation (flights : List Flight)
  | paths (p : PathPlot)
  | globe (curves : List (List (V3 ℝ)))
  | lines (definition : Str) (ls : List (PlotLine V))
  | noColumns (definition : Str)
  | noLogs (definition : Str)

variable {V : Type}

/-- SingleSimulations.py:413-416 with Plotting.py:308-317: paths over the globe, if the library for it is there -/
noncomputable def pathPicture (mayavi : Bool) (earth : Str) (flights : List Flight) : Except PyErr (Picture V) :=
  if earth = "None".toList ∨ earth = "Flat".toList ∨ mayavi = false then
    match pathPlot flights with
    | .error e => .error e
    | .ok p => .ok (.paths p)
  else .ok (.globe (pathsOf flights))

/-- Plotting.py:36-61 `plotFromLogFiles`, with the cache of tables before and after. Without logs it only prints a message. -/
def columnPicture (rx : Regex) (files : Files V) (logs : Option (List Str)) (c : SheetCache V) (definition : Str) :
    Except PyErr (Picture V) × SheetCache V :=
  match logs with
  | none => (.ok (.noLogs definition), c)
  | some paths =>
    match plotFromLogFiles rx files paths definition c with
    | (.error e, c) => (.error e, c)
    | (.ok [], c) => (.ok (.noColumns definition), c)
    | (.ok (l :: ls), c) => (.ok (.lines definition (l :: ls)), c)

/-- SingleSimulations.py:421-422: one plot per word left -/
def columnPictures (rx : Regex) (files : Files V) (logs : Option (List Str)) : SheetCache V → List Str → Except PyErr (List (Picture V))
  | _, [] => .ok []
  | c, w :: ws =>
    match columnPicture rx files logs c w with
    | (.error e, _) => .error e
    | (.ok p, c) =>
      match columnPictures rx files logs c ws with
      | .error e => .error e
      | .ok ps => .ok (p :: ps)

/-- SingleSimulations.py:402-409: the animation, with the flights as it leaves them -/
noncomputable def animated (words : List Str) (flights : List Flight) : Except PyErr (List (Picture V) × List Flight × List Str) :=
  if "FlightAnimation".toList ∈ words then
    match setUp flights with
    | .error e => .error e
    | .ok (flights', _) => .ok ([.animation flights'], flights', words.erase "FlightAnimation".toList)
  else .ok ([], flights, words)

/-- SingleSimulations.py:411-418: the flight paths -/
noncomputable def drawn (mayavi : Bool) (earth : Str) (words : List Str) (flights : List Flight) :
    Except PyErr (List (Picture V) × List Str) :=
  if "FlightPaths".toList ∈ words then
    match pathPicture mayavi earth flights with
    | .error e => .error e
    | .ok p => .ok ([p], words.erase "FlightPaths".toList)
  else .ok ([], words)

/-- SingleSimulations.py:395-422 `_plotSimulationResults` for the value `text` of `SimControl.plot` and the value `earth` of
`Environment.EarthModel`: the pictures, and the flights the caller of the simulation is given -/
noncomputable def plotResults (rx : Regex) (files : Files V) (mayavi : Bool) (text earth : Str) (flights : List Flight)
    (logs : Option (List Str)) (c : SheetCache V) : Except PyErr (List (Picture V) × List Flight) :=
  let words := wsSplit text
  if words = ["None".toList] then .ok ([], flights)
  else
    match animated words flights with
    | .error e => .error e
    | .ok (p1, flights', words) =>
      match drawn mayavi earth words flights' with
      | .error e => .error e
      | .ok (p2, words) =>
        match columnPictures rx files logs c words with
        | .error e => .error e
        | .ok p3 => .ok (p1 ++ p2 ++ p3, flights')

end Mapleaf.Show
