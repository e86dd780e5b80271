import Verif.Motion.StateModel
import Verif.Motion.InterpModel
import Verif.Run.CaseModel

/-!
# Recording a flight and showing it again

Model of the recording of states during a simulation (SingleSimulations.py:250-278) and of the flight animation
(IO/Plotting.py:320-668). matplotlib is left out: what is modelled is the data handed to it. Numbers are reals. The flights
are changed in place by `_keepNTimeSteps`; here the changed flights are returned.
-/

namespace Mapleaf.Replay

open Mapleaf.Motion Mapleaf.CaseM

/-- A recorded rigid-body state: 6 degrees of freedom, or 3 under a parachute (RigidBodyStates.py:21-23, 104-108) -/
inductive Body where
  | six (s : RBState)
  | three (s : RBState3)

/-- `.position`, which both kinds of state have -/
def Body.pos : Body → V3 ℝ
  | .six s => s.pos
  | .three s => s.pos

/-- `.velocity`, which both kinds of state have -/
def Body.vel : Body → V3 ℝ
  | .six s => s.vel
  | .three s => s.vel

/-- rocketFlight.py:15-25: what a `RocketFlight` holds. `defls`, `targets`: one list per actuator. -/
structure Flight where
  times : List ℝ
  states : List Body
  defls : Option (List (List ℝ))
  targets : Option (List (List ℝ))
  engineOff : Option ℝ
  chute : Option ℝ

/-- What recording reads of a rocket: time, state, and for a controlled rocket (`controlSystem != None`) the controlled
system, if any, as the deflection and the target of each of its actuators -/
structure Craft where
  time : ℝ
  state : Body
  control : Option (Option (List (ℝ × ℝ)))

/-- SingleSimulations.py:250-263 `_setUpCachingForFlightAnimation` -/
def setUpCaching (r : Craft) : Flight :=
  match r.control with
  | some (some acts) =>
    ⟨[r.time], [r.state], some (acts.map (fun _ => [0])), some (acts.map (fun _ => [0])), none, none⟩
  | _ => ⟨[r.time], [r.state], none, none, none, none⟩

/-- SingleSimulations.py:273-275: `lists[a].append(values[a])` for every `a` in turn -/
def appendEach : List (List ℝ) → List ℝ → Except PyErr (List (List ℝ))
  | ls, [] => .ok ls
  | [], _ :: _ => .error .indexError
  | l :: ls, v :: vs =>
    match appendEach ls vs with
    | .error e => .error e
    | .ok ls' => .ok ((l ++ [v]) :: ls')

/-- SingleSimulations.py:266-278 `cacheState`. Indexing `None` raises `TypeError`, which is not caught. -/
def cacheState (f : Flight) (r : Craft) : Except PyErr Flight :=
  let f' := { f with times := f.times ++ [r.time], states := f.states ++ [r.state] }
  match r.control with
  | some (some []) => .ok f'
  | some (some acts) =>
    match f.defls, f.targets with
    | some ds, some ts =>
      match appendEach ds (acts.map Prod.fst), appendEach ts (acts.map Prod.snd) with
      | .ok ds', .ok ts' => .ok { f' with defls := some ds', targets := some ts' }
      | _, _ => .error .indexError
    | _, _ => .error .typeError
  | _ => .ok f'

/-- SingleSimulations.py:92-139: the states recorded while a stage is stepped -/
def record : Flight → List Craft → Except PyErr Flight
  | f, [] => .ok f
  | f, r :: rs =>
    match cacheState f r with
    | .error e => .error e
    | .ok f' => record f' rs

/-- Plotting.py:354-358: the state between two recorded ones. Different kinds: the one with more weight, the earlier one
for equal weights. -/
noncomputable def between (a b : Body) (wa wb : ℝ) : Except PyErr Body :=
  match a, b with
  | .six s, .six s' =>
    match interpolate6 s s' wa with
    | .error e => .error e
    | .ok r => .ok (.six r)
  | .three s, .three s' => .ok (.three (interpolate3 s s' wa))
  | a, b => .ok (if wa < wb then b else a)

/-- Plotting.py:351-360: the state of a flight shown at time `t` -/
noncomputable def stateAt (f : Flight) (t : ℝ) : Except PyErr Body :=
  match linInterpWeights f.times t with
  | .error e => .error e
  | .ok (i, wi, j, wj) =>
    match pyGet f.states i, pyGet f.states j with
    | .ok a, .ok b => between a b wi wj
    | _, _ => .error .indexError

/-- Plotting.py:351, 366-367: the deflection of an actuator shown at time `t` -/
noncomputable def deflAt (times d : List ℝ) (t : ℝ) : Except PyErr ℝ :=
  match linInterpWeights times t with
  | .error e => .error e
  | .ok (i, wi, j, wj) =>
    match pyGet d i, pyGet d j with
    | .ok x, .ok y => .ok (x * wi + y * wj)
    | _, _ => .error .indexError

/-- Plotting.py:333-336: the latest final time, 0 if all are negative; `times[-1]` raises for an empty list -/
noncomputable def maxTime (flights : List Flight) : Except PyErr ℝ :=
  flights.foldlM (fun m f =>
    match pyGet f.times (-1) with
    | .error e => .error e
    | .ok t => .ok (if m < t then t else m)) 0

/-- Plotting.py:340-372: one flight at the new times. `actuatorTargetDefls` is not touched. The code computes states and
deflections time by time; which of two errors is raised first is not modelled. -/
noncomputable def resample (ts : List ℝ) (f : Flight) : Except PyErr Flight :=
  match ts.mapM (stateAt f) with
  | .error e => .error e
  | .ok states =>
    match f.defls with
    | none => .ok { f with times := ts, states := states }
    | some ds =>
      match ds.mapM (fun d => ts.mapM (deflAt f.times d)) with
      | .error e => .error e
      | .ok ds' => .ok { f with times := ts, states := states, defls := some ds' }

/-- Plotting.py:320-377 `_keepNTimeSteps`; `flights[0]` raises for an empty list -/
noncomputable def keepN (n : Nat) (flights : List Flight) : Except PyErr (List Flight) :=
  match flights with
  | [] => .error .indexError
  | _ :: _ =>
    match maxTime flights with
    | .error e => .error e
    | .ok T => flights.mapM (resample (linspace 0 T n))

/-- `max` of a list (of at least one number) -/
noncomputable def listMax : List ℝ → ℝ
  | [] => 0
  | a :: l => l.foldl max a

/-- `min` of a list (of at least one number) -/
noncomputable def listMin : List ℝ → ℝ
  | [] => 0
  | a :: l => l.foldl min a

open Classical in
/-- Plotting.py:379-396 `_get3DPlotSize`: the edge length and the centre of the box; `mean` of nothing raises
`StatisticsError`, a `ValueError` -/
noncomputable def plotSize (ps : List (V3 ℝ)) : Except PyErr (ℝ × V3 ℝ) :=
  if ps.length = 0 then .error .valueError
  else
    let xs := ps.map V3.x
    let ys := ps.map V3.y
    let zs := ps.map V3.z
    let c : V3 ℝ := ⟨xs.sum / ps.length, ys.sum / ps.length, zs.sum / ps.length⟩
    let r := max (max (listMax xs - listMin xs) (listMax ys - listMin ys)) (listMax zs - listMin zs)
    .ok (if r = 0 then 1 else r * 1.1, c)

/-- Plotting.py:398-405 `_findEventTimeStepNumber` -/
noncomputable def eventFrame (times : List ℝ) (t : Option ℝ) : Option Nat := t.map (bisect times)

/-- Plotting.py:419-422: turn the last vector once more, `k` times -/
noncomputable def turns (q : Quat ℝ) : V3 ℝ → Nat → Except PyErr (List (V3 ℝ))
  | v, 0 => .ok [v]
  | v, k + 1 =>
    match q.rotate v with
    | .error e => .error e
    | .ok (v', q') =>
      match turns q' v' k with
      | .error e => .error e
      | .ok vs => .ok (v :: vs)

/-- Plotting.py:407-424 `_createReferenceVectors`: the long axis and one vector per fin -/
noncomputable def referenceVectors (n : Nat) (size : ℝ) : Except PyErr (V3 ℝ × List (V3 ℝ)) :=
  if n = 0 then .error .zeroDivision
  else
    match turns (Quat.axisAngle ⟨0, 0, 1⟩ (360 / (n : ℝ) * (Real.pi / 180))) ⟨size * 0.05, 0, 0⟩ (n - 1) with
    | .error e => .error e
    | .ok vs => .ok (⟨0, 0, size * 0.25⟩, vs)

/-- Plotting.py:496-552: what `_getRocketPoints` returns -/
structure Points where
  cg : V3 ℝ
  base : V3 ℝ
  tip : V3 ℝ
  perpTips : List (V3 ℝ)
  canardTips : List (V3 ℝ)
  canardTails : List (V3 ℝ)

/-- Plotting.py:521: the lengthwise vector of canard `i` at frame `k` -/
noncomputable def canardVec (ds : List (List ℝ)) (k : Nat) (axis : V3 ℝ) (perps : List (V3 ℝ)) (i : Nat) :
    Except PyErr (V3 ℝ × V3 ℝ) :=
  match pyGet perps i, pyGet ds i with
  | .ok p, .ok d =>
    match pyGet d k with
    | .error e => .error e
    | .ok a =>
      match (Quat.axisAngle p (a * (Real.pi / 180))).rotate axis with
      | .error e => .error e
      | .ok (v, _) => .ok (p, v)
  | _, _ => .error .indexError

/-- Plotting.py:496-552 `_getRocketPoints`. A 3-DoF state has no orientation, so the parachute is drawn; its size depends on
whether the frame `k` is before the one of the main parachute. -/
noncomputable def rocketPoints (f : Flight) (k : Nat) (axis : V3 ℝ) (perps : List (V3 ℝ)) : Except PyErr Points :=
  match pyGet f.states k with
  | .error e => .error e
  | .ok (.six s) =>
    match s.ori.rotate axis with
    | .error e => .error e
    | .ok (ax, o) =>
      match perps.mapM (fun p => (o.rotate p).map Prod.fst) with
      | .error e => .error e
      | .ok ps =>
        let base := s.pos - (0.5 : ℝ) • ax
        let tip := base + ax
        match f.defls with
        | none => .ok ⟨s.pos, base, tip, ps.map (base + ·), ps.map (fun _ => 0), ps.map (fun _ => 0)⟩
        | some ds =>
          match (List.range ps.length).mapM (canardVec ds k ax ps) with
          | .error e => .error e
          | .ok vs =>
            let mid := tip - (0.25 : ℝ) • ax
            .ok ⟨s.pos, base, tip, ps.map (base + ·),
              vs.map (fun v => (mid + (0.5 : ℝ) • v.1) + (0.25 : ℝ) • (0.2 : ℝ) • v.2),
              vs.map (fun v => (mid + (0.5 : ℝ) • v.1) - (0.75 : ℝ) • (0.2 : ℝ) • v.2)⟩
  | .ok (.three s) =>
    let ax := (0.75 : ℝ) • axis
    let size : ℝ :=
      match eventFrame f.times f.chute with
      | none => 0.35
      | some c => if k < c then 0.35 else 1
    let rim := perps.map (fun p => (s.pos + size • p) + ax)
    .ok ⟨s.pos, s.pos, s.pos - (0.2 : ℝ) • axis, rim, rim, perps.map (fun _ => s.pos + (1.2 : ℝ) • ax)⟩

/-- Colour of a flight path -/
inductive Colour where
  | black | red | gray
  deriving DecidableEq

/-- Plotting.py:592-602: colour of the path of flight `i` in frame `k`; `k < None` raises `TypeError` -/
def pathColour (i k : Nat) (off : Option Nat) : Except PyErr Colour :=
  if 0 < i then
    match off with
    | none => .error .typeError
    | some o => if k < o then .ok .red else .ok .gray
  else
    match off with
    | none => .ok .black
    | some o => if o ≤ k then .ok .black else .ok .red

/-- Plotting.py:590-591: the part of the path drawn in frame `k` -/
def pathDrawn (f : Flight) (k : Nat) : List (V3 ℝ) := (f.states.map Body.pos).take k

/-- Plotting.py:662: the frames shown, `frames = len(Positions[0]) - 1` -/
def framesShown (f : Flight) : List Nat := List.range (f.states.length - 1)

/-- Plotting.py:667-668: the file the animation is saved to -/
def animationFile (name : Option Str) : Option Str := name.map (fun _ => "SampleRocket.mp4".toList)

/-- Plotting.py:630-655: everything `flightAnimation` computes before drawing: resampled flights, edge length and centre of
the box, long axis, fin vectors -/
noncomputable def setUp (flights : List Flight) : Except PyErr (List Flight × ℝ × V3 ℝ × V3 ℝ × List (V3 ℝ)) :=
  match keepN 900 flights with
  | .error e => .error e
  | .ok [] => .error .indexError
  | .ok (f :: fs) =>
    match plotSize (f.states.map Body.pos) with
    | .error e => .error e
    | .ok (size, c) =>
      let n := match f.defls with
        | some ds => ds.length
        | none => 4
      match referenceVectors n size with
      | .error e => .error e
      | .ok (axis, perps) => .ok (f :: fs, size, c, axis, perps)

end Mapleaf.Replay
