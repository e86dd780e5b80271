import Verif.Motion.VecModel

/-!
# Flight summaries

Model of `RocketFlight` (IO/rocketFlight.py:12-76).  A recorded state is its position and velocity.
-/

namespace Mapleaf.Run

open Mapleaf.Motion

/-- A recorded rigid-body state: what the summaries read (rocketFlight.py:32-60) -/
structure Rec where
  pos : V3 ℝ
  vel : V3 ℝ

open Classical in
/-- The loop used three times (rocketFlight.py:31-35, 38-42, 45-50): start value, then replaced by every
larger value -/
noncomputable def runningMax (start : ℝ) (f : Rec → ℝ) (states : List Rec) : ℝ :=
  states.foldl (fun m s => if m < f s then f s else m) start

/-- rocketFlight.py:30-35 `getApogee` -/
noncomputable def getApogee (states : List Rec) : ℝ := runningMax (-10000000) (fun s => s.pos.z) states

/-- rocketFlight.py:37-42 `getMaxSpeed` -/
noncomputable def getMaxSpeed (states : List Rec) : ℝ := runningMax 0 (fun s => s.vel.length) states

/-- rocketFlight.py:44-50 `getMaxHorizontalVel` -/
noncomputable def getMaxHorizontalVel (states : List Rec) : ℝ :=
  runningMax 0 (fun s => Real.sqrt (s.vel.x ^ 2 + s.vel.y ^ 2)) states

/-- rocketFlight.py:27-28 `getFlightTime` -/
def getFlightTime {K : Type} (times : List K) : Except PyErr K :=
  match times.getLast? with
  | some t => .ok t
  | none => .error .indexError

variable {K : Type} [Field K] [LinearOrder K] [IsStrictOrderedRing K]

/-- rocketFlight.py:62-76: the landing location from the last two positions -/
def landing (secondLast last : V3 K) : Except PyErr (V3 K) :=
  let dz := last.z - secondLast.z
  if dz * 2 < last.z then
    if dz = 0 then .error .zeroDivision
    else
      .ok ⟨last.x + (last.x - secondLast.x) / dz * (-last.z), last.y + (last.y - secondLast.y) / dz * (-last.z), 0⟩
  else .ok last

/-- rocketFlight.py:52-76 `getLandingLocation`; `rigidBodyStates[-2]` raises with fewer than two states -/
def getLandingLocation (positions : List (V3 K)) : Except PyErr (V3 K) :=
  match positions.reverse with
  | last :: secondLast :: _ => landing secondLast last
  | _ => .error .indexError

end Mapleaf.Run
