import Verif.Base.Dict
import Mathlib.Algebra.Order.Field.Basic

/-!
# Model of the event detector (MAPLEAF/Rocket/simEventDetector.py)

The four parallel lists of a detector (callbacks, condition functions, condition values, delays) are always appended to and
deleted from together and are modelled as one list of records. (A subscription with an unknown event type raises after two of
the four appends; the constructors of `Kind` are the known types.) Everything else in the simulation is an arbitrary world `σ`; the callbacks are
arbitrary functions on it that may subscribe further events.
-/

namespace Mapleaf.Rocket

/-- simEventDetector.py:14-19 and the trigger value where one is used -/
inductive Kind (K : Type) where
  | apogee
  | above (altitude : K)
  | below (altitude : K)
  | burnout
  | timeReached (time : K)

/-- One registered event. `origin` is a ghost: the number of the registration it goes back to. The program does not have it; a
delayed event is re-registered under the same number. -/
structure Ev (K : Type) where
  kind : Kind K
  cb : Nat
  delay : K
  origin : Nat

/-- A subscription request made by a callback: simEventDetector.py:34 -/
structure Sub (K : Type) where
  kind : Kind K
  cb : Nat
  delay : K

/-- what the detector reads of the rocket, and the callbacks -/
structure World (σ K : Type) where
  /-- `rocket.rigidBody.time` -/
  time : σ → K
  /-- `rocket.stages[-1].engineShutOffTime` -/
  shutOff : σ → K
  /-- altitude in the ENU frame -/
  posZ : σ → K
  /-- vertical velocity in the ENU frame -/
  velZ : σ → K
  /-- a callback and the subscriptions it makes -/
  call : Nat → σ → σ × List (Sub K)

/-- simEventDetector.py:26-32; `last` is (lastVelocity.Z, lastTime) once set. `fresh` and `log` are ghosts: the number of
registrations so far, and the origins of the events whose callbacks were called, in order. -/
structure Detector (K : Type) where
  evs : List (Ev K)
  last : Option (K × K)
  fresh : Nat
  log : List Nat

variable {σ K : Type} [Field K] [LinearOrder K]

/-- simEventDetector.py:34-62 `subscribeToEvent` -/
def Detector.subscribe (d : Detector K) (s : Sub K) : Detector K :=
  { d with evs := d.evs ++ [⟨s.kind, s.cb, s.delay, d.fresh⟩], fresh := d.fresh + 1 }

/-- simEventDetector.py:120-162: has the event occurred? `z` and `vz` were read at the start of the pass (line 76). -/
def occurs (W : World σ K) (z vz : K) (w : σ) : Kind K → Bool
  | .apogee => decide (vz ≤ 0) && decide (W.time w > 1)
  | .above h => decide (z ≥ h) && decide (vz > 0)
  | .below h => decide (z ≤ h) && decide (vz < 0)
  | .burnout => decide (W.time w ≥ W.shutOff w)
  | .timeReached t => decide (W.time w ≥ t)

/-- simEventDetector.py:120-162: estimated waiting time, and whether it is exact -/
def waiting (W : World σ K) (last : Option (K × K)) (z vz : K) (w : σ) : Kind K → K × Bool
  | .apogee =>
    match last with
    | none => (10 ^ 10, false)
    | some (lastV, lastT) =>
      if W.time w - lastT = 0 then (10 ^ 10, false)
      else
        let accel := (vz - lastV) / (W.time w - lastT)
        if accel < 0 ∧ vz > 0 then (-vz / accel, false) else (10 ^ 10, false)
  | .above h => if vz > 0 then ((h - z) / vz, false) else (10 ^ 10, false)
  | .below h => if vz < 0 then ((h - z) / vz, false) else (10 ^ 10, false)
  | .burnout => (W.shutOff w - W.time w, true)
  | .timeReached t => (t - W.time w, true)

/-- the local variables of `triggerEvents` -/
structure Pass (σ K : Type) where
  w : σ
  d : Detector K
  remove : List Nat
  est : K
  exact : Bool

/-- simEventDetector.py:80-99: the body of the loop over the events -/
def passBody (W : World σ K) (z vz : K) (i : Nat) (p : Pass σ K) : Except PyErr (Pass σ K) :=
  match p.d.evs[i]? with
  | none => .error .indexError
  | some e =>
    let occurred := occurs W z vz p.w e.kind
    let wait := waiting W p.d.last z vz p.w e.kind
    let p := if wait.1 < p.est ∧ occurred = false then { p with est := wait.1, exact := wait.2 } else p
    if occurred then
      let p :=
        if e.delay = 0 then
          let r := W.call e.cb p.w
          { p with w := r.1, d := r.2.foldl Detector.subscribe { p.d with log := p.d.log ++ [e.origin] } }
        else
          { p with d := { p.d with
              evs := p.d.evs ++ [⟨.timeReached (W.time p.w + e.delay), e.cb, 0, e.origin⟩] } }
      .ok { p with remove := p.remove ++ [i] }
    else .ok p

/-- simEventDetector.py:79: the loop over the events present at the start -/
def passLoop (W : World σ K) (z vz : K) : List Nat → Pass σ K → Except PyErr (Pass σ K)
  | [], p => .ok p
  | i :: is, p =>
    match passBody W z vz i p with
    | .error e => .error e
    | .ok p' => passLoop W z vz is p'

/-- simEventDetector.py:101-109: deletion, last index first -/
def deleteMarked (evs : List (Ev K)) (remove : List Nat) : List (Ev K) :=
  (List.range remove.length).foldl (fun l i => l.eraseIdx (remove.getD (remove.length - 1 - i) 0)) evs

/-- simEventDetector.py:64-117 `triggerEvents` -/
def triggerEvents (W : World σ K) (w : σ) (d : Detector K) : Except PyErr (σ × Detector K × K × Bool) :=
  let z := W.posZ w
  let vz := W.velZ w
  match passLoop W z vz (List.range d.evs.length) ⟨w, d, [], 10 ^ 10, false⟩ with
  | .error e => .error e
  | .ok p =>
    .ok (p.w, { p.d with evs := deleteMarked p.d.evs p.remove, last := some (vz, W.time p.w) }, p.est, p.exact)

/-- rocket.py:675-686: the step size after looking at the next event -/
def overrideStep (adaptive : Bool) (eventTimeStep est : K) (exact : Bool) (dt : K) : K :=
  if adaptive = true ∧ est < dt then
    if exact then est + 1 / 100000 else max (est / (3 / 2)) eventTimeStep
  else dt

end Mapleaf.Rocket
