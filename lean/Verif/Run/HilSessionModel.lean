import Verif.Run.HilModel
import Mathlib.Order.Basic

/-!
# Model: a simulation with hardware in the loop (MAPLEAF/IO/HIL.py, SingleSimulations.py)

What goes over the two serial lines and which readings of the real-time clock are taken is kept as a list of events. The clock
and what the hardware answers are arbitrary. Not modelled: the console output, the pauses (HIL.py:106, 124) other than that the clock is
read afterwards, opening and closing of the ports, the single-precision encoding (`pack`).
-/

namespace Mapleaf.Run.Hil

open Mapleaf.Motion

variable {K : Type} [Field K] [LinearOrder K] [IsStrictOrderedRing K] [FloorRing K]

/-- what HIL.py reads of the state of a rocket; under a parachute the state has no orientation (RigidBodyStates.py:12-23, rocket.py:700-716) -/
structure Pose (K : Type) where
  pos : V3 K
  vel : V3 K
  ori : Option (Quat K)

/-- bytes written to the sensor line, bytes written to the controller line, a reading of the clock, a line read from the controller -/
inductive Ev (K : Type)
  | imu (bytes : List Nat)
  | teensy (bytes : List Nat)
  | now (t : K)
  | line (l : Str)

/-- what the program does not decide: the readings of `time.time()`, and what the calls of `readline` give (nothing if the time is up), in turn -/
structure World (K : Type) where
  now : ℕ → K
  line : ℕ → Str

/-- HIL.py:64-92: the interface; `reads` and `lines` count the readings of the clock and the lines read so far -/
structure Iface (K : Type) where
  qp : K
  pp : K
  vp : K
  clock : Clock K
  angles : List K
  reads : ℕ
  lines : ℕ
  trace : List (Ev K)

/-- HIL.py:66-92 with rocket.py:138-145: the rates are integers -/
def Iface.new (W : World K) (reads lines : ℕ) (quatRate posRate velRate : ℤ) : Except PyErr (Iface K) :=
  if quatRate = 0 ∨ posRate = 0 ∨ velRate = 0 then .error .zeroDivision
  else
    let s := W.now reads
    .ok ⟨1 / (quatRate : K), 1 / (posRate : K), 1 / (velRate : K), ⟨s, s, s, s⟩, [0, 0, 0, 0], reads + 1, lines, [.now s]⟩

/-- HIL.py:160-171: the orientation, if it is due -/
def sendQuat (i : Iface K) (p : Pose K) (t : K) : Except PyErr (Iface K) :=
  if i.qp < t + i.clock.start - i.clock.lastQuat then
    match p.ori with
    | none => .error .attributeError
    | some q => do
      let pk ← quatPacket q
      let b ← writePacket pk
      .ok { i with trace := i.trace ++ [.imu b], clock := { i.clock with lastQuat := t + i.clock.start } }
  else .ok i

/-- HIL.py:173-185: the position, if it is due -/
def sendPos (pack : K → Nat × Nat × Nat × Nat) (i : Iface K) (p : Pose K) (t : K) : Except PyErr (Iface K) :=
  if i.pp < t + i.clock.start - i.clock.lastPos then do
    let b ← writePacket (posPacket pack p.pos)
    .ok { i with trace := i.trace ++ [.imu b], clock := { i.clock with lastPos := t + i.clock.start } }
  else .ok i

/-- HIL.py:187-197: the velocity, if it is due -/
def sendVel (pack : K → Nat × Nat × Nat × Nat) (i : Iface K) (p : Pose K) (t : K) : Except PyErr (Iface K) :=
  if i.vp < t + i.clock.start - i.clock.lastVel then do
    let b ← writePacket (velPacket pack p.vel)
    .ok { i with trace := i.trace ++ [.imu b], clock := { i.clock with lastVel := t + i.clock.start } }
  else .ok i

/-- HIL.py:152-199 `sendIMUData` -/
def sendIMU (pack : K → Nat × Nat × Nat × Nat) (i : Iface K) (p : Pose K) (t : K) : Except PyErr (Iface K) := do
  let i ← sendQuat i p t
  let i ← sendPos pack i p t
  sendVel pack i p t

/-- HIL.py:107-114: the next line is the angle of canard `k`, no line leaves it as it was -/
def readAngle (W : World K) (parse : Str → Except PyErr K) (i : Iface K) (k : ℕ) : Except PyErr (Iface K) :=
  let l := W.line i.lines
  let i := { i with lines := i.lines + 1, trace := i.trace ++ [.line l] }
  if l = [] then .ok i
  else do
    let a ← parse l
    .ok { i with angles := i.angles.set k a }

/-- HIL.py:103-116 `requestCanardAngles` -/
def requestAngles (W : World K) (parse : Str → Except PyErr K) (i : Iface K) : Except PyErr (Iface K) := do
  let i := { i with trace := i.trace ++ [.teensy [113]] }
  let i ← readAngle W parse i 0
  let i ← readAngle W parse i 1
  let i ← readAngle W parse i 2
  readAngle W parse i 3

/-- HIL.py:118-134 `setupHIL` -/
def setup (pack : K → Nat × Nat × Nat × Nat) (W : World K) (i : Iface K) (p : Pose K) : Except PyErr (Iface K) := do
  let i := { i with trace := i.trace ++ [.teensy [82]] }
  let i ← sendIMU pack i p 10000
  let s := W.now i.reads
  .ok { i with trace := i.trace ++ [.teensy [76], .now s], clock := ⟨s, s, s, s⟩, reads := i.reads + 1 }

open Classical in
/-- HIL.py:141-145: the number of the first reading of the clock that is not before the time of the simulation -/
noncomputable def waitUntil (W : World K) (start t : K) (n : ℕ) : Except PyErr ℕ :=
  if h : ∃ k, n ≤ k ∧ ¬ t > W.now k - start then .ok (Nat.find h) else .error .outOfFuel

/-- HIL.py:136-150 `performHIL` -/
noncomputable def perform (pack : K → Nat × Nat × Nat × Nat) (parse : Str → Except PyErr K) (W : World K) (i : Iface K) (p : Pose K) (t : K) :
    Except PyErr (Iface K) := do
  let i ← sendIMU pack i p t
  let k ← waitUntil W i.clock.start t i.reads
  let i := { i with trace := i.trace ++ (List.range' i.reads (k + 1 - i.reads)).map (fun j => .now (W.now j)), reads := k + 1 }
  let i ← requestAngles W parse i
  .ok { i with trace := i.trace ++ [.now (W.now i.reads)], reads := i.reads + 1 }

/-- SingleSimulations.py:104-140: `n` time steps of a rocket with hardware in the loop. `step` is the time step, end condition and choice
of the next step size included; `pose` and `time` are what the interface is told. -/
noncomputable def flyLoop {S : Type} (pack : K → Nat × Nat × Nat × Nat) (parse : Str → Except PyErr K) (W : World K) (step : S → Except PyErr S)
    (pose : S → Pose K) (time : S → K) : ℕ → S → Iface K → Except PyErr (S × Iface K)
  | 0, s, i => .ok (s, i)
  | n + 1, s, i => do
    let s ← step s
    let i ← perform pack parse W i (pose s) (time s)
    flyLoop pack parse W step pose time n s i

/-- SingleSimulations.py:85-87, 104-140: setting up, and the flight -/
noncomputable def session {S : Type} (pack : K → Nat × Nat × Nat × Nat) (parse : Str → Except PyErr K) (W : World K) (step : S → Except PyErr S)
    (pose : S → Pose K) (time : S → K) (n : ℕ) (s : S) (i : Iface K) : Except PyErr (S × Iface K) := do
  let i ← setup pack W i (pose s)
  flyLoop pack parse W step pose time n s i

end Mapleaf.Run.Hil
