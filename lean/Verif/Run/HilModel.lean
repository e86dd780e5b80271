import Verif.Base.Dict
import Verif.Motion.VecModel
import Verif.Motion.QuatModel
import Mathlib.Algebra.Order.Floor.Ring

/-!
# Hardware-in-the-loop packets

Model of IO/HIL.py.  Bytes are natural numbers, and `bytes([...])` raises outside 0…255 as in Python.
`struct.pack("f", x)` is an arbitrary function `pack` giving four bytes in little-endian order: the
single-precision encoding itself is not modelled.  The serial port is the list of bytes written.
-/

namespace Mapleaf.Run.Hil

open Mapleaf.Motion

/-- HIL.py:19-25: a packet -/
structure Packet where
  pt : Nat
  address : Nat
  data : List Nat
deriving DecidableEq

/-- HIL.py:47-61 `createPTByte` -/
def ptByte (hasData isBatch : Bool) (numRegisters : Nat) : Nat :=
  (if hasData then 128 else 0) + (if isBatch then 64 else 0) + numRegisters * 4

/-- HIL.py:35-39: the sum of all bytes before the checksum -/
def total (p : Packet) : Nat := 115 + 110 + 112 + p.pt + p.address + p.data.sum

/-- `n.to_bytes(2, 'big', signed=False)` -/
def toBytes2 (n : Nat) : Except PyErr (Nat × Nat) :=
  if n < 65536 then .ok (n / 256, n % 256) else .error .runtimeError

/-- HIL.py:33-45 `computeCheckSum` -/
def checkSum (p : Packet) : Except PyErr (Nat × Nat) := toBytes2 (total p)

/-- `bytes(l)` -/
def pyBytes (l : List Nat) : Except PyErr (List Nat) :=
  if ∀ b ∈ l, b < 256 then .ok l else .error .valueError

/-- HIL.py:296-307 `writePacket`: the bytes sent -/
def writePacket (p : Packet) : Except PyErr (List Nat) := do
  let (u, l) ← checkSum p
  let pt ← pyBytes [p.pt]
  let a ← pyBytes [p.address]
  let d ← pyBytes p.data
  let cu ← pyBytes [u]
  let cl ← pyBytes [l]
  .ok ([115, 110, 112] ++ pt ++ a ++ d ++ cu ++ cl)

variable {K : Type} [Field K] [LinearOrder K] [IsStrictOrderedRing K] [FloorRing K]

/-- `int(x)`: truncation towards zero -/
def trunc (x : K) : ℤ := if 0 ≤ x then ⌊x⌋ else ⌈x⌉

/-- `n.to_bytes(2, 'big', signed=True)` -/
def toBytesSigned2 (n : ℤ) : Except PyErr (Nat × Nat) :=
  if -32768 ≤ n ∧ n ≤ 32767 then
    let m := (n % 65536).toNat
    .ok (m / 256, m % 256)
  else .error .runtimeError

/-- HIL.py:203: the scale of quaternion components -/
def scale : K := 2978909091 / 100000

/-- HIL.py:201-209 `convertQuaternionComponent` -/
def convertComponent (q : K) : Except PyErr (Nat × Nat) := toBytesSigned2 (trunc (q * scale))

/-- HIL.py:211-231 `convertPositionComponent`, `convertVelocityComponent`: the four bytes of
`struct.pack("f", x)` from last to first -/
def convertFloat (pack : K → Nat × Nat × Nat × Nat) (x : K) : List Nat :=
  let b := pack x
  [b.2.2.2, b.2.2.1, b.2.1, b.1]

/-- HIL.py:237-238: `(1).to_bytes(4, 'big', signed=True)` -/
def timeSpoof : List Nat := [0, 0, 0, 1]

/-- HIL.py:276-281 `getConvertedQuaternion`: computes a converted quaternion and returns the original -/
def convertedQuat (q : Quat K) : Quat K := q

/-- HIL.py:283-293 `getConvertedPosition`, `getConvertedVelocity` -/
def convertedVec (v : V3 K) : V3 K := ⟨v.x, v.y, -v.z⟩

/-- HIL.py:233-246 `getQuaternionByteArray` -/
def quatBytes (q : Quat K) : Except PyErr (List Nat) := do
  let c := convertedQuat q
  let a ← convertComponent c.q0
  let b ← convertComponent c.q1
  let d ← convertComponent c.q2
  let e ← convertComponent c.q3
  .ok ([a.1, a.2, b.1, b.2, d.1, d.2, e.1, e.2] ++ timeSpoof)

/-- HIL.py:248-274 `getPositionByteArray`, `getVelocityByteArray` -/
def vecBytes (pack : K → Nat × Nat × Nat × Nat) (v : V3 K) : List Nat :=
  let c := convertedVec v
  convertFloat pack c.x ++ convertFloat pack c.y ++ convertFloat pack c.z ++ timeSpoof

/-- HIL.py:164-169: the orientation packet -/
def quatPacket (q : Quat K) : Except PyErr Packet := do
  let d ← quatBytes q
  .ok { pt := ptByte true true 3, address := 109, data := d }

/-- HIL.py:177-181: the position packet -/
def posPacket (pack : K → Nat × Nat × Nat × Nat) (v : V3 K) : Packet :=
  { pt := ptByte true true 4, address := 117, data := vecBytes pack v }

/-- HIL.py:190-194: the velocity packet -/
def velPacket (pack : K → Nat × Nat × Nat × Nat) (v : V3 K) : Packet :=
  { pt := ptByte true true 4, address := 121, data := vecBytes pack v }

/-- The clock state of the interface (HIL.py:78-87) -/
structure Clock (K : Type) where
  start : K
  lastQuat : K
  lastPos : K
  lastVel : K

/-- HIL.py:152-199 `sendIMUData`: which of the three packets are sent at simulation time `t`, and the clock
afterwards -/
def send (qp pp vp : K) (c : Clock K) (t : K) : (Bool × Bool × Bool) × Clock K :=
  let q := decide (qp < t + c.start - c.lastQuat)
  let p := decide (pp < t + c.start - c.lastPos)
  let v := decide (vp < t + c.start - c.lastVel)
  ((q, p, v), { c with lastQuat := if q then t + c.start else c.lastQuat
                       lastPos := if p then t + c.start else c.lastPos
                       lastVel := if v then t + c.start else c.lastVel })

end Mapleaf.Run.Hil
