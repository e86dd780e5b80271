import Verif.Motion.VecModel
import Mathlib.Analysis.SpecialFunctions.Complex.Arg

/-! # Model: `Quaternion` and `AngularVelocity` (MAPLEAF/Motion/CythonQuaternion.pyx, CythonAngularVelocity.pyx)

`normalize` changes the object it is called on; functions that call it return the changed object as well. Rounding is not
modelled. -/

namespace Mapleaf.Motion

/-- CythonQuaternion.pyx:13 -/
structure Quat (K : Type) where
  q0 : K
  q1 : K
  q2 : K
  q3 : K
  deriving DecidableEq, Repr

namespace Quat

theorem ext4 {K : Type} {a b : Quat K} (h0 : a.q0 = b.q0) (h1 : a.q1 = b.q1) (h2 : a.q2 = b.q2) (h3 : a.q3 = b.q3) :
    a = b := by
  cases a; cases b; simp_all

variable {K : Type} [Field K]

/-- CythonQuaternion.pyx:90-91 `__add__` -/
def add (a b : Quat K) : Quat K := ⟨a.q0 + b.q0, a.q1 + b.q1, a.q2 + b.q2, a.q3 + b.q3⟩

/-- CythonQuaternion.pyx:96-97 `__neg__` -/
def neg (a : Quat K) : Quat K := ⟨-a.q0, -a.q1, -a.q2, -a.q3⟩

/-- CythonQuaternion.pyx:93-94 `__sub__` -/
def sub (a b : Quat K) : Quat K := a.add b.neg

/-- CythonQuaternion.pyx:107-111 `__mul__` of two quaternions -/
def mul (a b : Quat K) : Quat K :=
  ⟨a.q0 * b.q0 - a.q1 * b.q1 - a.q2 * b.q2 - a.q3 * b.q3,
   a.q0 * b.q1 + a.q1 * b.q0 + a.q2 * b.q3 - a.q3 * b.q2,
   a.q0 * b.q2 - a.q1 * b.q3 + a.q2 * b.q0 + a.q3 * b.q1,
   a.q0 * b.q3 + a.q1 * b.q2 - a.q2 * b.q1 + a.q3 * b.q0⟩

/-- CythonQuaternion.pyx:112-115 `__mul__` with a number on either side -/
def scale (a : Quat K) (k : K) : Quat K := ⟨a.q0 * k, a.q1 * k, a.q2 * k, a.q3 * k⟩

/-- CythonQuaternion.pyx:140-142 `dotProduct` -/
def dotProduct (a b : Quat K) : K := a.q0 * b.q0 + a.q1 * b.q1 + a.q2 * b.q2 + a.q3 * b.q3

/-- CythonQuaternion.pyx:156-158 `conjugate` -/
def conj (a : Quat K) : Quat K := ⟨a.q0, -a.q1, -a.q2, -a.q3⟩

/-- CythonQuaternion.pyx:136-138 `norm` -/
noncomputable def norm (a : Quat ℝ) : ℝ := Real.sqrt (a.q0 * a.q0 + a.q1 * a.q1 + a.q2 * a.q2 + a.q3 * a.q3)

open Classical in
/-- CythonQuaternion.pyx:125-126 `__truediv__` by a number -/
noncomputable def divNum (a : Quat ℝ) (s : ℝ) : Except PyErr (Quat ℝ) :=
  if s = 0 then .error .zeroDivision else .ok (a.scale (1 / s))

/-- CythonQuaternion.pyx:160-162 `inverse` -/
noncomputable def inverse (a : Quat ℝ) : Except PyErr (Quat ℝ) := a.conj.divNum (a.norm ^ 2)

/-- CythonQuaternion.pyx:121-124 `__truediv__` by a quaternion: `scalar.inverse() * self` -/
noncomputable def divQuat (a b : Quat ℝ) : Except PyErr (Quat ℝ) :=
  match b.inverse with
  | .error e => .error e
  | .ok i => .ok (i.mul a)

open Classical in
/-- CythonQuaternion.pyx:144-154 `normalize`: the value the object has afterwards (it is also returned) -/
noncomputable def normalize (a : Quat ℝ) : Except PyErr (Quat ℝ) :=
  let n := a.norm
  if n = 1 then .ok a
  else if n = 0 then .error .zeroDivision
  else .ok ⟨a.q0 / n, a.q1 / n, a.q2 / n, a.q3 / n⟩

/-- CythonQuaternion.pyx:50-56: construction from axis and angle -/
noncomputable def axisAngle (axis : V3 ℝ) (angle : ℝ) : Quat ℝ :=
  let u := axis.normalize
  ⟨Real.cos (angle / 2), Real.sin (angle / 2) * u.x, Real.sin (angle / 2) * u.y, Real.sin (angle / 2) * u.z⟩

/-- CythonQuaternion.pyx:167-169: `q v q*` -/
def sandwich (r : Quat K) (v : V3 K) : V3 K :=
  let p := (r.mul ⟨0, v.x, v.y, v.z⟩).mul r.conj
  ⟨p.q1, p.q2, p.q3⟩

/-- CythonQuaternion.pyx:164-169 `rotate`: the rotated vector and the (now normalised) quaternion object -/
noncomputable def rotate (q : Quat ℝ) (v : V3 ℝ) : Except PyErr (V3 ℝ × Quat ℝ) :=
  match q.normalize with
  | .error e => .error e
  | .ok r => .ok (r.sandwich v, r)

/-- C `atan2(y, x)` -/
noncomputable def atan2 (y x : ℝ) : ℝ := Complex.arg (x + y * Complex.I)

/-- CythonQuaternion.pyx:205-209 `rotationAngle`: the angle and the (now normalised) object -/
noncomputable def rotationAngle (q : Quat ℝ) : Except PyErr (ℝ × Quat ℝ) :=
  match q.normalize with
  | .error e => .error e
  | .ok r => .ok (2 * atan2 (Real.sqrt (1 - r.q0 ^ 2)) r.q0, r)

open Classical in
/-- CythonQuaternion.pyx:197-203 `rotationAxis`. `rotationAngle` has normalised the object when line 200 reads it. -/
noncomputable def rotationAxis (q : Quat ℝ) : Except PyErr (V3 ℝ) :=
  match q.rotationAngle with
  | .error e => .error e
  | .ok (angle, r) =>
    if |angle| > 0 then
      let n := Real.sqrt (r.norm - r.q0 ^ 2)
      if n = 0 then .error .zeroDivision else .ok ⟨r.q1 / n, r.q2 / n, r.q3 / n⟩
    else .ok ⟨1, 0, 0⟩

open Classical in
/-- CythonQuaternion.pyx:128-134 `scaleRotation` -/
noncomputable def scaleRotation (q : Quat ℝ) (s : ℝ) : Except PyErr (Quat ℝ) :=
  match q.rotationAngle with
  | .error e => .error e
  | .ok (angle, r) =>
    if angle = 0 then .ok r
    else
      match r.rotationAxis with
      | .error e => .error e
      | .ok axis => .ok (axisAngle axis (s * angle))

open Classical in
/-- CythonQuaternion.pyx:180-185: the angle interpolated to -/
noncomputable def slerpAngle (rotAngle fraction : ℝ) : ℝ :=
  if rotAngle > Real.pi then (2 * Real.pi - rotAngle) * fraction else rotAngle * fraction

open Classical in
/-- CythonQuaternion.pyx:171-191 `slerp` -/
noncomputable def slerp (a b : Quat ℝ) (fraction : ℝ) : Except PyErr (Quat ℝ) :=
  match a.normalize, b.normalize with
  | .ok q1, .ok q2 =>
    let qDelta := q1.conj.mul q2
    match qDelta.rotationAngle with
    | .error e => .error e
    | .ok (rotAngle, qDelta) =>
      let angle := slerpAngle rotAngle fraction
      if angle > 0 then
        match qDelta.rotationAxis with
        | .error e => .error e
        | .ok axis => .ok (axisAngle axis angle)
      else .ok (axisAngle ⟨1, 0, 0⟩ angle)
  | .error e, _ => .error e
  | _, .error e => .error e

open Classical in
/-- CythonQuaternion.pyx:219-226 `toRotationVector` -/
noncomputable def toRotationVector (q : Quat ℝ) : Except PyErr (V3 ℝ) :=
  match q.normalize with
  | .error e => .error e
  | .ok r =>
    let n := Real.sqrt (1 - r.q0 ^ 2)
    let angle := 2 * atan2 n r.q0
    if angle = 0 then .ok ⟨0, 0, 0⟩
    else if n = 0 then .error .zeroDivision
    else .ok ⟨r.q1 * angle / n, r.q2 * angle / n, r.q3 * angle / n⟩

/-- CythonQuaternion.pyx:211-217 `toEulerAngles` -/
noncomputable def toEulerAngles (q : Quat ℝ) : V3 ℝ :=
  ⟨atan2 (2 * (q.q0 * q.q1 + q.q2 * q.q3)) (1 - 2 * (q.q1 ^ 2 + q.q2 ^ 2)),
   Real.arcsin (2 * (q.q0 * q.q2 - q.q3 * q.q1)),
   atan2 (2 * (q.q0 * q.q3 + q.q1 * q.q2)) (1 - 2 * (q.q2 ^ 2 + q.q3 ^ 2))⟩

/-- CythonAngularVelocity.pyx:78-86 `toQuaternion` of a rotation vector (angular velocity times time step) -/
noncomputable def ofRotationVector (w : V3 ℝ) : Quat ℝ := axisAngle w.normalize w.length

/-- CythonAngularVelocity.pyx:31-36: angular velocity from axis and rate -/
noncomputable def angVelOfAxis (axis : V3 ℝ) (rate : ℝ) : V3 ℝ := rate • axis.normalize

end Quat
end Mapleaf.Motion
