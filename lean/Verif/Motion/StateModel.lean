import Verif.Motion.QuatModel

/-! # Model: rigid-body states, their derivatives and the rigid-body equations
(MAPLEAF/Motion/RigidBodyStates.py, RigidBodies.py) -/

namespace Mapleaf.Motion

/-- RigidBodyStates.py:104-108 `RigidBodyState` -/
structure RBState where
  pos : V3 ℝ
  vel : V3 ℝ
  ori : Quat ℝ
  angVel : V3 ℝ

/-- RigidBodyStates.py:158-162 `RigidBodyStateDerivative` -/
structure RBDeriv where
  vel : V3 ℝ
  acc : V3 ℝ
  angVel : V3 ℝ
  angAcc : V3 ℝ

/-- RigidBodyStates.py:21-23 `RigidBodyState_3DoF` -/
structure RBState3 where
  pos : V3 ℝ
  vel : V3 ℝ

namespace RBState

/-- RigidBodyStates.py:110-117 `__add__` -/
noncomputable def add (a b : RBState) : Except PyErr RBState :=
  match a.ori.normalize with
  | .error e => .error e
  | .ok o =>
    match (b.ori.mul o).normalize with
    | .error e => .error e
    | .ok o' => .ok ⟨a.pos + b.pos, a.vel + b.vel, o', a.angVel + b.angVel⟩

/-- RigidBodyStates.py:119-131 `__mul__` -/
noncomputable def mul (a : RBState) (s : ℝ) : Except PyErr RBState :=
  match a.ori.scaleRotation s with
  | .error e => .error e
  | .ok o => .ok ⟨s • a.pos, s • a.vel, o, s • a.angVel⟩

/-- RigidBodyStates.py:154-155 `__neg__` -/
noncomputable def neg (a : RBState) : RBState := ⟨(-1 : ℝ) • a.pos, (-1 : ℝ) • a.vel, a.ori.conj, (-1 : ℝ) • a.angVel⟩

/-- RigidBodyStates.py:133-139 `__abs__` -/
noncomputable def abs (a : RBState) : Except PyErr ℝ :=
  match a.ori.rotationAngle with
  | .error e => .error e
  | .ok (θ, _) => .ok ((|θ| + a.angVel.length) * 100 + (a.pos.length + a.vel.length))

end RBState

namespace RBDeriv

/-- RigidBodyStates.py:164-171 `__add__` -/
noncomputable def add (a b : RBDeriv) : RBDeriv := ⟨a.vel + b.vel, a.acc + b.acc, a.angVel + b.angVel, a.angAcc + b.angAcc⟩

/-- RigidBodyStates.py:173-188 `__mul__`: the change of state over a time step -/
noncomputable def mul (a : RBDeriv) (dt : ℝ) : Except PyErr RBState :=
  match (Quat.ofRotationVector (dt • a.angVel)).normalize with
  | .error e => .error e
  | .ok o => .ok ⟨dt • a.vel, dt • a.acc, o, dt • a.angAcc⟩

open Classical in
/-- RigidBodyStates.py:190-202 `__truediv__` -/
noncomputable def div (a : RBDeriv) (s : ℝ) : Except PyErr RBDeriv :=
  if s = 0 then .error .zeroDivision
  else .ok ⟨(1 / s) • a.vel, (1 / s) • a.acc, (1 / s) • a.angVel, (1 / s) • a.angAcc⟩

end RBDeriv

/-- RigidBodyStates.py:355-371 `interpolateRigidBodyStates` of two 6-DoF states -/
noncomputable def interpolate6 (s1 s2 : RBState) (w1 : ℝ) : Except PyErr RBState :=
  let w2 := 1 - w1
  match s1.ori.slerp s2.ori w1 with
  | .error e => .error e
  | .ok d =>
    -- `slerp` has normalised `state1.orientation` in place when line 369 reads it
    match s1.ori.normalize with
    | .error e => .error e
    | .ok o => .ok ⟨w1 • s1.pos + w2 • s2.pos, w1 • s1.vel + w2 • s2.vel, o.mul d, w1 • s1.angVel + w2 • s2.angVel⟩

/-- RigidBodyStates.py:360-364, 373-375: the 3-DoF case -/
noncomputable def interpolate3 (s1 s2 : RBState3) (w1 : ℝ) : RBState3 :=
  let w2 := 1 - w1
  ⟨w1 • s1.pos + w2 • s2.pos, w1 • s1.vel + w2 • s2.vel⟩

/-- What the equations need of an `Inertia` (inertia.py:12-20) -/
structure MassProps where
  mass : ℝ
  moi : V3 ℝ
  cg : V3 ℝ

open Classical in
/-- RigidBodies.py:88-115 `RigidBody.getRigidBodyStateDerivative`. `force`, `moment`: applied in the body frame;
`I1`, `I2`: inertia at `time` and at `time + 1e-8`. Divisions by zero raise, in the order of the code. -/
noncomputable def rigidBodyDerivative (s : RBState) (force moment : V3 ℝ) (I1 I2 : MassProps) : Except PyErr RBDeriv :=
  match s.ori.rotate ((1 / 1e-8 : ℝ) • (I2.cg - I1.cg)) with
  | .error e => .error e
  | .ok (cgVel, o) =>
    match o.rotate force with
    | .error e => .error e
    | .ok (fG, o) =>
      if I1.mass = 0 then .error .zeroDivision
      else
        match o.rotate s.angVel with
        | .error e => .error e
        | .ok (wG, _) =>
          if I1.moi.x = 0 ∨ I1.moi.y = 0 ∨ I1.moi.z = 0 then .error .zeroDivision
          else .ok
            { vel := s.vel + cgVel
              acc := (1 / I1.mass) • fG
              angVel := wG
              angAcc :=
                ⟨(moment.x + (I1.moi.y - I1.moi.z) * s.angVel.y * s.angVel.z) / I1.moi.x,
                 (moment.y + (I1.moi.z - I1.moi.x) * s.angVel.z * s.angVel.x) / I1.moi.y,
                 (moment.z + (I1.moi.x - I1.moi.y) * s.angVel.x * s.angVel.y) / I1.moi.z⟩ }

open Classical in
/-- RigidBodies.py:41-47 `RigidBody_3DoF.getRigidBodyStateDerivative`: (velocity, acceleration) -/
noncomputable def rigidBodyDerivative3 (s : RBState3) (force : V3 ℝ) (mass : ℝ) : Except PyErr (V3 ℝ × V3 ℝ) :=
  if mass = 0 then .error .zeroDivision else .ok (s.vel, (1 / mass) • force)

end Mapleaf.Motion
