import Verif.ENV.EarthModel
import Verif.ENV.RailModel

/-!
# Model of the environment wrapper (MAPLEAF/ENV/environment.py) and of the rocket's initial state
(MAPLEAF/Rocket/rocket.py)

The wind, turbulence and atmosphere models are arbitrary functions (they are modelled in their own files), so one call of the
wrapper is described for whatever they answer. The earth models are the ones of `EarthModel`; the iteration of the WGS84 model
has fuel. `EnvironmentalConditions` is a named tuple.
-/

namespace Mapleaf.ENV
open Mapleaf.Motion V3

/-- EarthModelling.py:15-54: what the environment uses of an earth model: the class attribute `rotationRate`, `getAltitude`,
`getInertialToENUFrameRotation`, `getGravityForce` (mass and position) and `convertIntoGlobalFrame` of a 6-DoF state -/
structure Earth where
  rate : ℝ
  altitude : V3 ℝ → Except PyErr ℝ
  enu : V3 ℝ → Except PyErr (Quat ℝ)
  gravity : ℝ → V3 ℝ → Except PyErr (V3 ℝ)
  toGlobal : RBState → ℝ → ℝ → Except PyErr RBState

/-- EarthModelling.py:75-91 `NoEarth` -/
noncomputable def noEarth : Earth where
  rate := 0
  altitude := fun v => .ok v.z
  enu := fun _ => .ok ⟨1, 0, 0, 0⟩
  gravity := fun _ _ => .ok noGravity
  toGlobal := fun s _ _ => .ok s

/-- EarthModelling.py:93-105 `FlatEarth`: overrides the gravity only -/
noncomputable def flatEarth : Earth := { noEarth with gravity := flatGravity }

/-- EarthModelling.py:107-227 `SphericalEarth` -/
noncomputable def roundEarth : Earth where
  rate := Sphere.rotationRate
  altitude := fun v => .ok (Sphere.altitude v)
  enu := fun v => .ok (Sphere.enuRotation v)
  gravity := Sphere.gravity
  toGlobal := Sphere.toGlobal

/-- EarthModelling.py:168-187 `getInertialToENUFrameRotation`, inherited by the WGS84 model: it uses that model's own
`cartesianToGeodetic` -/
noncomputable def WGS.enuRotation (fuel : Nat) (v : V3 ℝ) : Except PyErr (Quat ℝ) :=
  match WGS.cartesianToGeodetic fuel v 0 with
  | .error e => .error e
  | .ok g => .ok (Sphere.enuOf g.1 g.2.1)

/-- EarthModelling.py:189-192 `getAltitude`, inherited by the WGS84 model -/
noncomputable def WGS.altitude (fuel : Nat) (v : V3 ℝ) : Except PyErr ℝ :=
  match WGS.cartesianToGeodetic fuel v 0 with
  | .error e => .error e
  | .ok g => .ok g.2.2

/-- EarthModelling.py:194-227 `convertIntoGlobalFrame`, inherited by the WGS84 model, 6DoF -/
noncomputable def WGS.toGlobal (fuel : Nat) (s : RBState) (lat lon : ℝ) : Except PyErr RBState :=
  let pos := WGS.geodeticToCartesian lat lon s.pos.z 0
  match WGS.enuRotation fuel pos with
  | .error e => .error e
  | .ok tower =>
    match tower.rotate s.vel with
    | .error e => .error e
    | .ok (v, tower') =>
      let earthAngVel : V3 ℝ := ⟨0, 0, Sphere.rotationRate⟩
      let ori := tower'.mul s.ori
      match ori.conj.rotate earthAngVel with
      | .error e => .error e
      | .ok (w, _) => .ok ⟨pos, v + earthAngVel.cross pos, ori, s.angVel + w⟩

/-- EarthModelling.py:229-370 `WGS84` -/
noncomputable def wgs84 (fuel : Nat) : Earth where
  rate := Sphere.rotationRate
  altitude := WGS.altitude fuel
  enu := WGS.enuRotation fuel
  gravity := WGS.gravity
  toGlobal := WGS.toGlobal fuel

/-- EarthModelling.py:56-73 `earthModelFactory`; `NotImplementedError` is a `RuntimeError` -/
noncomputable def earthModelFactory (fuel : Nat) (name : Option Str) : Except PyErr Earth :=
  match name with
  | none => .ok flatEarth
  | some n =>
    if n = "Flat".toList then .ok flatEarth
    else if n = "Round".toList then .ok roundEarth
    else if n = "WGS84".toList then .ok (wgs84 fuel)
    else if n = "None".toList then .ok noEarth
    else .error .runtimeError

/-- environment.py:19-31 `EnvironmentalConditions` -/
structure Conditions where
  alt : ℝ
  temp : ℝ
  pressure : ℝ
  density : ℝ
  viscosity : ℝ
  wind : V3 ℝ
  meanWind : V3 ℝ
  turbWind : V3 ℝ

/-- environment.py:39-103: the attributes of an `Environment`. `mean`, `turb` and `air` are the answers of the wind, turbulence
and atmosphere models. -/
structure Env where
  earth : Earth
  elevation : ℝ
  lat : ℝ
  lon : ℝ
  mean : ℝ → Except PyErr (V3 ℝ)
  turb : Option (ℝ → V3 ℝ → Option ℝ → Except PyErr (V3 ℝ))
  air : ℝ → Option ℝ → Except PyErr (ℝ × ℝ × ℝ × ℝ)
  rail : Option Rail

/-- environment.py:183-192 `getWind` -/
noncomputable def Env.getWind (E : Env) (agl : ℝ) (time : Option ℝ) : Except PyErr (V3 ℝ × V3 ℝ) :=
  match E.mean agl with
  | .error e => .error e
  | .ok m =>
    match E.turb with
    | none => .ok (m, ⟨0, 0, 0⟩)
    | some f =>
      match f agl m time with
      | .error e => .error e
      | .ok t => .ok (m, t)

/-- environment.py:146-180 `getAirProperties` -/
noncomputable def Env.airProperties (E : Env) (pos : V3 ℝ) (time : Option ℝ) : Except PyErr Conditions :=
  match E.earth.altitude pos with
  | .error e => .error e
  | .ok asl =>
    match E.getWind (asl - E.elevation) time with
    | .error e => .error e
    | .ok (m, t) =>
      let dist := Real.sqrt (pos.x ^ 2 + pos.y ^ 2)
      let m := m + ⟨E.earth.rate * dist, 0, 0⟩
      match E.earth.enu pos with
      | .error e => .error e
      | .ok q =>
        match q.rotate m with
        | .error e => .error e
        | .ok (mG, q') =>
          match q'.rotate t with
          | .error e => .error e
          | .ok (tG, _) =>
            match E.air asl time with
            | .error e => .error e
            | .ok a => .ok ⟨asl, a.1, a.2.1, a.2.2.1, a.2.2.2, mG + tG, mG, tG⟩

/-- rocket.py:531-547 `Rocket._getEnvironmentalConditions`; `off`: under a chute and turbulence switched off under chutes -/
noncomputable def Env.conditions (E : Env) (off : Bool) (pos : V3 ℝ) (time : Option ℝ) : Except PyErr Conditions :=
  match E.airProperties pos time with
  | .error e => .error e
  | .ok c => if off then .ok { c with wind := c.meanWind, turbWind := ⟨0, 0, 0⟩ } else .ok c

/-- environment.py:105-128 `convertInitialStateToGlobalFrame`, 6DoF -/
noncomputable def Env.initialToGlobal (E : Env) (s : RBState) : Except PyErr RBState :=
  let s := { s with pos := s.pos + ⟨0, 0, E.elevation⟩ }
  let s := if E.rail.isSome then { s with angVel := ⟨0, 0, 0⟩ } else s
  E.earth.toGlobal s E.lat E.lon

/-- environment.py:130-143 `convertStateToENUFrame`, 6DoF -/
noncomputable def Env.toENU (E : Env) (s : RBState) : Except PyErr RBState :=
  match E.earth.altitude s.pos with
  | .error e => .error e
  | .ok alt =>
    match E.earth.enu s.pos with
    | .error e => .error e
    | .ok q =>
      match q.conj.rotate s.vel with
      | .error e => .error e
      | .ok (v, c) =>
        let ori := c.mul s.ori
        match c.rotate s.angVel with
        | .error e => .error e
        | .ok (w, _) => .ok ⟨⟨0, 0, alt⟩, v, ori, w⟩

/-- environment.py:217-235 `getGravityForce`, 6DoF -/
noncomputable def Env.gravityForce (E : Env) (mass : ℝ) (cg : V3 ℝ) (s : RBState) : Except PyErr (FMS ℝ) :=
  match E.earth.gravity mass s.pos with
  | .error e => .error e
  | .ok g =>
    match s.ori.conj.rotate g with
    | .error e => .error e
    | .ok (g', _) => .ok ⟨g', cg, ⟨0, 0, 0⟩⟩

/-- rocket.py:256-266: the initial orientation in the launch tower frame. `rotation`: `rotationAxis` and `rotationAngle` (in
degrees) when given, `dir`: `initialDirection` -/
noncomputable def initialOrientation (rotation : Option (V3 ℝ × ℝ)) (dir : V3 ℝ) : Except PyErr (Quat ℝ) :=
  match rotation with
  | some (axis, deg) => .ok (Quat.axisAngle axis (radians deg))
  | none =>
    let d := dir.normalize
    match V3.angle ⟨0, 0, 1⟩ d with
    | .error e => .error e
    | .ok θ => .ok (Quat.axisAngle (V3.cross ⟨0, 0, 1⟩ d) θ)

/-- environment.py:62-85: the orientation the rail is given; the code repeats the computation of the rocket -/
noncomputable def railOrientation (rotation : Option (V3 ℝ × ℝ)) (dir : V3 ℝ) : Except PyErr (Quat ℝ) :=
  match rotation with
  | some (axis, deg) => .ok (Quat.axisAngle axis (radians deg))
  | none =>
    match V3.angle ⟨0, 0, 1⟩ dir.normalize with
    | .error e => .error e
    | .ok θ => .ok (Quat.axisAngle (V3.cross ⟨0, 0, 1⟩ dir.normalize) θ)

open Classical in
/-- environment.py:55-91: the launch rail of an environment -/
noncomputable def makeRail (earth : Earth) (elevation lat lon length : ℝ) (pos : V3 ℝ) (rotation : Option (V3 ℝ × ℝ))
    (dir : V3 ℝ) : Except PyErr (Option Rail) :=
  if length > 0 then
    match railOrientation rotation dir with
    | .error e => .error e
    | .ok q =>
      match earth.toGlobal ⟨pos + ⟨0, 0, elevation⟩, ⟨0, 0, 0⟩, q, ⟨0, 0, 0⟩⟩ lat lon with
      | .error e => .error e
      | .ok g =>
        match g.ori.rotate ⟨0, 0, 1⟩ with
        | .error e => .error e
        | .ok (d, _) => .ok (some (Rail.make g.pos d length earth.rate))
  else .ok none

/-- rocket.py:416-422 `_moveStatePositionToCG` -/
noncomputable def moveToCG (s : RBState) (cg : V3 ℝ) : Except PyErr RBState :=
  match s.ori.rotate cg with
  | .error e => .error e
  | .ok (c, o) => .ok { s with pos := s.pos + c, ori := o }

/-- rocket.py:251-291, 416-422: the initial state of the rigid body. `pos`, `vel`, `w`: the values `position`, `velocity` and
`angularVelocity` of the definition, `cg`: the rocket's initial centre of gravity -/
noncomputable def Env.initialState (E : Env) (pos vel w : V3 ℝ) (rotation : Option (V3 ℝ × ℝ)) (dir cg : V3 ℝ) :
    Except PyErr RBState :=
  match initialOrientation rotation dir with
  | .error e => .error e
  | .ok q =>
    match E.initialToGlobal ⟨pos, vel, q, w⟩ with
    | .error e => .error e
    | .ok s => moveToCG s cg

end Mapleaf.ENV
