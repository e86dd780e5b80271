import Verif.Motion.StateModel
import Mathlib.Analysis.SpecialFunctions.Pow.Real

/-!
# Model of the earth models (MAPLEAF/ENV/EarthModelling.py)

Real arithmetic. The `while True` loop of `WGS84.cartesianToGeodetic` is modelled with fuel; the theorems show how much is
enough.
-/

namespace Mapleaf.ENV
open Mapleaf.Motion

/-- `math.radians` / `math.degrees` -/
noncomputable def radians (d : ℝ) : ℝ := d * (Real.pi / 180)
noncomputable def degrees (r : ℝ) : ℝ := r * (180 / Real.pi)

/-- EarthModelling.py:80-81 `NoEarth.getGravityForce` -/
noncomputable def noGravity : V3 ℝ := 0

open Classical in
/-- EarthModelling.py:97-105 `FlatEarth.getGravityForce` -/
noncomputable def flatGravity (mass : ℝ) (pos : V3 ℝ) : Except PyErr (V3 ℝ) :=
  if (pos.z + 6371000) ^ 2 = 0 then .error .zeroDivision
  else .ok ((mass * 398600.5e9 / (pos.z + 6371000) ^ 2) • (⟨0, 0, -1⟩ : V3 ℝ))

namespace Sphere

/-- EarthModelling.py:109-112 -/
noncomputable def radius : ℝ := 6371007.1809
noncomputable def rotationRate : ℝ := 7.292115e-5
noncomputable def GM : ℝ := 3.98600436e14

/-- EarthModelling.py:114-142 `geodeticToCartesian` -/
noncomputable def geodeticToCartesian (lat lon height timeOffset : ℝ) : V3 ℝ :=
  let φ := radians lat
  let lam := radians lon + rotationRate * timeOffset
  let r := radius + height
  ⟨r * Real.cos φ * Real.cos lam, r * Real.cos φ * Real.sin lam, r * Real.sin φ⟩

/-- EarthModelling.py:144-156 `cartesianToGeodetic`: latitude, longitude, height -/
noncomputable def cartesianToGeodetic (v : V3 ℝ) (timeOffset : ℝ) : ℝ × ℝ × ℝ :=
  let p := Real.sqrt (v.x * v.x + v.y * v.y)
  let lon := Quat.atan2 v.y v.x - rotationRate * timeOffset
  let lat := Quat.atan2 v.z p
  (degrees lat, degrees lon, Real.sqrt (v.x * v.x + v.y * v.y + v.z * v.z) - radius)

open Classical in
/-- EarthModelling.py:158-166 `getGravityForce` -/
noncomputable def gravity (mass : ℝ) (pos : V3 ℝ) : Except PyErr (V3 ℝ) :=
  if pos.length ^ 2 = 0 then .error .zeroDivision
  else .ok ((mass * GM / pos.length ^ 2) • (-(pos.normalize)))

/-- EarthModelling.py:168-187: the two rotations, for given geodetic latitude and longitude -/
noncomputable def enuOf (lat lon : ℝ) : Quat ℝ :=
  (Quat.axisAngle ⟨0, 0, 1⟩ (radians (lon + 90))).mul (Quat.axisAngle ⟨1, 0, 0⟩ (radians (90 - lat)))

/-- EarthModelling.py:168-187 `getInertialToENUFrameRotation` of the spherical earth -/
noncomputable def enuRotation (v : V3 ℝ) : Quat ℝ :=
  let g := cartesianToGeodetic v 0
  enuOf g.1 g.2.1

/-- EarthModelling.py:33-36 `getInertialToNEDFrameRotation` -/
noncomputable def nedRotation (v : V3 ℝ) : Quat ℝ := (enuRotation v).mul (Quat.axisAngle ⟨1, 1, 0⟩ Real.pi)

/-- EarthModelling.py:189-192 `getAltitude` -/
noncomputable def altitude (v : V3 ℝ) : ℝ := (cartesianToGeodetic v 0).2.2

/-- EarthModelling.py:194-227 `convertIntoGlobalFrame`, 6DoF -/
noncomputable def toGlobal (s : RBState) (lat lon : ℝ) : Except PyErr RBState :=
  let pos := geodeticToCartesian lat lon s.pos.z 0
  let tower := enuRotation pos
  match tower.rotate s.vel with
  | .error e => .error e
  | .ok (v, tower') =>
    let earthAngVel : V3 ℝ := ⟨0, 0, rotationRate⟩
    let ori := tower'.mul s.ori
    match ori.conj.rotate earthAngVel with
    | .error e => .error e
    | .ok (w, _) => .ok ⟨pos, v + earthAngVel.cross pos, ori, s.angVel + w⟩

/-- EarthModelling.py:194-209 and 226-227 `convertIntoGlobalFrame`, 3DoF -/
noncomputable def toGlobal3 (s : RBState3) (lat lon : ℝ) : Except PyErr RBState3 :=
  let pos := geodeticToCartesian lat lon s.pos.z 0
  match (enuRotation pos).rotate s.vel with
  | .error e => .error e
  | .ok (v, _) => .ok ⟨pos, v + (⟨0, 0, rotationRate⟩ : V3 ℝ).cross pos⟩

end Sphere

namespace WGS

/-- EarthModelling.py:235-238 -/
noncomputable def a : ℝ := 6378137
noncomputable def f : ℝ := 1 / 298.257223563
noncomputable def b : ℝ := a * (1 - f)
noncomputable def e2 : ℝ := f * (2 - f)

/-- EarthModelling.py:268-303 `geodeticToCartesian` -/
noncomputable def geodeticToCartesian (lat lon height timeOffset : ℝ) : V3 ℝ :=
  let φ := radians lat
  let lam := radians lon + Sphere.rotationRate * timeOffset
  let N := a / Real.sqrt (1 - e2 * Real.sin φ ^ 2)
  ⟨(N + height) * Real.cos φ * Real.cos lam, (N + height) * Real.cos φ * Real.sin lam,
    (b ^ 2 / a ^ 2 * N + height) * Real.sin φ⟩

open Classical in
/-- EarthModelling.py:326-327: one Newton step -/
noncomputable def newtonStep (p z K : ℝ) : Except PyErr ℝ :=
  let ci := ((p * p + (1 - e2) * z * z * K ^ 2) ^ (1.5 : ℝ)) / (a * e2)
  if ci - p * p = 0 then .error .zeroDivision
  else .ok (1 + (p * p + (1 - e2) * z * z * K ^ 3) / (ci - p * p))

open Classical in
/-- EarthModelling.py:325-333: the loop -/
noncomputable def newtonLoop (p z : ℝ) : Nat → ℝ → Except PyErr ℝ
  | 0, _ => .error .outOfFuel
  | n + 1, Kold =>
    match newtonStep p z Kold with
    | .error e => .error e
    | .ok Knew => if |Knew - Kold| < 1e-10 then .ok Knew else newtonLoop p z n Knew

open Classical in
/-- EarthModelling.py:305-341 `cartesianToGeodetic` -/
noncomputable def cartesianToGeodetic (fuel : Nat) (v : V3 ℝ) (timeOffset : ℝ) : Except PyErr (ℝ × ℝ × ℝ) :=
  let lon := Quat.atan2 v.y v.x - Sphere.rotationRate * timeOffset
  let p := Real.sqrt (v.x * v.x + v.y * v.y)
  let Korig := 1 / (1 - e2)
  match newtonLoop p v.z fuel Korig with
  | .error e => .error e
  | .ok k =>
    if k = 0 then .error .zeroDivision
    else .ok (degrees (Quat.atan2 (k * v.z) p), degrees lon,
      (1 / e2) * (1 / k - 1 / Korig) * Real.sqrt (p * p + v.z * v.z * k * k))

open Classical in
/-- EarthModelling.py:348-370 `getGravityForce`: the J2 model -/
noncomputable def gravity (mass : ℝ) (pos : V3 ℝ) : Except PyErr (V3 ℝ) :=
  let r := pos.length
  if r = 0 then .error .zeroDivision
  else
    let frac := (3 * 0.00108262982 * a * a) / (2 * r ^ 4)
    let multiplier := -Sphere.GM * mass / r ^ 3
    .ok ⟨pos.x * multiplier * (1 - frac * (5 * pos.z * pos.z - r * r)),
      pos.y * multiplier * (1 - frac * (5 * pos.z * pos.z - r * r)),
      pos.z * multiplier * (1 - frac * (5 * pos.z * pos.z - 3 * r * r))⟩

end WGS

end Mapleaf.ENV
