import Verif.Motion.CacheModel
import Verif.Motion.ForceModel
import Mathlib.Analysis.SpecialFunctions.Pow.Real

/-!
# Model of the aerodynamic coefficient functions (MAPLEAF/Rocket/AeroFunctions.py) and of the damping moments

The flight condition enters through the air velocity relative to the rocket in its own frame, `v`, and the air density `rho`.
(The functions are memoised; that is the subject of `Verif.Motion.CacheModel`.)
-/

namespace Mapleaf.Rocket
open Mapleaf.Motion V3

/-! ## Damping -/

section
variable {K : Type} [Field K] [LinearOrder K]

/-- bodyTube.py:76-87: one segment, with `psi` the vector from the centre of rotation -/
def segmentMoment (omega psi : V3 K) : V3 K :=
  let vel := cross omega psi
  let sqVel : V3 K := ⟨vel.x * |vel.x|, vel.y * |vel.y|, vel.z * |vel.z|⟩;
  -(cross psi sqVel)

/-- bodyTube.py:74, 77: centre of segment `i` relative to the centre of rotation -/
def segmentArm (position cor : V3 K) (dL : K) (i : Nat) : V3 K :=
  position + ⟨0, 0, -dL * i - dL / 2⟩ - cor

/-- bodyTube.py:61-97 `_computeLongitudinalDampingMoments`, for `nSegments` > 0 -/
def longitudinalDamping (position cor omega : V3 K) (len diameter rho : K) (nSegments : Nat) : V3 K :=
  let dL := len / nSegments
  let dA := dL * diameter
  let total := (List.range nSegments).foldl (fun t i => t + segmentMoment omega (segmentArm position cor dL i)) 0
  (11 / 10 / 2 * rho * dA) • total

end

open Classical in
/-- AeroFunctions.py:138-164 `getCylindricalSkinFrictionDragCoefficientAndRollDampingMoment`, given the flat-plate friction
coefficient `cf`; `airSpeed` is the length of the local air velocity. `rocket.finenessRatio` may be `None`. -/
noncomputable def cylinderFriction (cf len wettedArea aref : ℝ) (fineness : Option ℝ) (omegaZ airSpeed rho : ℝ) :
    Except PyErr (ℝ × V3 ℝ) :=
  match fineness with
  | none => .error .typeError
  | some fr =>
    if fr = 0 then .error .zeroDivision
    else if aref = 0 then .error .zeroDivision
    else if len = 0 then .error .zeroDivision
    else
      let cd := cf * (1 + 0.5 / fr) * (wettedArea / aref)
      let avgRadius := wettedArea / len / (2 * Real.pi)
      let surfaceVel := avgRadius * omegaZ
      let velSq := airSpeed ^ 2 + surfaceVel ^ 2
      if velSq = 0 then .ok (cd, ⟨0, 0, 0⟩)
      else
        let total := cd * 0.5 * velSq * rho * aref
        let roll := total * (surfaceVel / Real.sqrt velSq)
        .ok (cd, ⟨0, 0, -roll * avgRadius⟩)

/-- AeroParameters.py:144-152, from the local air velocity -/
noncomputable def dynPressure (v : V3 ℝ) (rho : ℝ) : ℝ := v.length * v.length * rho / 2

open Classical in
/-- AeroFunctions.py:238-269 `forceFromCoefficients` -/
noncomputable def forceFromCoefficients (v : V3 ℝ) (rho cd cl cmx cmy cmz : ℝ) (cp : V3 ℝ) (refArea refLength : ℝ) :
    Except PyErr (FMS ℝ) :=
  let q := dynPressure v rho
  if q = 0 then .ok (FMS.make ⟨0, 0, 0⟩ none none)
  else
    let k := q * refArea
    let drag := cd • v.normalize
    let n := Aero.normalOf v
    let rotAxis := cross v n
    match v.angle n with
    | .error e => .error e
    | .ok a =>
      match (Quat.axisAngle rotAxis (Real.pi / 2 - a)).rotate n with
      | .error e => .error e
      | .ok (lift, _) =>
        let total := k • (drag + cl • lift)
        let moments := refLength • (k • (⟨cmx, cmy, cmz⟩ : V3 ℝ))
        .ok (FMS.make total (some cp) (some moments))

/-- RocketComponents.py:251-261 `AeroDamping.getAppliedForce`; `cx`, `cy`, `cz` are the damping coefficient vectors -/
noncomputable def aeroDamping (cx cy cz omega v : V3 ℝ) (rho aref lref : ℝ) : Except PyErr (FMS ℝ) :=
  let airspeed := max v.length 0.0000001
  let redim := lref / (2 * airspeed)
  forceFromCoefficients v rho 0 0 (dot cx omega * redim) (dot cy omega * redim) (dot cz omega * redim) ⟨0, 0, 0⟩ aref lref

/-- RocketComponents.py:392-410 `FractionalJetDamping.getAppliedForce`; `moiX` is the rocket's X moment of inertia as a function
of time, `fraction` the user's damping fraction -/
def jetDamping {K : Type} [Field K] [LinearOrder K] (ignition shutOff fraction : K) (moiX : K → K) (time : K) (omega : V3 K) : FMS K :=
  if time > ignition ∧ time < shutOff then
    let rate := (moiX time - moiX (time + 1 / 1000)) / (1 / 1000)
    let factor := rate * fraction
    FMS.make ⟨0, 0, 0⟩ none (some ⟨-omega.x * factor, -omega.y * factor, 0⟩)
  else FMS.make ⟨0, 0, 0⟩ none none

/-! ## Coefficients -/

open Classical in
/-- AeroFunctions.py:170-174 `getBaseDragCoefficient` -/
noncomputable def baseDragCd (mach : ℝ) : ℝ := if mach < 1 then 0.12 + 0.13 * mach * mach else 0.25 / mach

open Classical in
/-- AeroFunctions.py:177-188 `getCylinderCrossFlowCd_ZeroBaseDrag` -/
noncomputable def crossFlowCd (mach : ℝ) : ℝ :=
  if mach < 0.9 then (1 - mach * mach) ^ (-0.417 : ℝ) - 1
  else if mach ≤ 1 then 1 - 1.5 * (mach - 0.9)
  else 1.214 - 0.502 / mach ^ 2 + 0.1095 / mach ^ 4 + 0.0231 / mach ^ 6

open Classical in
/-- AeroFunctions.py:191-198 `getBluntBodyCd_ZeroBaseDrag` -/
noncomputable def bluntCd (mach : ℝ) : ℝ :=
  0.85 * (if mach < 1 then 1 + mach ^ 2 / 4 + mach ^ 4 / 40
    else 1.84 - 0.76 / mach ^ 2 + 0.166 / mach ^ 4 + 0.035 / mach ^ 6)

open Classical in
/-- AeroFunctions.py:204-214 `getDragToAxialForceFactor`; `math.degrees` -/
noncomputable def dragToAxial (aoa : ℝ) : ℝ :=
  let a := |aoa| * 180 / Real.pi
  if a ≤ 17 then -0.000122124 * a ^ 3 + 0.003114164 * a ^ 2 + 1
  else 0.000006684 * a ^ 3 - 0.0010727204 * a ^ 2 + 0.030677323 * a + 1.055660807

/-- AeroFunctions.py:41-52 -/
noncomputable def subsonicCorrection (mach : ℝ) (smooth : Bool) : ℝ :=
  if smooth then 1 - 0.10 * mach ^ 2 else 1 - 0.12 * mach ^ 2

/-- AeroFunctions.py:54-68 -/
noncomputable def supersonicCorrection (mach : ℝ) (smooth : Bool) : ℝ :=
  if smooth then 1 / (1 + 0.15 * mach ^ 2) ^ (0.58 : ℝ)
  else max (1 / (1 + 0.15 * mach ^ 2) ^ (0.58 : ℝ)) (1 / (1 + 0.18 * mach ^ 2))

open Classical in
/-- AeroFunctions.py:121-133: the compressibility correction -/
noncomputable def correction (mach : ℝ) (smooth : Bool) : ℝ :=
  if mach < 0.9 then subsonicCorrection mach smooth
  else if mach < 1.1 then
    subsonicCorrection mach smooth + (supersonicCorrection mach smooth - subsonicCorrection mach smooth) * (mach - 0.9) / 0.2
  else supersonicCorrection mach smooth

open Classical in
/-- AeroFunctions.py:88-119: the friction coefficient before the correction, for a positive length -/
noncomputable def frictionBase (re len roughness : ℝ) (turbulent : Bool) : ℝ :=
  let criticalRe := if roughness = 0 then 1e100 else 51 * (roughness / len) ^ (-1.039 : ℝ)
  if re > criticalRe then 0.032 * (roughness / len) ^ (0.2 : ℝ)
  else if turbulent then
    if re < 1e4 then 0.0148 else 1 / (1.5 * Real.log re - 5.6) ^ 2
  else if re < 1e4 then 0.01328
  else if re < 5e5 then 1.328 / Real.sqrt re
  else 1 / (1.5 * Real.log re - 5.6) ^ 2 - 1700 / re

open Classical in
/-- AeroFunctions.py:70-136 `getSkinFrictionCoefficient` -/
noncomputable def skinFriction (re len mach roughness : ℝ) (turbulent : Bool) : ℝ :=
  frictionBase re len roughness turbulent * correction mach (decide (roughness = 0))

/-! ## Forces -/

/-- AeroFunctions.py:218-236 `forceFromCdCN` -/
noncomputable def forceFromCdCN (v : V3 ℝ) (rho cd cn : ℝ) (cp : V3 ℝ) (refArea : ℝ) (moment : Option (V3 ℝ)) :
    Except PyErr (FMS ℝ) :=
  match Aero.totalAOAOf v with
  | .error e => .error e
  | .ok aoa =>
    let q := dynPressure v rho
    let ca := dragToAxial aoa * cd
    let axial : V3 ℝ := ⟨0, 0, -ca⟩
    let normal := cn • Aero.normalOf v
    .ok (FMS.make (q • (refArea • (axial + normal))) (some cp) moment)

open Classical in
/-- AeroFunctions.py:15-28 `_getCPZ` -/
noncomputable def cpz (f : FMS ℝ) : ℝ :=
  let normal : V3 ℝ := ⟨f.force.x, f.force.y, 0⟩
  if normal.length = 0 then f.loc.z
  else
    let axis := cross normal.normalize ⟨0, 0, 1⟩
    f.loc.z - dot f.moment axis / normal.length

/-- AeroFunctions.py:273-282 `Barrowman_GetCPLocation` -/
def barrowmanCP {K : Type} [Field K] [DecidableEq K] (len areaTop areaBottom volume : K) (top : V3 K) : V3 K :=
  let d := if areaTop = areaBottom then len / 2 else (len * areaBottom - volume) / (areaBottom - areaTop)
  ⟨top.x, top.y, top.z - d⟩

open Classical in
/-- AeroFunctions.py:284-289 `Barrowman_GetCN` -/
noncomputable def barrowmanCN (aoa aref areaTop areaBottom : ℝ) : Except PyErr ℝ :=
  if aref = 0 then .error .zeroDivision else .ok (2 * Real.sin aoa * (areaBottom - areaTop) / aref)

open Classical in
/-- AeroParameters.py:155-163 `getBeta`; `NotImplementedError` is a `RuntimeError`, the square root of a negative number a
`ValueError` -/
noncomputable def getBeta (mach : ℝ) : Except PyErr ℝ :=
  if mach ≤ 0.9 then (if 1 - mach ^ 2 < 0 then .error .valueError else .ok (Real.sqrt (1 - mach ^ 2)))
  else if mach ≥ 1.1 then .ok (Real.sqrt (mach ^ 2 - 1))
  else .error .runtimeError

open Classical in
/-- bodyTube.py:35-59 `BodyTube.getAppliedForce`, given the skin friction coefficient -/
noncomputable def bodyTubeForce (position cg omega v : V3 ℝ) (rho len diameter aref cf : ℝ) (fineness : Option ℝ) :
    Except PyErr (FMS ℝ) :=
  match Aero.totalAOAOf v with
  | .error e => .error e
  | .ok aoa =>
    if aref = 0 then .error .zeroDivision
    else
      let cn := 1.1 * Real.sin aoa ^ 2 * (diameter * len / aref)
      match cylinderFriction cf len (Real.pi * diameter * len) aref fineness omega.z v.length rho with
      | .error e => .error e
      | .ok (cd, roll) =>
        let damping := longitudinalDamping position cg omega len diameter rho 25 + roll
        forceFromCdCN v rho cd cn (position - ⟨0, 0, len / 2⟩) aref (some damping)

end Mapleaf.Rocket
