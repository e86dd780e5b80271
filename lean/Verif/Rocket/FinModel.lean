import Verif.Rocket.AeroModel
import Verif.Motion.InterpModel
import Verif.GNC.GncModel

/-!
# Model of fins (MAPLEAF/Rocket/Fins.py, MAPLEAF/Rocket/CythonFinFunctions.pyx)

Reading the definition, the drag of edges and the thickness drag are left out; the total drag coefficient is a parameter.
-/

namespace Mapleaf.Rocket
open Mapleaf.Motion V3

/-- Fins.py:55-66, 105: the numbers of a fin set used here; `sweep` in radians, `cant` in degrees, `bodyRadius` the radius of the stage
at the fin -/
structure FinGeom where
  numFins : Nat
  firstFinAngle : ℝ
  cant : ℝ
  sweep : ℝ
  rootChord : ℝ
  tipChord : ℝ
  span : ℝ
  bodyRadius : ℝ
  nSlices : Nat

/-- one spanwise slice: the entries of `spanSliceAreas`, `spanSliceRadii`, `sliceLEPositions`, `sliceLengths` at one index -/
structure FinSlice where
  area : ℝ
  radius : ℝ
  le : ℝ
  len : ℝ

namespace FinGeom

/-- Fins.py:388-390 `getChord` -/
noncomputable def chord (g : FinGeom) (y : ℝ) : ℝ := (g.tipChord - g.rootChord) * (y / g.span) + g.rootChord

/-- Fins.py:97 -/
noncomputable def planformArea (g : FinGeom) : ℝ := g.span * (g.tipChord + g.rootChord) / 2

/-- Fins.py:99 -/
noncomputable def aspectRatio (g : FinGeom) : ℝ := (2 * g.span) ^ 2 / g.planformArea

/-- Fins.py:100 -/
noncomputable def stallAngle (g : FinGeom) : ℝ := 15 * (1 + 1.1 / g.aspectRatio)

open Classical in
/-- Fins.py:117-128 -/
noncomputable def trailingEdgeSweep (g : FinGeom) : ℝ :=
  let le := g.span * Real.tan g.sweep
  let te := g.tipChord + le - g.rootChord
  if te = 0 then 0
  else if te < 0 then -1 * Quat.atan2 |te| g.span
  else Quat.atan2 |te| g.span

/-- Fins.py:130 -/
noncomputable def midChordSweep (g : FinGeom) : ℝ := (g.sweep + g.trailingEdgeSweep) / 2

/-- Fins.py:180-196 `_splitFinsIntoSlices` -/
noncomputable def slices (g : FinGeom) : Except PyErr (List FinSlice) :=
  if g.nSlices = 0 then .error .zeroDivision
  else
    let step := g.span / g.nSlices
    .ok ((List.range g.nSlices).map fun (i : Nat) =>
      let y := i * step + step * 0.5
      ⟨step * g.chord y, y + g.bodyRadius, y * Real.tan g.sweep, g.chord y⟩)

/-- Fins.py:158-178 `_calculateMACProperties`: length, spanwise and chordwise position of the mean chord -/
noncomputable def macProperties (g : FinGeom) : Except PyErr (ℝ × ℝ × ℝ) :=
  let n := GNC.pyRound (g.span / 0.0001)
  if n = 0 then .error .zeroDivision
  else
    let step := g.span / n
    let add := fun (t : ℝ × ℝ × ℝ) (i : Nat) =>
      let y := i * step + step / 2
      (t.1 + g.chord y ^ 2 * step, t.2.1 + y * (g.chord y * step), t.2.2 + Real.tan g.sweep * y * g.chord y * step)
    let s := (List.range n.toNat).foldl add (0, 0, 0)
    .ok (s.1 / g.planformArea, s.2.1 / g.planformArea, s.2.2 / g.planformArea)

/-- Fins.py:235-249: spanwise direction of fin `i` (`math.radians` of degrees) -/
noncomputable def direction (g : FinGeom) (i : Nat) : V3 ℝ :=
  let a := (g.firstFinAngle + i * (360 / g.numFins)) * Real.pi / 180
  ⟨Real.cos a, Real.sin a, 0⟩

/-- Fins.py:235-249 `_initChildFins`: dividing by zero fins raises -/
noncomputable def directions (g : FinGeom) : Except PyErr (List (V3 ℝ)) :=
  if g.numFins = 0 then .error .zeroDivision else .ok ((List.range g.numFins).map g.direction)

/-- Fins.py:139 -/
noncomputable def bodyInterference (g : FinGeom) : ℝ := 1 + g.bodyRadius / (g.span + g.bodyRadius)

end FinGeom

/-- Fins.py:145-156: `self.finNumber` does not exist, so five to eight fins raise -/
def finNumberInterference (numFins : Nat) : Except PyErr ℚ :=
  if numFins ≤ 4 then .ok 1
  else if numFins ≤ 8 then .error .attributeError
  else .ok (3 / 4)

/-- Fins.py:26-34 `getFinCnAlpha_Subsonic_Barrowman` -/
noncomputable def cnAlpha (span planformArea beta midChordSweep : ℝ) : ℝ :=
  let ar := 2 * span ^ 2 / planformArea
  2 * Real.pi * ar / (2 + Real.sqrt (4 + (beta * ar / Real.cos midChordSweep) ^ 2))

/-- Fins.py:37-43 `getBusemannCoefficients` (K1, K2, K3; Kstar is zero), gamma = 1.4 -/
noncomputable def busemann (mach beta : ℝ) : ℝ × ℝ × ℝ :=
  let gamma : ℝ := 1.4
  (2 / beta, ((gamma + 1) * mach ^ 4 - 4 * beta ^ 2) / (4 * beta ^ 4),
    ((gamma + 1) * mach ^ 8 + (2 * gamma ^ 2 - 7 * gamma - 5) * mach ^ 6 + 10 * (gamma + 1) * mach ^ 4 - 12 * mach ^ 2 + 8) /
      (6 * beta ^ 7))

/-! ## The position of the centre of pressure along the chord -/

/-- Fins.py:215 -/
noncomputable def cpF2 (ar : ℝ) : ℝ := (ar * Real.sqrt 3 - 0.67) / (2 * Real.sqrt 3 * ar - 1)

/-- Fins.py:216-219; `3 ** -0.5` is `1 / sqrt 3` -/
noncomputable def cpF2' (ar : ℝ) : ℝ :=
  let t1 := (2 * (1 / Real.sqrt 3) * ar) * (2 * ar * Real.sqrt 3 - 1)
  let t2 := (Real.sqrt 3 * ar - 0.67) * (ar * 4 * (1 / Real.sqrt 3))
  (t1 - t2) / (2 * ar * Real.sqrt 3 - 1) ^ 2

/-- Fins.py:221-233: `x` solves the linear system (whatever way `numpy` finds it) -/
def CpSolution (ar : ℝ) (x : Fin 6 → ℝ) : Prop :=
  0.5 ^ 5 * x 0 + 0.5 ^ 4 * x 1 + 0.5 ^ 3 * x 2 + 0.5 ^ 2 * x 3 + 0.5 * x 4 + 1 * x 5 = 0.25 ∧
  5 * 0.5 ^ 4 * x 0 + 4 * 0.5 ^ 3 * x 1 + 3 * 0.5 ^ 2 * x 2 + 2 * 0.5 * x 3 + 1 * x 4 + 0 * x 5 = 0 ∧
  2 ^ 5 * x 0 + 2 ^ 4 * x 1 + 2 ^ 3 * x 2 + 2 ^ 2 * x 3 + 2 * x 4 + 1 * x 5 = cpF2 ar ∧
  5 * 2 ^ 4 * x 0 + 4 * 2 ^ 3 * x 1 + 3 * 2 ^ 2 * x 2 + 2 * 2 * x 3 + 1 * x 4 + 0 * x 5 = cpF2' ar ∧
  20 * 2 ^ 3 * x 0 + 12 * 2 ^ 2 * x 1 + 6 * 2 * x 2 + 2 * x 3 + 0 * x 4 + 0 * x 5 = 0 ∧
  60 * 2 ^ 2 * x 0 + 24 * 2 * x 1 + 6 * x 2 + 0 * x 3 + 0 * x 4 + 0 * x 5 = 0

open Classical in
/-- Fins.py:360-386 `_getCPXPos`, for a fin whose denominator at `mach` is not zero -/
noncomputable def cpXPos (x : Fin 6 → ℝ) (ar mac xle mach : ℝ) : Except PyErr ℝ :=
  if mach < 0.5 then .ok (xle + 0.25 * mac)
  else if mach ≥ 2 then
    match getBeta mach with
    | .error e => .error e
    | .ok b => if 2 * ar * b - 1 = 0 then .error .zeroDivision else .ok (mac * ((ar * b - 0.67) / (2 * ar * b - 1)) + xle)
  else .ok ((0 + x 0 * mach ^ 5 + x 1 * mach ^ 4 + x 2 * mach ^ 3 + x 3 * mach ^ 2 + x 4 * mach ^ 1 + x 5 * mach ^ 0) * mac + xle)

/-! ## Forces -/

open Classical in
/-- CythonFinFunctions.pyx:10-28 `getFinSliceAngleOfAttack` (`abs` read as the absolute value of a double) -/
noncomputable def finSliceAOA (radius : ℝ) (airVel unitTangential finNormal : V3 ℝ) (stallAngle : ℝ) : ℝ :=
  let vel := airVel + radius • unitTangential
  let mag := vel.length
  let aoa :=
    if mag ≥ 0.1 then
      let body := dot finNormal vel * (1 / mag)
      Real.arcsin (if |body - 1| < 1e-14 then 1 else body)
    else 0
  if |aoa| > stallAngle then aoa * |stallAngle / aoa| else aoa

/-- CythonFinFunctions.pyx:30-50 `getFinSliceForce_Supersonic` -/
def sliceForceSupersonic {K : Type} [Field K] (k1 k2 k3 aoa area : K) : K :=
  let topCp := aoa * (k1 + k2 * aoa + k3 * aoa ^ 2 - 0 * aoa ^ 2)
  let bottomCp := -aoa * (k1 + k2 * (-aoa) + k3 * (-aoa) ^ 2 - 0 * aoa ^ 2)
  (topCp - bottomCp) * area

/-- CythonFinFunctions.pyx:104-108: the Mach cone correction factor (the slice's length is not zero) -/
noncomputable def machConeFactor (conePos : ℝ) (s : FinSlice) : ℝ :=
  let out := min 1 (|conePos - s.le| / s.len)
  out + 0.5 * (1 - out)

/-- CythonFinFunctions.pyx:62-77 and 93-116: the loop over the slices, with `force` the force of a slice at its angle of attack -/
def sliceLoop {K : Type} [Field K] {S : Type} (radius : S → K) (force : S → K) (spanCP : K) (slices : List S) : K × K :=
  slices.foldl (fun t s => (t.1 + force s, t.2 + force s * (spanCP - radius s))) (0, 0)

/-- one fin: Fins.py:433-461; `cpRadius` is `MACYPos + bodyRadius` -/
structure FinP where
  spanwise : V3 ℝ
  slices : List FinSlice
  stall : ℝ
  span : ℝ
  planform : ℝ
  midSweep : ℝ
  tipPosition : ℝ
  cpRadius : ℝ
  position : V3 ℝ

namespace FinP

/-- Fins.py:456 -/
def normal0 (p : FinP) : V3 ℝ := ⟨p.spanwise.y, -p.spanwise.x, 0⟩

/-- Fins.py:461 -/
noncomputable def cpSpanwise (p : FinP) : V3 ℝ := p.cpRadius • p.spanwise

/-- Fins.py:484-485 -/
noncomputable def tangential (p : FinP) (omegaZ : ℝ) : V3 ℝ := (-1 : ℝ) • cross ⟨0, 0, omegaZ⟩ p.spanwise

/-- the angle of attack of a slice -/
noncomputable def aoa (p : FinP) (airVel normal : V3 ℝ) (omegaZ : ℝ) (s : FinSlice) : ℝ :=
  finSliceAOA s.radius airVel (p.tangential omegaZ) normal p.stall

/-- Fins.py:487-490 `subsonicNormalForce` with CythonFinFunctions.pyx:52-77 -/
noncomputable def subsonic (p : FinP) (airVel normal : V3 ℝ) (omegaZ mach : ℝ) : Except PyErr (ℝ × ℝ) :=
  match getBeta mach with
  | .error e => .error e
  | .ok b =>
    let cn := cnAlpha p.span p.planform b p.midSweep
    .ok (sliceLoop FinSlice.radius (fun s => cn * p.aoa airVel normal omegaZ s * s.area) p.cpSpanwise.length p.slices)

/-- Fins.py:492-506 `supersonicNormalForce` with CythonFinFunctions.pyx:79-116 -/
noncomputable def supersonic (p : FinP) (airVel normal : V3 ℝ) (omegaZ mach : ℝ) : Except PyErr (ℝ × ℝ) :=
  match getBeta mach with
  | .error e => .error e
  | .ok b =>
    let k := busemann mach b
    let slope := 1 / Real.tan (Real.arcsin (1 / mach))
    match p.slices.getLast? with
    | none => .error .indexError
    | some last =>
      let cone := fun (s : FinSlice) => (last.radius - s.radius) * slope + p.tipPosition
      .ok (sliceLoop FinSlice.radius
        (fun s => sliceForceSupersonic k.1 k.2.1 k.2.2 (p.aoa airVel normal omegaZ s) s.area * machConeFactor (cone s) s)
        p.cpSpanwise.length p.slices)

open Classical in
/-- Fins.py:508-528: normal force and moment before multiplication with the dynamic pressure -/
noncomputable def normalForce (p : FinP) (airVel normal : V3 ℝ) (omegaZ mach : ℝ) : Except PyErr (ℝ × ℝ) :=
  if mach ≤ 0.8 then p.subsonic airVel normal omegaZ mach
  else if mach < 1.4 then do
    let a ← p.subsonic airVel normal omegaZ 0.8
    let a' ← p.subsonic airVel normal omegaZ (0.8 + 0.001)
    let b ← p.supersonic airVel normal omegaZ 1.4
    let b' ← p.supersonic airVel normal omegaZ (1.4 + 0.001)
    let f ← cubicInterp mach 0.8 1.4 a.1 b.1 a'.1 b'.1 0.001
    let m ← cubicInterp mach 0.8 1.4 a.2 b.2 a'.2 b'.2 0.001
    pure (f, m)
  else p.supersonic airVel normal omegaZ mach

/-- Fins.py:463-551 `_barrowmanAeroFunc`; `q` the dynamic pressure, `delta` the deflection in degrees, `cd` the total drag coefficient -/
noncomputable def force (p : FinP) (mach q aref : ℝ) (airVel : V3 ℝ) (omegaZ delta cpx cd : ℝ) : Except PyErr (FMS ℝ) :=
  match (Quat.axisAngle p.spanwise (delta * Real.pi / 180)).rotate p.normal0 with
  | .error e => .error e
  | .ok (normal, _) =>
    match p.normalForce airVel normal omegaZ mach with
    | .error e => .error e
    | .ok (f, m) =>
      match p.slices[(GNC.pyRound ((p.slices.length : ℝ) / 2)).toNat]? with
      | none => .error .indexError
      | some mid =>
        let avg := p.aoa airVel normal omegaZ mid
        let axial := (dragToAxial avg * cd * aref * q) • cross p.spanwise normal
        let cp := p.cpSpanwise + (p.position - ⟨0, 0, cpx⟩)
        .ok (FMS.make ((f * q) • normal + axial) (some cp) (some ⟨0, 0, m * q⟩))

end FinP

/-- Fins.py:273-287: sum over the fins, interference factor `k` on lateral force and lateral moment -/
def finSetForce {K : Type} [Field K] (position : V3 K) (k : K) (fins : List (FMS K)) : FMS K :=
  let t := fins.foldl FMS.add (FMS.make 0 (some position) none)
  { t with
    force := ⟨t.force.x * k, t.force.y * k, t.force.z⟩
    moment := ⟨t.moment.x * k, t.moment.y * k, t.moment.z⟩ }

/-- Fins.py:351-354: the air velocity at the fins, from the rocket's air velocity, angular velocity, fin position and CG -/
def finAirVel {K : Type} [Field K] (v omega position cg : V3 K) : V3 K := v - cross omega (position - cg)

end Mapleaf.Rocket
