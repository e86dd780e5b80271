import Verif.Rocket.AeroModel
import Verif.Motion.InterpModel
import Mathlib.Analysis.SpecialFunctions.Trigonometric.Arctan

/-!
# Geometry of body components

MAPLEAF/Rocket/noseCone.py, bodyTube.py, boatTail.py, stage.py (commit pinned in /repo).
-/

namespace Mapleaf.Rocket
open Mapleaf.Motion

/-- the values of `shape` the nose cone code compares with (noseCone.py:103, 113, 116), and any other text -/
inductive NoseShape
  | tangentOgive | cone | halfSeries | other
  deriving DecidableEq

/-- noseCone.py:67-76: aspect ratio (length over diameter), base diameter and shape -/
structure Nose where
  aspectRatio : ℝ
  baseDiameter : ℝ
  shape : NoseShape

namespace Nose

/-- noseCone.py:73, 85 -/
noncomputable def length (n : Nose) : ℝ := n.baseDiameter * n.aspectRatio

/-- noseCone.py:105-108, 129-132: the radius of curvature -/
noncomputable def curvature (n : Nose) : ℝ := ((n.baseDiameter / 2) ^ 2 + n.length ^ 2) / (2 * (n.baseDiameter / 2))

/-- Python's `asin` raises ValueError outside [-1, 1] -/
noncomputable def pyAsin (x : ℝ) : Except PyErr ℝ := open Classical in if x < -1 ∨ 1 < x then .error .valueError else .ok (Real.arcsin x)

open Classical in
/-- noseCone.py:101-124 `_getVolume` -/
noncomputable def volume (n : Nose) : Except PyErr ℝ :=
  match n.shape with
  | .tangentOgive =>
    if n.baseDiameter = 0 ∨ n.curvature = 0 then .error .zeroDivision
    else match pyAsin (n.length / n.curvature) with
      | .error e => .error e
      | .ok a => .ok (Real.pi * (n.length * n.curvature ^ 2 - n.length ^ 3 / 3 - (n.curvature - n.baseDiameter / 2) * n.curvature ^ 2 * a))
  | .cone => .ok (Real.pi * n.baseDiameter ^ 2 * n.length / 3)
  | .halfSeries => .ok (Real.pi * (n.baseDiameter / 2) ^ 2 * n.length / 2)
  | .other => .error .typeError

open Classical in
/-- noseCone.py:126-144 `_getPlanformArea` -/
noncomputable def planform (n : Nose) : Except PyErr ℝ :=
  match n.shape with
  | .tangentOgive =>
    if n.baseDiameter = 0 ∨ n.curvature = 0 then .error .zeroDivision
    else match pyAsin (n.length / n.curvature) with
      | .error e => .error e
      | .ok a => .ok (2 * (a * n.curvature ^ 2 / 2 - n.length * (n.curvature - n.baseDiameter / 2) / 2))
  | .cone => .ok (n.baseDiameter * n.length / 2)
  | .halfSeries => .error .typeError
  | .other => .error .typeError

open Classical in
/-- noseCone.py:146-170 `_getWettedArea`; the square roots' arguments are not negative (`a ≥ length`) -/
noncomputable def wetted (n : Nose) : Except PyErr ℝ :=
  match n.shape with
  | .tangentOgive =>
    if n.baseDiameter = 0 then .error .zeroDivision
    else
      let a := n.curvature
      let step := n.length / 2000
      .ok (((List.range 2001).map fun x : Nat =>
        2 * Real.pi * (Real.sqrt (a ^ 2 - (n.length - x * step) ^ 2) + n.baseDiameter / 2 - a) * step).sum)
  | .cone => .ok (Real.pi * (n.baseDiameter / 2) * Real.sqrt ((n.baseDiameter / 2) ^ 2 + n.length ^ 2))
  | .halfSeries => .error .typeError
  | .other => .error .typeError

open Classical in
/-- noseCone.py:217-224 `getRadius`; `none` is Python's None (no branch taken) -/
noncomputable def getRadius (n : Nose) (d : ℝ) : Except PyErr (Option ℝ) :=
  match n.shape with
  | .cone => if n.length = 0 then .error .zeroDivision else .ok (some (n.baseDiameter / 2 * (d / n.length)))
  | .tangentOgive =>
    if n.baseDiameter = 0 then .error .zeroDivision
    else
      let c := ((n.baseDiameter / 2) ^ 2 + n.length ^ 2) / n.baseDiameter
      if c ^ 2 - (n.length - d) ^ 2 < 0 then .error .valueError
      else .ok (some (Real.sqrt (c ^ 2 - (n.length - d) ^ 2) - (c - n.baseDiameter / 2)))
  | .halfSeries => .ok none
  | .other => .ok none

/-- noseCone.py:91 -/
noncomputable def baseArea (n : Nose) : ℝ := n.baseDiameter ^ 2 * Real.pi / 4

open Classical in
/-- noseCone.py:92 (the nose cone's position is not passed) -/
noncomputable def cpLocation (n : Nose) : Except PyErr (V3 ℝ) :=
  match n.volume with
  | .error e => .error e
  | .ok v => .ok (barrowmanCP n.length 0 n.baseArea v ⟨0, 0, 0⟩)

end Nose

open Classical in
/-- noseCone.py:28-30 `getSupersonicPressureDragCoeff_Hoerner` -/
noncomputable def hoerner (angle mach : ℝ) : Except PyErr ℝ :=
  if mach ^ 2 - 1 < 0 then .error .valueError
  else if Real.sqrt (mach ^ 2 - 1) = 0 then .error .zeroDivision
  else .ok (2.1 * Real.sin angle ^ 2 + 0.5 * Real.sin angle / Real.sqrt (mach ^ 2 - 1))

/-- noseCone.py:38, 49: slope at Mach 1 (gamma = 1.4) -/
noncomputable def sonicSlope (angle : ℝ) : ℝ := 4 / (1.4 + 1) * (1 - 0.5 * Real.sin angle)

open Classical in
/-- noseCone.py:32-41 `computeSubsonicPolyCoeffs` -/
noncomputable def subsonicCoeffs (angle : ℝ) : Except PyErr (ℝ × ℝ) :=
  if Real.sin angle = 0 then .error .zeroDivision else .ok (Real.sin angle, sonicSlope angle / Real.sin angle)

/-- noseCone.py:43-56 `computeTransonicPolyCoeffs` -/
noncomputable def transonicCoeffs (angle : ℝ) : Except PyErr (Fin 4 → ℝ) := do
  let a ← hoerner angle 1.3
  let b ← hoerner angle 1.301
  cubicCoefficients 1 1.3 (Real.sin angle) a (sonicSlope angle) ((b - a) / 0.001)

open Classical in
/-- noseCone.py:199-212 `_getCd_Pressure` and boatTail.py:143-153, before the area ratio; `angle` the cone half angle -/
noncomputable def conePressureCd (angle mach : ℝ) : Except PyErr ℝ :=
  match subsonicCoeffs angle, transonicCoeffs angle with
  | .error e, _ => .error e
  | _, .error e => .error e
  | .ok s, .ok t =>
    if mach < 1 then .ok (s.1 * mach ^ s.2)
    else if mach > 1 ∧ mach < 1.3 then .ok (t 0 + t 1 * mach + t 2 * mach ^ 2 + t 3 * mach ^ 3)
    else hoerner angle mach

/-- boatTail.py:30-36 -/
structure Trans where
  startDiameter : ℝ
  endDiameter : ℝ
  length : ℝ
  position : V3 ℝ

namespace Trans

/-- boatTail.py:42 -/
noncomputable def topArea (t : Trans) : ℝ := t.startDiameter ^ 2 * Real.pi / 4
/-- boatTail.py:43 -/
noncomputable def bottomArea (t : Trans) : ℝ := t.endDiameter ^ 2 * Real.pi / 4

open Classical in
/-- boatTail.py:47-74: wetted area, volume and centre of pressure -/
noncomputable def geometry (t : Trans) : Except PyErr (ℝ × ℝ × V3 ℝ) :=
  if t.length = 0 then .ok (0, 0, t.position)
  else
    let mx := max t.startDiameter t.endDiameter
    let mn := min t.startDiameter t.endDiameter
    let slope := (mx - mn) / t.length
    if slope = 0 then .error .zeroDivision
    else
      let h1 := mx / slope
      let s1 := Real.pi * (mx / 2) * Real.sqrt ((mx / 2) ^ 2 + h1 ^ 2)
      let h2 := mn / slope
      let s2 := Real.pi * (mn / 2) * Real.sqrt ((mn / 2) ^ 2 + h2 ^ 2)
      let v := t.topArea * h1 / 3 - t.bottomArea * h2 / 3
      .ok (s1 - s2, v, barrowmanCP t.length t.topArea t.bottomArea v t.position)

open Classical in
/-- boatTail.py:175-176 `getRadius` -/
noncomputable def getRadius (t : Trans) (d : ℝ) : Except PyErr ℝ :=
  if t.length = 0 then .error .zeroDivision
  else .ok ((d / t.length * (t.endDiameter - t.startDiameter) + t.startDiameter) / 2)

open Classical in
/-- boatTail.py:76-90: the factor for narrowing transitions; `none`: the attribute is not set -/
noncomputable def cdFactor (t : Trans) : Option ℝ :=
  let ar := if t.startDiameter = t.endDiameter then 100 else t.length / |t.startDiameter - t.endDiameter|
  if t.endDiameter ≤ t.startDiameter then
    some (if ar < 1 then 1 else if ar < 3 then (3 - ar) / 2 else 0)
  else none

open Classical in
/-- boatTail.py:92-95: cone half angle of a widening transition; `none`: the attributes are not set -/
noncomputable def halfAngle (t : Trans) : Option ℝ :=
  if t.endDiameter ≤ t.startDiameter then none
  else if t.length = 0 then some (Real.pi / 2)
  else some (Real.arctan (|t.startDiameter - t.endDiameter| / 2 / t.length))

open Classical in
/-- boatTail.py:135-153: pressure drag coefficient of a transition before the area ratio -/
noncomputable def pressureCd (t : Trans) (mach : ℝ) : Except PyErr ℝ :=
  if t.startDiameter > t.endDiameter then
    match t.cdFactor with
    | none => .error .attributeError
    | some k => .ok (baseDragCd mach * k)
  else
    match t.halfAngle with
    | none => .error .attributeError
    | some a => conePressureCd a mach

open Classical in
/-- boatTail.py:195-203: pressure drag coefficient of a boat tail; `engineOff` is `noEngine or time > engineShutOffTime` -/
noncomputable def boatTailCd (t : Trans) (mach aref : ℝ) (engineOff : Bool) : Except PyErr ℝ :=
  match t.cdFactor with
  | none => .error .attributeError
  | some k =>
    if aref = 0 then .error .zeroDivision
    else
      let c := baseDragCd mach * k * (|t.topArea - t.bottomArea| / aref)
      .ok (if engineOff then c + baseDragCd mach * t.bottomArea / aref else c)

end Trans

/-- bodyTube.py:17-18 -/
structure Tube where
  outerDiameter : ℝ
  length : ℝ
  position : V3 ℝ

namespace Tube
/-- bodyTube.py:28 -/
noncomputable def volume (t : Tube) : ℝ := Real.pi * t.outerDiameter ^ 2 / 4 * t.length
/-- bodyTube.py:29 -/
noncomputable def planform (t : Tube) : ℝ := t.outerDiameter * t.length
/-- bodyTube.py:30 -/
noncomputable def wetted (t : Tube) : ℝ := Real.pi * t.outerDiameter * t.length
/-- bodyTube.py:32 -/
noncomputable def cpLocation (t : Tube) : V3 ℝ := t.position - ⟨0, 0, t.length / 2⟩
/-- bodyTube.py:102-103 -/
noncomputable def getRadius (t : Tube) (_ : ℝ) : ℝ := t.outerDiameter / 2
end Tube

/-! ## Stages -/

/-- what a stage reads of a body component: z of its top, its length, its largest diameter, its radius function, and whether another
component can be connected below it (RocketComponents.py:47-83) -/
structure BodyPart (K : Type) where
  z : K
  length : K
  maxDiameter : K
  radius : K → Except PyErr K
  connectsBelow : Bool

/-- a component of a stage: a body component or another one (`none`: no `length`, no `getMaxDiameter`, skipped through AttributeError) -/
abbrev BodyComp (K : Type) := Option (BodyPart K)

section stage
variable {K : Type} [Field K] [LinearOrder K]

/-- stage.py:126-142 `getRadius`; an AttributeError inside a component's `getRadius` is swallowed as well -/
def stageRadius (posZ : K) (comps : List (BodyComp K)) (d : K) : Except PyErr K :=
  match comps with
  | [] => .error .valueError
  | none :: l => stageRadius posZ l d
  | some b :: l =>
    if posZ - d ≤ b.z ∧ posZ - d ≥ b.z - b.length then
      match b.radius (b.z - (posZ - d)) with
      | .error .attributeError => stageRadius posZ l d
      | r => r
    else stageRadius posZ l d

/-- stage.py:81-85 `_getFirstComponentOfType` for body components -/
def firstBody (comps : List (BodyComp K)) : Option (BodyPart K) := comps.findSome? id

/-- stage.py:105-114 `getLength` -/
def stageLength (comps : List (BodyComp K)) : Option K :=
  match firstBody comps, firstBody comps.reverse with
  | some t, some b => some (t.z - (b.z - b.length))
  | _, _ => none

/-- stage.py:116-124 `getMaxDiameter` -/
def stageMaxDiameter (comps : List (BodyComp K)) : K :=
  comps.foldl (fun m c => match c with | some b => max b.maxDiameter m | none => m) 0

/-- rocket.py:424-432 `getLength` -/
def rocketLength (stages : List (List (BodyComp K))) : K :=
  stages.foldl (fun t s => match stageLength s with | some x => t + x | none => t) 0

/-- rocket.py:521-528 `_updateFinenessRatio`; `none` is None; `max([])` raises ValueError -/
def finenessRatio (stages : List (List (BodyComp K))) : Except PyErr (Option K) :=
  match stages.map stageMaxDiameter with
  | [] => .error .valueError
  | m :: ms =>
    let mx := ms.foldl max m
    .ok (if mx = 0 then none else some (rocketLength stages / mx))

end stage
end Mapleaf.Rocket
