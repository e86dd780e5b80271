import Verif.Rocket.GeomModel
import Verif.Rocket.FinModel
import Verif.Base.Str

/-!
# Aerodynamic forces of nose cones, transitions and boat tails, and the drag of fins

MAPLEAF/Rocket/noseCone.py:84-197, boatTail.py:126-217, Fins.py:57-83, 198-210, 289-346. Compositions of the functions of
`Verif.Rocket.AeroModel` and `Verif.Rocket.GeomModel`.
-/

namespace Mapleaf.Rocket
open Mapleaf.Motion V3

/-- what the force functions read of state and environment: air velocity in the rocket's frame, density, Mach number, Reynolds number
per length (AeroParameters.py:22-24: `speed * density / viscosity`), angular velocity -/
structure Flow where
  v : V3 ℝ
  rho : ℝ
  mach : ℝ
  unitRe : ℝ
  omega : V3 ℝ

/-- what they read of the rocket: `Aref`, `finenessRatio` (may be None), `fullyTurbulentBL` -/
structure Ship where
  aref : ℝ
  fineness : Option ℝ
  turbulent : Bool

/-- AeroFunctions.py:138-164 with 70-136: friction drag coefficient and roll damping moment of a round component -/
noncomputable def surfaceDrag (s : Ship) (f : Flow) (len roughness wetted : ℝ) : Except PyErr (ℝ × V3 ℝ) :=
  cylinderFriction (skinFriction (f.unitRe * len) len f.mach roughness s.turbulent) len wetted s.aref s.fineness f.omega.z f.v.length f.rho

/-! ## Nose cone -/

/-- noseCone.py:96 -/
noncomputable def Nose.halfAngle (n : Nose) : ℝ := |Real.arctan (n.baseDiameter / 2 / n.length)|

open Classical in
/-- noseCone.py:84-93: wetted area and centre of pressure, computed at construction (the coefficients of lines 98-99 are part of
`conePressureCd`) -/
noncomputable def Nose.build (n : Nose) : Except PyErr (ℝ × V3 ℝ) := do
  let vol ← n.volume
  let _ ← n.planform
  let wetted ← n.wetted
  if n.length = 0 then .error .zeroDivision
  else .ok (wetted, barrowmanCP n.length 0 n.baseArea vol ⟨0, 0, 0⟩)

/-- noseCone.py:173-197 `NoseCone.getAppliedForce` -/
noncomputable def noseForce (n : Nose) (roughness : ℝ) (s : Ship) (f : Flow) : Except PyErr (FMS ℝ) := do
  let g ← n.build
  let aoa ← Aero.totalAOAOf f.v
  let cn ← barrowmanCN aoa s.aref 0 n.baseArea
  let fr ← surfaceDrag s f n.length roughness g.1
  let p ← conePressureCd n.halfAngle f.mach
  forceFromCdCN f.v f.rho (p * n.baseArea / s.aref + fr.1) cn g.2 s.aref (some fr.2)

/-! ## Transitions and boat tails -/

open Classical in
/-- boatTail.py:158-164, 206-212: friction of a transition; nothing without wetted area -/
noncomputable def transFriction (t : Trans) (wetted roughness : ℝ) (s : Ship) (f : Flow) : Except PyErr (ℝ × V3 ℝ) :=
  if wetted = 0 then .ok (0, ⟨0, 0, 0⟩) else surfaceDrag s f t.length roughness wetted

/-- boatTail.py:126-170 `Transition.getAppliedForce` -/
noncomputable def transForce (t : Trans) (roughness : ℝ) (s : Ship) (f : Flow) : Except PyErr (FMS ℝ) := do
  let g ← t.geometry
  let aoa ← Aero.totalAOAOf f.v
  let cn ← barrowmanCN aoa s.aref t.topArea t.bottomArea
  let p ← t.pressureCd f.mach
  let fr ← transFriction t g.1 roughness s f
  forceFromCdCN f.v f.rho (p * (|t.topArea - t.bottomArea| / s.aref) + fr.1) cn g.2.2 s.aref (some fr.2)

/-- boatTail.py:199-200: is the engine off? `shutOff` is the stage's `engineShutOffTime`, None without engine -/
noncomputable def engineOff (shutOff : Option ℝ) (time : ℝ) : Bool :=
  open Classical in match shutOff with
  | none => true
  | some t => decide (time > t)

/-- boatTail.py:187-217 `BoatTail.getAppliedForce` -/
noncomputable def boatTailForce (t : Trans) (roughness : ℝ) (s : Ship) (f : Flow) (shutOff : Option ℝ) (time : ℝ) :
    Except PyErr (FMS ℝ) := do
  let g ← t.geometry
  let aoa ← Aero.totalAOAOf f.v
  let cn ← barrowmanCN aoa s.aref t.topArea t.bottomArea
  let p ← t.boatTailCd f.mach s.aref (engineOff shutOff time)
  let fr ← transFriction t g.1 roughness s f
  forceFromCdCN f.v f.rho (p + fr.1) cn g.2.2 s.aref (some fr.2)

/-! ## Drag of a fin -/

/-- Fins.py:67-73: the leading edge with its radius or thickness -/
inductive LeadEdge
  | round (radius : ℝ)
  | blunt (thickness : ℝ)

/-- Fins.py:76-82: the trailing edge -/
inductive TrailEdge
  | tapered
  | round (radius : ℝ)
  | blunt (thickness : ℝ)

/-- Fins.py:66-73; `radius`, `thick` are the entries of the definition, if there -/
noncomputable def readLead (shape : Str) (radius thick : Option ℝ) (thickness : ℝ) : Except PyErr LeadEdge :=
  if shape = "Round".toList then .ok (.round (radius.getD (thickness / 100)))
  else if shape = "Blunt".toList then .ok (.blunt (thick.getD thickness))
  else .error .valueError

/-- Fins.py:76-82; a missing entry is a KeyError (SubDictReader) -/
def readTrail (shape : Str) (radius thick : Option ℝ) : Except PyErr TrailEdge :=
  if shape = "Round".toList then match radius with | some r => .ok (.round r) | none => .error .keyError
  else if shape = "Blunt".toList then match thick with | some r => .ok (.blunt r) | none => .error .keyError
  else if shape = "Tapered".toList then .ok .tapered
  else .error .valueError

/-- what the drag computation reads of a fin set -/
structure FinShape where
  geom : FinGeom
  thickness : ℝ
  roughness : ℝ
  lead : LeadEdge
  trail : TrailEdge
  /-- Fins.py:158-178 `MACLength` -/
  mac : ℝ

namespace FinShape

/-- Fins.py:200: sigma, for a positive thickness ratio -/
noncomputable def sigma (p : FinShape) : ℝ := p.geom.aspectRatio / 2 * (p.thickness / p.geom.rootChord) ^ (1 / 3 : ℝ)

/-- Fins.py:201: the thickness drag coefficient at Mach 1 -/
noncomputable def cdSonic (p : FinShape) : ℝ :=
  1.15 * (p.thickness / p.geom.rootChord) ^ (5 / 3 : ℝ) * (1.61 + p.sigma - Real.sqrt ((p.sigma - 1.43) ^ 2 + 0.578))

/-- Fins.py:210: the fraction in the precomputed constant; `cfStar` is the friction coefficient at Mach 1 -/
noncomputable def sonicRatio (p : FinShape) (cfStar : ℝ) : ℝ :=
  (p.cdSonic / cfStar - 4 * Real.cos p.geom.midChordSweep * (p.thickness / p.geom.rootChord)) /
    (120 * Real.cos p.geom.midChordSweep ^ 2 * (p.thickness / p.geom.rootChord) ^ 4)

open Classical in
/-- Fins.py:198-210 `_precomputeSubsonicFinThicknessDrag`; a negative thickness ratio has a complex cube root, which `sqrt` refuses -/
noncomputable def thicknessK (p : FinShape) (cfStar : ℝ) : Except PyErr ℝ :=
  if p.geom.planformArea = 0 ∨ p.geom.rootChord = 0 then .error .zeroDivision
  else if p.thickness / p.geom.rootChord < 0 then .error .typeError
  else if cfStar = 0 ∨ 120 * Real.cos p.geom.midChordSweep ^ 2 * (p.thickness / p.geom.rootChord) ^ 4 = 0 then .error .zeroDivision
  else .ok (Real.cos p.geom.midChordSweep ^ 2 + (p.sonicRatio cfStar ^ 2) ^ (1 / 3 : ℝ))

open Classical in
/-- Fins.py:325-336: thickness drag before the area ratio; `cf` the friction coefficient, `k` the precomputed constant (a negative number
to the power 3/2 is complex, which the following comparisons refuse) -/
noncomputable def thicknessDrag (p : FinShape) (k cf mach : ℝ) : Except PyErr ℝ :=
  if mach ≤ 1 then
    let base := k - mach ^ 2 * Real.cos p.geom.midChordSweep ^ 2
    if base < 0 then .error .typeError
    else if base ^ (3 / 2 : ℝ) = 0 then .error .zeroDivision
    else .ok (4 * cf * (p.thickness / p.geom.rootChord * Real.cos p.geom.midChordSweep +
      30 * (p.thickness / p.geom.rootChord) ^ 4 * Real.cos p.geom.midChordSweep ^ 2 / base ^ (3 / 2 : ℝ)))
  else if p.mac = 0 then .error .zeroDivision
  else .ok (2.3 * p.geom.aspectRatio * (p.thickness / p.mac) ^ 2)

/-- Fins.py:304-309: drag coefficient and thickness of the leading edge -/
noncomputable def leadCd (p : FinShape) (mach : ℝ) : ℝ × ℝ :=
  match p.lead with
  | .round r => (crossFlowCd mach, r * 2)
  | .blunt t => (bluntCd mach, t)

/-- Fins.py:318-323: thickness of the trailing edge -/
def trailThickness (p : FinShape) : ℝ :=
  match p.trail with
  | .tapered => 0
  | .round r => r
  | .blunt t => t

open Classical in
/-- Fins.py:289-343: the drag coefficient of one fin of a set; `k` is `subsonicFinThicknessK` -/
noncomputable def dragCd (p : FinShape) (k : ℝ) (s : Ship) (f : Flow) : Except PyErr ℝ :=
  let cf := skinFriction (f.unitRe * p.mac) p.mac f.mach p.roughness s.turbulent
  if s.aref = 0 ∨ p.mac = 0 then .error .zeroDivision
  else
    let friction := cf * (2 * p.geom.planformArea / s.aref) * (1 + 2 * p.thickness / p.mac)
    let lead := (p.leadCd f.mach).1 * ((p.leadCd f.mach).2 * p.geom.span * Real.cos p.geom.sweep ^ 2 / s.aref)
    let trail := baseDragCd f.mach * p.geom.span * p.trailThickness / s.aref
    match p.thicknessDrag k cf f.mach with
    | .error e => .error e
    | .ok t => .ok (lead + trail + t * (p.geom.planformArea / s.aref) + friction)

end FinShape
end Mapleaf.Rocket
