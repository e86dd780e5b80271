import Verif.Rocket.PartAeroModel
import Verif.Rocket.PartModel
import Verif.Rocket.MotorModel
import Verif.Rocket.CompositeModel
import Verif.ENV.EnvModel
import Verif.Motion.BodyStepModel

/-!
# Model: a whole rocket in flight (MAPLEAF/Rocket/rocket.py, stage.py, CompositeObject.py, Fins.py, MAPLEAF/Motion/RigidBodies.py)

The component forces and inertias of the other files put together: parts in stages, stages in a rocket, the applied force with gravity and
launch rail, the rigid-body derivative, and flights of any number of time steps. No rounding, no caches (see `CacheModel`), no logs.
-/

namespace Mapleaf.Rocket
open Mapleaf.Motion V3 ENV

/-! ## A fin set -/

/-- Fins.py:52-115: a fin set after `precomputeProperties`. `deflection i t` is the angle (degrees) of fin `i` at time `t`: the cant angle,
or what its actuator says (Fins.py:266-269). -/
structure FinSet where
  shape : FinShape
  position : V3 ℝ
  macY : ℝ
  macX : ℝ
  slices : List FinSlice
  cpCoeffs : Fin 6 → ℝ
  thickK : ℝ
  factor : ℝ
  deflection : Nat → ℝ → ℝ

namespace FinSet

/-- Fins.py:93-115 `precomputeProperties`. `cfStar` is the friction coefficient at Mach 1, `x` the solution numpy finds for the centre of
pressure. -/
noncomputable def build (geom : FinGeom) (thickness roughness : ℝ) (lead : LeadEdge) (trail : TrailEdge) (position : V3 ℝ) (cfStar : ℝ)
    (x : Fin 6 → ℝ) (deflection : Nat → ℝ → ℝ) : Except PyErr FinSet := do
  let n ← finNumberInterference geom.numFins
  let mac ← geom.macProperties
  let slices ← geom.slices
  let shape : FinShape := ⟨geom, thickness, roughness, lead, trail, mac.1⟩
  let k ← shape.thicknessK cfStar
  let _ ← geom.directions
  .ok ⟨shape, position, mac.2.1, mac.2.2, slices, x, k, geom.bodyInterference * (n : ℝ), deflection⟩

/-- Fins.py:433-461 `Fin.__init__`: the fin in direction `s` -/
noncomputable def fin (p : FinSet) (s : V3 ℝ) : FinP where
  spanwise := s
  slices := p.slices
  stall := p.shape.geom.stallAngle
  span := p.shape.geom.span
  planform := p.shape.geom.planformArea
  midSweep := p.shape.geom.midChordSweep
  tipPosition := Real.tan p.shape.geom.sweep * p.shape.geom.span
  cpRadius := p.macY + p.shape.geom.bodyRadius
  position := p.position

/-- Fins.py:264-287, 289-358: `FinSet.getAppliedForce` -/
noncomputable def force (p : FinSet) (s : Ship) (f : Flow) (cg : V3 ℝ) (time : ℝ) : Except PyErr (FMS ℝ) := do
  let cd ← p.shape.dragCd p.thickK s f
  let v := finAirVel f.v f.omega p.position cg
  let cpx ← cpXPos p.cpCoeffs p.shape.geom.aspectRatio p.shape.mac p.macX f.mach
  let dirs ← p.shape.geom.directions
  let fins ← Body.mapE (fun d : V3 ℝ × Nat =>
    (p.fin d.1).force f.mach (dynPressure f.v f.rho) s.aref v f.omega.z (p.deflection d.2 time) cpx cd) dirs.zipIdx
  .ok (finSetForce p.position p.factor fins)

end FinSet

/-! ## Parts, stages, rocket -/

/-- RocketComponentFactory.py:16-32: a component of a stage. Those with an inertia `i` are fixed masses. -/
inductive Part
  | mass (i : Inertia ℝ)
  | nose (i : Inertia ℝ) (n : Nose) (roughness : ℝ)
  | tube (i : Inertia ℝ) (position : V3 ℝ) (len diameter roughness : ℝ)
  | trans (i : Inertia ℝ) (t : Trans) (roughness : ℝ)
  | boatTail (i : Inertia ℝ) (t : Trans) (roughness : ℝ) (shutOff : Option ℝ)
  | fins (i : Inertia ℝ) (p : FinSet)
  | motor (m : Motor ℝ)
  | force (f : FMS ℝ)
  | aero (position : V3 ℝ) (aref lref cd cl cmx cmy cmz : ℝ)
  | damping (cx cy cz : V3 ℝ) (aref lref : ℝ)
  | jet (ignition shutOff fraction : ℝ)
  | table (t : List ℝ × List (Fin 7 → ℝ))
  | recovery (i : Inertia ℝ)

/-- what a component is told when its force is asked for; `moiX` is the first moment of inertia of the whole rocket at a time -/
structure Scene where
  ship : Ship
  flow : Flow
  time : ℝ
  cg : V3 ℝ
  moiX : ℝ → Except PyErr ℝ

open Classical in
/-- `getAppliedForce` of a component: RocketComponents.py:180, 199, 228, 251, 375, 392; noseCone.py:173; bodyTube.py:35; boatTail.py:126, 187;
Fins.py:264; Propulsion.py:138; Recovery.py:50-57 (nothing deployed) -/
noncomputable def Part.applied (c : Scene) : Part → Except PyErr (FMS ℝ)
  | .mass _ => .ok zeroForce
  | .nose _ n r => noseForce n r c.ship c.flow
  | .tube _ pos len d r =>
    bodyTubeForce pos c.cg c.flow.omega c.flow.v c.flow.rho len d c.ship.aref
      (skinFriction (c.flow.unitRe * len) len c.flow.mach r c.ship.turbulent) c.ship.fineness
  | .trans _ t r => transForce t r c.ship c.flow
  | .boatTail _ t r off => boatTailForce t r c.ship c.flow off c.time
  | .fins _ p => p.force c.ship c.flow c.cg c.time
  | .motor m => m.force c.time
  | .force f => .ok f
  | .aero pos aref lref cd cl cmx cmy cmz => forceFromCoefficients c.flow.v c.flow.rho cd cl cmx cmy cmz pos aref lref
  | .damping cx cy cz aref lref => aeroDamping cx cy cz c.flow.omega c.flow.v c.flow.rho aref lref
  | .jet ign off frac =>
    if c.time > ign ∧ c.time < off then do
      let a ← c.moiX c.time
      let b ← c.moiX (c.time + 1 / 1000)
      .ok (jetDamping ign off frac (fun t => if t = c.time then a else b) c.time c.flow.omega)
    else .ok (FMS.make ⟨0, 0, 0⟩ none none)
  | .table _ => .ok zeroForce
  | .recovery _ => .ok (FMS.make ⟨0, 0, 0⟩ none none)

/-- CompositeObject.py:41-51, 56-57: the inertia of a fixed mass -/
def Part.fixed : Part → Option (Inertia ℝ)
  | .mass i | .nose i _ _ | .tube i _ _ _ _ | .trans i _ _ | .boatTail i _ _ _ | .fins i _ | .recovery i => some i
  | _ => none

/-- CompositeObject.py:107-108: the inertia of a component which is not a fixed mass (Propulsion.py:130; RocketComponents.py:196, 226, 370, 410) -/
noncomputable def Part.variable (time : ℝ) : Part → Except PyErr (Option (Inertia ℝ))
  | .mass _ | .nose _ _ _ | .tube _ _ _ _ _ | .trans _ _ _ | .boatTail _ _ _ _ | .fins _ _ | .recovery _ => .ok none
  | .motor m => (m.inertia time).map some
  | .table t => (tableInertia t time).map some
  | .force _ | .aero .. | .damping .. | .jet .. => .ok (some zeroInertia)

/-- stage.py:13-41: a stage -/
structure StageP where
  over : Overrides ℝ
  parts : List Part

/-- rocket.py:28-206: what the dynamics uses of a rocket -/
structure Craft where
  ship : Ship
  stages : List StageP

open Classical in
/-- CompositeObject.py:53-63 `_initializeFixedMassInertia` -/
noncomputable def fixedTotal : List (Inertia ℝ) → Except PyErr (Inertia ℝ)
  | [] => .ok (Inertia.make ⟨0, 0, 0⟩ ⟨0, 0, 0⟩ 0)
  | i :: l => i.combine (i :: l)

/-- CompositeObject.py:101-121 `getInertia` of a stage -/
noncomputable def StageP.inertia (s : StageP) (time : ℝ) : Except PyErr (Inertia ℝ) := do
  let fixed ← fixedTotal (s.parts.filterMap Part.fixed)
  let vs ← Body.mapE (Part.variable time) s.parts
  let total ← fixed.combine (fixed :: vs.filterMap id)
  .ok (applyOverrides s.over total)

/-- CompositeObject.py:101-121 `getInertia` of the rocket: its components are stages, which are not fixed masses -/
noncomputable def Craft.inertia (c : Craft) (time : ℝ) : Except PyErr (Inertia ℝ) := do
  let fixed ← fixedTotal []
  let vs ← Body.mapE (fun s : StageP => s.inertia time) c.stages
  fixed.combine (fixed :: vs)

/-- CompositeObject.py:88-97: the sum of the forces of components, starting from nothing at the rocket's centre of gravity -/
noncomputable def sumForces {X : Type} (cg : V3 ℝ) (force : X → Except PyErr (FMS ℝ)) (xs : List X) : Except PyErr (FMS ℝ) :=
  match Body.mapE force xs with
  | .error e => .error e
  | .ok fs => .ok (fs.foldl FMS.add (FMS.make ⟨0, 0, 0⟩ (some cg) none))

/-- CompositeObject.py:81-99 `getAppliedForce` of the rocket -/
noncomputable def Craft.force (c : Craft) (sc : Scene) : Except PyErr (FMS ℝ) :=
  sumForces sc.cg (fun s : StageP => sumForces sc.cg (Part.applied sc) s.parts) c.stages

/-- the conditions as AeroParameters.py reads them -/
def condOf (c : Conditions) : EnvCond := ⟨c.alt, c.temp, c.pressure, c.density, c.viscosity, c.wind, c.meanWind, c.turbWind⟩

/-- rocket.py:562-564: what the components read of state and air -/
noncomputable def flowOf (s : RBState) (c : Conditions) : Except PyErr Flow := do
  let mach ← Aero.machOf s (condOf c)
  let v ← Aero.airVel s (condOf c)
  let re ← Aero.reynoldsOf (condOf c) 1 v
  .ok ⟨v, c.density, mach, re, s.angVel⟩

/-- rocket.py:549-613 `_getAppliedForce`, no parachute out -/
noncomputable def Craft.appliedForce (c : Craft) (E : Env) (time : ℝ) (s : RBState) : Except PyErr (FMS ℝ) := do
  let air ← E.conditions false s.pos (some time)
  let i ← c.inertia time
  let flow ← flowOf s air
  let _ ← Aero.totalAOAOf flow.v
  let parts ← c.force ⟨c.ship, flow, time, i.cg, fun t => (c.inertia t).map (·.moi.x)⟩
  let g ← E.gravityForce i.mass i.cg s
  envForce E.rail s.pos time ((parts.getAt i.cg).add g)

/-- RigidBodies.py:88-115 with rocket.py:284-291: the derivative of the rocket's state -/
noncomputable def Craft.rhs (c : Craft) (E : Env) (time : ℝ) (s : RBState) : Except PyErr RBDeriv := do
  let f ← c.appliedForce E time s
  let i ← c.inertia time
  let i' ← c.inertia (time + 1e-8)
  rigidBodyDerivative s f.force f.moment ⟨i.mass, i.moi, i.cg⟩ ⟨i'.mass, i'.moi, i'.cg⟩

/-! ## Flights -/

/-- what changes during a flight: the time, the state, the launch rail (deleted once cleared) and the derivative an adaptive method keeps -/
structure InFlight where
  time : ℝ
  state : RBState
  rail : Option Rail
  kept : Option RBDeriv

/-- Integration.py:145-190, 245-449 as used by RigidBodies.py:53: one step of size `dt`: new state and the derivative kept for the next one.
For an adaptive method `dt` is the size of the attempt that was accepted. -/
noncomputable def integrateStep (method : String) (f : ℝ → RBState → Except PyErr RBDeriv) (w : InFlight) (dt : ℝ) :
    Except PyErr (RBState × Option RBDeriv) :=
  match RK.adaptiveTableau method with
  | .ok (tab, fsal) => do
    let tab' ← RK.checkTableau (tab.map (fun r : List ℚ => r.map (fun q : ℚ => (q : ℝ))))
    let a ← Body.attempt Body.bodyArith tab' w.kept f w.time w.state dt
    .ok (a.newValue, if fsal then some a.last else w.kept)
  | .error _ => do
    let r ← Body.classicalStep Body.bodyArith method f w.time w.state dt
    .ok (r.newValue, none)

/-- rocket.py:657-698 `timeStep` with RigidBodies.py:49-62: the rail's constraint, then the integrator -/
noncomputable def Craft.timeStep (c : Craft) (E : Env) (method : String) (w : InFlight) (dt : ℝ) : Except PyErr InFlight := do
  let (m, rail) ← envConstrain w.rail ⟨w.state.pos, w.state.vel⟩ w.time
  let s : RBState := { w.state with pos := m.pos, vel := m.vel }
  let (s', kept) ← integrateStep method (c.rhs { E with rail := rail }) { w with state := s } dt
  .ok ⟨w.time + dt, s', rail, kept⟩

/-- Simulation.py: time steps one after the other. Between steps the rocket may have changed (stages dropped, motors lit, fins turned), so
each step has its own craft. -/
noncomputable def fly (E : Env) (method : String) : InFlight → List (Craft × ℝ) → Except PyErr InFlight
  | w, [] => .ok w
  | w, (c, dt) :: rest =>
    match c.timeStep E method w dt with
    | .error e => .error e
    | .ok w' => fly E method w' rest

end Mapleaf.Rocket
