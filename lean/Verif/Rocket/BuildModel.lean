import Verif.Rocket.AscentModel
import Verif.Rocket.SetupModel
import Verif.Rocket.RecoveryModel
import Verif.Run.FigureModel

/-!
# Model: a whole rocket made from its definition (MAPLEAF/Rocket/*.py: the constructors)

From the dictionaries of a simulation definition to the rocket of `Verif.Rocket.AscentModel`, on the launch pad and without a control
system: every `__init__` of the component classes, of `Stage` and of `Rocket`. Components of classes `TabulatedAeroForce` and
`StatefulSample` are not part of that model of whole rockets and stop the construction here (`outOfFuel`). Console output, logs, hardware
in the loop and events are left out.
-/

namespace Mapleaf.Rocket
open Mapleaf.Motion V3

/-- What a rocket is made from: a reader on each dictionary of the definition, Python's `int(str)`, the immediate sub-dictionaries of a
dictionary, motor files (split into numbers) and tables of inertias (the numbers below the first line), the Reynolds number per length of
the air at the launch site at 340.3 m/s (Fins.py:204-206), and what `numpy` finds for the centre of pressure of fins (Fins.py:212-233) -/
structure Source where
  dict : Str → Reader ℝ
  int : Str → Option ℤ
  subs : Str → List Str
  motorFile : Str → Except PyErr (MotorHeader ℝ × List (MotorRow ℝ))
  inertiaFile : Str → Except PyErr (List (List ℝ))
  launchRe : ℝ
  cpSolve : ℝ → Fin 6 → ℝ

/-- subDictReader.py:39-40 `getInt` -/
def Source.getInt (src : Source) (r : Reader ℝ) (key : Str) : Except PyErr ℤ :=
  match r.text key with
  | .error e => .error e
  | .ok s => match src.int s with
    | some n => .ok n
    | none => .error .valueError

/-- subDictReader.py:48-49 `getBool` -/
def getFlag (r : Reader ℝ) (key : Str) : Except PyErr Bool :=
  match r.text key with
  | .error e => .error e
  | .ok s => Run.Fig.strtobool s

/-- Fins.py:55-83: the numbers of a fin set before the radius of the body is known -/
structure FinSpec where
  inertia : Inertia ℝ
  position : V3 ℝ
  numFins : Nat
  firstFinAngle : ℝ
  cant : ℝ
  sweep : ℝ
  rootChord : ℝ
  tipChord : ℝ
  span : ℝ
  roughness : ℝ
  thickness : ℝ
  nSlices : Nat
  lead : LeadEdge
  trail : TrailEdge

/-- a component after its constructor: what its force will depend on besides itself is filled in later -/
inductive DraftKind
  | ready (p : Part)
  | tail (i : Inertia ℝ) (t : Trans) (roughness : ℝ)
  | fins (f : FinSpec)
  /-- `main`: this motor is `stage.motor` -/
  | motor (m : Motor ℝ) (shutOff : ℝ) (main : Bool)
  | jet (fraction : ℝ)

/-- a component after its constructor: its place in the order from top to bottom (RocketComponents.py:136-140), what the stage asks of a
body component, and the rest -/
structure Draft where
  z : ℝ
  body : BodyComp ℝ
  kind : DraftKind

/-- what a component is told about rocket and stage: rocket.py:127, stage.py:20 -/
structure Site where
  roughness : ℝ
  position : V3 ℝ

/-- the shapes of nose cones the code knows: noseCone.py:103, 113, 116 -/
def noseShape (s : Str) : NoseShape :=
  if s = "tangentOgive".toList then .tangentOgive
  else if s = "cone".toList then .cone
  else if s = "halfSeries".toList then .halfSeries
  else .other

/-- noseCone.py:217-224: the radius as a number; nothing can be done with None -/
noncomputable def Nose.radiusE (n : Nose) (d : ℝ) : Except PyErr ℝ :=
  match n.getRadius d with
  | .error e => .error e
  | .ok (some r) => .ok r
  | .ok none => .error .typeError

/-- noseCone.py:64-99 `NoseCone.__init__` -/
noncomputable def readNose (r : Reader ℝ) (site : Site) : Except PyErr Draft := do
  let c ← fixedMass r site.position
  let ar ← r.getFloat "aspectRatio".toList
  let d ← r.getFloat "baseDiameter".toList
  let shape ← r.text "shape".toList
  let rough ← r.tryGetFloat "surfaceRoughness".toList
  let n : Nose := ⟨ar, d, noseShape shape⟩
  let _ ← n.build
  let _ ← subsonicCoeffs n.halfAngle
  let _ ← transonicCoeffs n.halfAngle
  .ok ⟨c.position.z, some ⟨c.position.z, n.length, d, n.radiusE, true⟩, .ready (.nose c.inertia n (rough.getD site.roughness))⟩

/-- bodyTube.py:14-32 `BodyTube.__init__` -/
noncomputable def readTube (r : Reader ℝ) (site : Site) : Except PyErr Draft := do
  let c ← fixedMass r site.position
  let len ← r.getFloat "length".toList
  let d ← r.getFloat "outerDiameter".toList
  let rough ← r.tryGetFloat "surfaceRoughness".toList
  .ok ⟨c.position.z, some ⟨c.position.z, len, d, fun _ => .ok (d / 2), true⟩,
    .ready (.tube c.inertia c.position len d (rough.getD site.roughness))⟩

/-- boatTail.py:40-99 `_precomputeGeometry`: does it succeed? -/
noncomputable def Trans.check (t : Trans) : Except PyErr Unit := do
  let _ ← t.geometry
  match t.halfAngle with
  | none => .ok ()
  | some a => do
    let _ ← subsonicCoeffs a
    let _ ← transonicCoeffs a
    .ok ()

/-- boatTail.py:15-38 `Transition.__init__` from a dictionary: inertia, shape and roughness -/
noncomputable def readCone (r : Reader ℝ) (site : Site) : Except PyErr (Inertia ℝ × Trans × ℝ) := do
  let c ← fixedMass r site.position
  let len ← r.getFloat "length".toList
  let a ← r.getFloat "startDiameter".toList
  let b ← r.getFloat "endDiameter".toList
  let rough ← r.tryGetFloat "surfaceRoughness".toList
  let t : Trans := ⟨a, b, len, c.position⟩
  let _ ← t.check
  .ok (c.inertia, t, rough.getD site.roughness)

/-- boatTail.py:172-176, 184: what the stage asks of a transition or boat tail -/
noncomputable def Trans.body (t : Trans) (connectsBelow : Bool) : BodyPart ℝ :=
  ⟨t.position.z, t.length, max t.startDiameter t.endDiameter, t.getRadius, connectsBelow⟩

/-- boatTail.py:13-38: a transition -/
noncomputable def readTransition (r : Reader ℝ) (site : Site) : Except PyErr Draft := do
  let (i, t, rough) ← readCone r site
  .ok ⟨t.position.z, some (t.body true), .ready (.trans i t rough)⟩

/-- boatTail.py:178-186: a boat tail -/
noncomputable def readTail (r : Reader ℝ) (site : Site) : Except PyErr Draft := do
  let (i, t, rough) ← readCone r site
  .ok ⟨t.position.z, some (t.body false), .tail i t rough⟩

/-- Fins.py:66-73 -/
noncomputable def readLeading (r : Reader ℝ) (thickness : ℝ) : Except PyErr LeadEdge :=
  match r.text "LeadingEdge.shape".toList with
  | .error e => .error e
  | .ok shape =>
    match (if shape = "Round".toList then r.tryGetFloat "LeadingEdge.radius".toList else .ok none) with
    | .error e => .error e
    | .ok radius =>
      match (if shape = "Blunt".toList then r.tryGetFloat "LeadingEdge.thickness".toList else .ok none) with
      | .error e => .error e
      | .ok thick => readLead shape radius thick thickness

/-- Fins.py:75-82 -/
noncomputable def readTrailing (r : Reader ℝ) : Except PyErr TrailEdge :=
  match r.text "TrailingEdge.shape".toList with
  | .error e => .error e
  | .ok shape =>
    match (if shape = "Round".toList then (r.getFloat "TrailingEdge.radius".toList).map some else .ok none) with
    | .error e => .error e
    | .ok radius =>
      match (if shape = "Blunt".toList then (r.getFloat "TrailingEdge.thickness".toList).map some else .ok none) with
      | .error e => .error e
      | .ok thick => readTrail shape radius thick

/-- Fins.py:49-83 `FinSet.__init__`. The code makes fin sets without
fins or without slices from negative numbers; these are refused here. -/
noncomputable def readFins (src : Source) (r : Reader ℝ) (site : Site) : Except PyErr Draft := do
  let c ← fixedMass r site.position
  let n ← src.getInt r "numFins".toList
  let first ← r.getFloat "firstFinAngle".toList
  let cant ← r.getFloat "finCantAngle".toList
  let sweep ← r.getFloat "sweepAngle".toList
  let root ← r.getFloat "rootChord".toList
  let tip ← r.getFloat "tipChord".toList
  let span ← r.getFloat "span".toList
  let rough ← r.tryGetFloat "surfaceRoughness".toList
  let thick ← r.getFloat "thickness".toList
  let slices ← src.getInt r "numFinSpanSlicesForIntegration".toList
  let lead ← readLeading r thick
  let trail ← readTrailing r
  if n < 0 ∨ slices < 0 then .error .outOfFuel
  else .ok ⟨c.position.z, none, .fins ⟨c.inertia, c.position, n.toNat, first, cant, sweep * Real.pi / 180, root, tip, span,
    rough.getD site.roughness, thick, slices.toNat, lead, trail⟩⟩

/-- Propulsion.py:27-48 `TabulatedMotor.__init__` -/
noncomputable def readMotor (src : Source) (r : Reader ℝ) (site : Site) : Except PyErr Draft := do
  let impulse ← r.getFloat "impulseAdjustFactor".toList
  let burn ← r.getFloat "burnTimeAdjustFactor".toList
  let path ← r.text "path".toList
  let (h, rows) ← src.motorFile path
  let (m, off) ← Motor.build h rows site.position.z impulse burn
  let i ← m.inertia 0
  .ok ⟨i.cg.z, none, .motor m off true⟩

/-- RocketComponents.py:238-249 `AeroDamping.__init__` -/
noncomputable def readDamping (r : Reader ℝ) : Except PyErr Draft := do
  let aref ← r.getFloat "Aref".toList
  let lref ← r.getFloat "Lref".toList
  let cz ← r.getVector "zDampingCoeffs".toList
  let cy ← r.getVector "yDampingCoeffs".toList
  let cx ← r.getVector "xDampingCoeffs".toList
  .ok ⟨0, none, .ready (.damping cx cy cz aref lref)⟩

/-- RocketComponents.py:211-225 `AeroForce.__init__` -/
noncomputable def readAero (r : Reader ℝ) (site : Site) : Except PyErr Draft := do
  let a ← aeroForce r site.position
  .ok ⟨a.position.z, none, .ready (.aero a.position a.aref a.lref (a.coeffs.getD 0 0) (a.coeffs.getD 1 0) (a.coeffs.getD 2 0)
    (a.coeffs.getD 3 0) (a.coeffs.getD 4 0))⟩

/-- RocketComponents.py:349-373 `TabulatedInertia.__init__`; it has no position, so its place is that of its centre of gravity at time 0 -/
noncomputable def readTable (src : Source) (r : Reader ℝ) : Except PyErr Draft := do
  let path ← r.text "filePath".toList
  let rows ← src.inertiaFile path
  let t ← loadInertia rows
  let i ← tableInertia t 0
  .ok ⟨i.cg.z, none, .ready (.table t)⟩

/-- Recovery.py:28-40: the chutes, `n` of them from number `i` on -/
def readChutes (r : Reader ℝ) : Nat → Nat → Except PyErr (List (Chute ℝ))
  | _, 0 => .ok []
  | i, n + 1 => do
    let key := fun what : String => ("stage" ++ toString i ++ what).toList
    let trigger ← r.text (key "Trigger")
    let value ← r.tryGetFloat (key "TriggerValue")
    let area ← r.getFloat (key "ChuteArea")
    let cd ← r.getFloat (key "Cd")
    let delay ← r.getFloat (key "DelayTime")
    let rest ← readChutes r (i + 1) n
    .ok (⟨String.ofList trigger, value, area, cd, delay⟩ :: rest)

/-- Recovery.py:14-47 `RecoverySystem.__init__` -/
noncomputable def readRecovery (src : Source) (r : Reader ℝ) (site : Site) : Except PyErr Draft := do
  let c ← fixedMass r site.position
  let n ← src.getInt r "numStages".toList
  let cs ← readChutes r 1 n.toNat
  let _ ← initRecovery cs ()
  .ok ⟨c.position.z, none, .ready (.recovery c.inertia)⟩

/-- RocketComponentFactory.py:34-54 `rocketComponentFactory`: the component of the dictionary `path` -/
noncomputable def readPart (src : Source) (site : Site) (path : Str) : Except PyErr Draft :=
  let r := src.dict path
  match r.text "class".toList with
  | .error e => .error e
  | .ok name =>
    match classOf name with
    | .error e => .error e
    | .ok .mass => (fixedMass r site.position).map fun c => ⟨c.position.z, none, .ready (.mass c.inertia)⟩
    | .ok .noseCone => readNose r site
    | .ok .bodyTube => readTube r site
    | .ok .transition => readTransition r site
    | .ok .boatTail => readTail r site
    | .ok .finSet => readFins src r site
    | .ok .motor => readMotor src r site
    | .ok .force => (fixedForce r site.position).map fun f => ⟨0, none, .ready (.force f)⟩
    | .ok .aeroForce => readAero r site
    | .ok .aeroDamping => readDamping r
    | .ok .jetDamping => (r.getFloat "fraction".toList).map fun x => ⟨0, none, .jet x⟩
    | .ok .tabulatedInertia => readTable src r
    | .ok .recovery => readRecovery src r site
    | .ok .tabulatedAero => .error .outOfFuel
    | .ok .stateful => .error .outOfFuel

/-! ## Stages -/

/-- Propulsion.py:35: `stage.motor` is the motor built last -/
def markMotors : List Draft → List Draft
  | [] => []
  | d :: ds =>
    match d.kind with
    | .motor m off _ => { d with kind := .motor m off (ds.all fun e => match e.kind with | .motor _ _ _ => false | _ => true) } :: markMotors ds
    | _ => d :: markMotors ds

/-- stage.py:13-41: a stage after its constructor -/
structure StageDraft where
  position : V3 ℝ
  drafts : List Draft
  over : Overrides ℝ

/-- stage.py:13-41 `Stage.__init__` -/
noncomputable def readStage (src : Source) (roughness : ℝ) (path : Str) : Except PyErr StageDraft := do
  let r := src.dict path
  let _ ← src.getInt r "stageNumber".toList
  let pos ← r.getVector "position".toList
  let _ ← r.text "separationTriggerType".toList
  let _ ← r.getFloat "separationDelay".toList
  let _ ← r.getFloat "separationTriggerValue".toList
  let order ← buildOrder (fun p => r.text (p ++ ".class".toList)) (src.subs path)
  let ds ← Body.mapE (readPart src ⟨roughness, pos⟩) order
  let (cg, moi, mass) ← stageOverrides r pos
  .ok ⟨pos, markMotors ds, ⟨cg, moi, mass⟩⟩

/-- Propulsion.py:153-154: `stage.motor` told to wait -/
noncomputable def Draft.wait (d : Draft) : Draft :=
  match d.kind with
  | .motor m off true => { d with kind := .motor { m with ignition := 1000000000 } off true }
  | _ => d

namespace StageDraft

/-- RocketComponents.py:131-143 with rocket.py:327-328 -/
noncomputable def sorted (s : StageDraft) : StageDraft := { s with drafts := orderByZ Draft.z s.drafts }

/-- `stage.motor` with `stage.engineShutOffTime` (Propulsion.py:35, 102) -/
noncomputable def motor (s : StageDraft) : Option (Motor ℝ × ℝ) :=
  s.drafts.findSome? fun d => match d.kind with
    | .motor m off true => some (m, off)
    | _ => none

/-- rocket.py:355-356: the motor of an upper stage waits -/
noncomputable def wait (s : StageDraft) : Except PyErr StageDraft :=
  match s.motor with
  | none => .error .attributeError
  | some _ => .ok { s with drafts := s.drafts.map Draft.wait }

/-- Is the lowest body component a boat tail? (rocket.py:492-497) -/
noncomputable def hasTail (s : StageDraft) : Bool :=
  match s.drafts.reverse.find? (fun d => d.body.isSome) with
  | some d => match d.kind with
    | .tail _ _ _ => true
    | _ => false
  | none => false

/-- rocket.py:499-519, stage.py:96-103: a boat tail without length at the lower end; `none` if the stage has no body components -/
noncomputable def withTail (s : StageDraft) (diameter roughness : ℝ) : Except PyErr StageDraft :=
  match firstBody (s.drafts.map Draft.body).reverse with
  | none => .error .attributeError
  | some b =>
    let t : Trans := ⟨diameter, diameter, 0, ⟨s.position.x, s.position.y, b.z - b.length⟩⟩
    .ok { s with drafts := s.drafts ++ [⟨t.position.z, some (t.body false), .tail zeroInertia t roughness⟩] }

end StageDraft

/-! ## What is filled in when all components are there -/

/-- Fins.py:93-115 `precomputeProperties`: the radius of the body is that of the stage at the fins; Fins.py:198-210: friction at Mach 1. An
`AttributeError` raised here (five to eight fins) is swallowed by rocket.py:413 and raised by the first force evaluation for lack of
`MACLength`. -/
noncomputable def FinSpec.finish (src : Source) (turbulent : Bool) (s : StageDraft) (f : FinSpec) : Except PyErr Part := do
  let radius ← stageRadius s.position.z (s.drafts.map Draft.body) (s.position.z - f.position.z)
  let geom : FinGeom := ⟨f.numFins, f.firstFinAngle, f.cant, f.sweep, f.rootChord, f.tipChord, f.span, radius, f.nSlices⟩
  let cf := match geom.macProperties with
    | .ok m => skinFriction (src.launchRe * m.1) m.1 1 f.roughness turbulent
    | .error _ => 0
  let p ← FinSet.build geom f.thickness f.roughness f.lead f.trail f.position cf (src.cpSolve geom.aspectRatio) (fun _ _ => f.cant)
  .ok (.fins f.inertia p)

/-- a component of a complete stage: boat tails read the shut-off time (boatTail.py:199), jet damping also the ignition time of the stage's
motor (RocketComponents.py:395; without a motor its first force evaluation fails) -/
noncomputable def DraftKind.finish (src : Source) (turbulent : Bool) (s : StageDraft) : DraftKind → Except PyErr Part
  | .ready p => .ok p
  | .tail i t rough => .ok (.boatTail i t rough (s.motor.map Prod.snd))
  | .fins f => f.finish src turbulent s
  | .motor m _ _ => .ok (.motor m)
  | .jet x => match s.motor with
    | none => .error .attributeError
    | some (m, off) => .ok (.jet m.ignition off x)

/-- rocket.py:408-414: a stage ready to fly -/
noncomputable def StageDraft.finish (src : Source) (turbulent : Bool) (s : StageDraft) : Except PyErr StageP := do
  let ps ← Body.mapE (fun d : Draft => d.kind.finish src turbulent s) s.drafts
  .ok ⟨s.over, ps⟩

open Classical in
/-- rocket.py:335-337, 489-519: base drag -/
noncomputable def tailStages (diameter roughness : ℝ) (addTails : Bool) (ss : List StageDraft) : Except PyErr (List StageDraft) :=
  if diameter > 0 then
    match ss.getLast? with
    | none => .error .indexError
    | some s =>
      if s.hasTail = false ∧ addTails = true then (s.withTail diameter roughness).map fun s' => ss.dropLast ++ [s'] else .ok ss
  else .ok ss

/-- rocket.py:343-356: all stages but the lowest wait -/
noncomputable def waitStages : List StageDraft → Except PyErr (List StageDraft)
  | [] => .ok []
  | [s] => .ok [s]
  | s :: t :: ss => do
    let s' ← s.wait
    let rest ← waitStages (t :: ss)
    .ok (s' :: rest)

/-- rocket.py:28-206 `Rocket.__init__`: the rocket on the launch pad -/
noncomputable def readCraft (src : Source) : Except PyErr Craft := do
  let r := src.dict "Rocket".toList
  let dicts := src.subs "Rocket".toList
  let diameter ← maxTubeDiameter r dicts src.subs
  let addTails ← getFlag r "Aero.addZeroLengthBoatTailsToAccountForBaseDrag".toList
  let turbulent ← getFlag r "Aero.fullyTurbulentBL".toList
  let roughness ← r.getFloat "Aero.surfaceRoughness".toList
  let built ← createStages r (readStage src roughness) dicts none
  let ordered := orderByZ (fun s : StageDraft => s.position.z) (built.map StageDraft.sorted)
  let tailed ← tailStages diameter roughness addTails ordered
  let waiting ← waitStages tailed
  let stages ← Body.mapE (StageDraft.finish src turbulent) waiting
  let fineness ← finenessRatio (waiting.map fun s => s.drafts.map Draft.body)
  .ok ⟨⟨Real.pi * diameter ^ 2 / 4, fineness, turbulent⟩, stages⟩

end Mapleaf.Rocket
