import Verif.Rocket.GeomModel
import Verif.Rocket.PartModel
import Verif.Log.LogModel

/-!
# Base drag (MAPLEAF/Rocket/rocket.py `_ensureBaseDragIsAccountedFor`, boatTail.py)

Only a boat tail produces base drag, so the rocket adds a boat tail of no length where there is none. Of a component only its class,
place, length, end diameters and mass are kept; of the force log only vector columns.
-/

namespace Mapleaf.Rocket
open Mapleaf.Motion

/-- A component of a stage: boatTail.py:30-36, noseCone.py:67-76, bodyTube.py:17-18; other classes use `cls`, `position` and `mass`. -/
structure HullPart where
  cls : PartClass
  /-- `None` for a boat tail added to a stage without body components -/
  position : Option (V3 ℝ)
  length : ℝ
  /-- diameter at the upper end -/
  top : ℝ
  /-- diameter at the lower end -/
  base : ℝ
  mass : ℝ

/-- stage.py:20-30: position, components from top to bottom and `engineShutOffTime` -/
structure HullStage where
  position : V3 ℝ
  parts : List HullPart
  off : Option ℝ

/-- rocket.py:70, 100, 118, 152: stages, `maxDiameter`, `addZeroLengthBoatTailsToAccountForBaseDrag`, `derivativeEvaluationLog` -/
structure Hull where
  stages : List HullStage
  maxDiameter : ℝ
  addTails : Bool
  log : Option (LogM.Log ℝ (V3 ℝ))

/-- stage.py:81-85 with the reversed components, rocket.py:493-497 -/
def HullStage.lastBody (s : HullStage) : Option HullPart := s.parts.reverse.find? (fun p => p.cls.isBody)

open Classical in
/-- RocketComponents.py:64-70 `getBottomInterfaceLocation`, boatTail.py:184: its z -/
noncomputable def HullPart.bottomZ (p : HullPart) : Option ℝ :=
  if p.cls = .boatTail then none else p.position.map (fun q => q.z - p.length)

/-- stage.py:96-103 `getBottomInterfaceLocation` -/
noncomputable def HullStage.bottom (s : HullStage) : Option (V3 ℝ) :=
  (s.lastBody.bind HullPart.bottomZ).map (fun z => ⟨s.position.x, s.position.y, z⟩)

/-- rocket.py:490-497: whether the lowest body component is a boat tail -/
def HullStage.hasTail (s : HullStage) : Bool :=
  match s.lastBody with
  | some p => p.cls = .boatTail
  | none => false

/-- RocketComponentFactory.py:56-61 `initializeForceLogging` for the name given in rocket.py:518 -/
noncomputable def logTail (log : Option (LogM.Log ℝ (V3 ℝ))) : Except PyErr (Option (LogM.Log ℝ (V3 ℝ))) :=
  match log with
  | none => .ok none
  | some L =>
    match LogM.addColumn L "Auto-AddedZeroLengthBoatTailF(N)".toList (some 0) with
    | .error e => .error e
    | .ok L1 =>
      match LogM.addColumn L1 "Auto-AddedZeroLengthBoatTailM(Nm)".toList (some 0) with
      | .error e => .error e
      | .ok L2 => .ok (some L2)

namespace Hull

/-- rocket.py:502-517: the boat tail that is added -/
noncomputable def tail (h : Hull) (s : HullStage) : HullPart := ⟨.boatTail, s.bottom, 0, h.maxDiameter, h.maxDiameter, 0⟩

/-- rocket.py:489-519 `_ensureBaseDragIsAccountedFor` -/
noncomputable def ensureTail (h : Hull) : Except PyErr Hull :=
  match h.stages.getLast? with
  | none => .error .indexError
  | some s =>
    if s.hasTail = false ∧ h.addTails = true then
      match logTail h.log with
      | .error e => .error e
      | .ok log => .ok { h with stages := h.stages.dropLast ++ [{ s with parts := s.parts ++ [h.tail s] }], log := log }
    else .ok h

open Classical in
/-- rocket.py:335-337: on the pad, for rockets with body tubes -/
noncomputable def setUp (h : Hull) : Except PyErr Hull := if h.maxDiameter > 0 then h.ensureTail else .ok h

/-- rocket.py:461-478: separation drops the bottom stage, sets the shut-off time `off` of the uppermost stage (Propulsion.py:153-157)
and accounts for base drag again -/
noncomputable def drop (h : Hull) (off : ℝ) : Except PyErr Hull :=
  match h.stages.dropLast with
  | [] => .error .indexError
  | s :: ss => ensureTail { h with stages := { s with off := some off } :: ss }

/-- rocket.py:103 -/
noncomputable def aref (h : Hull) : ℝ := Real.pi * h.maxDiameter ^ 2 / 4

open Classical in
/-- boatTail.py:195-203: the pressure drag coefficient of one boat tail of a stage -/
noncomputable def tailCd (h : Hull) (mach time : ℝ) (s : HullStage) (p : HullPart) : Except PyErr ℝ :=
  (Trans.mk p.top p.base p.length (p.position.getD 0)).boatTailCd mach h.aref
    (match s.off with | none => true | some o => decide (time > o))

open Classical in
/-- CompositeObject.py:87-99 over stages and components: the pressure drag coefficients of all boat tails, added up -/
noncomputable def baseCd (h : Hull) (mach time : ℝ) : Except PyErr ℝ :=
  ((h.stages.flatMap fun (s : HullStage) => (s.parts.filter (fun p => p.cls = .boatTail)).map (h.tailCd mach time s)).mapM id).map List.sum

end Hull
end Mapleaf.Rocket
