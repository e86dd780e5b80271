import Verif.Rocket.BuildModel

/-!
# Model: drawing the rocket (`plotShape` in noseCone.py, bodyTube.py, boatTail.py, Fins.py, stage.py and rocket.py)

What reaches `plt.plot`: lines, each a list of points (distance along the rocket, distance from its axis), and markers. Colours, labels, the legend and
the window are left out.
-/

namespace Mapleaf.Rocket.Draw
open Mapleaf.Motion

/-- one call of `plt.plot(Xvals, Yvals)` -/
abbrev Line := List (ℝ × ℝ)

/-- bodyTube.py:105-129 `plotShape` -/
noncomputable def drawTube (t : Tube) : List Line :=
  let tip := t.position.z
  let tail := tip - t.length
  let radius := t.outerDiameter / 2
  [[(tip, radius), (tip, -radius), (tail, -radius), (tail, radius), (tip, radius)]]

/-- boatTail.py:101-125 `plotShape` -/
noncomputable def drawTrans (t : Trans) : List Line :=
  let fore := t.position.z
  let aft := fore - t.length
  let r1 := t.startDiameter / 2
  let r2 := t.endDiameter / 2
  [[(fore, r1), (aft, r2), (aft, -r2), (fore, -r1), (fore, r1)]]

/-- noseCone.py:233: `np.linspace(0, length, num=100)` -/
noncomputable def samples (length : ℝ) : List ℝ := (List.range 100).map fun i : ℕ => i * (length / 99)

/-- noseCone.py:237-239: the radii, with None where there are none -/
noncomputable def radii (n : Nose) : List ℝ → Except PyErr (List (Option ℝ))
  | [] => .ok []
  | x :: xs => match n.getRadius x with
    | .error e => .error e
    | .ok r => match radii n xs with
      | .error e => .error e
      | .ok rs => .ok (r :: rs)

/-- noseCone.py:252: `[-1*i for i in YvalsBot]`, which raises TypeError for None -/
def negate : List (Option ℝ) → Except PyErr (List ℝ)
  | [] => .ok []
  | none :: _ => .error .typeError
  | some r :: rs => match negate rs with
    | .error e => .error e
    | .ok l => .ok (-1 * r :: l)

open Classical in
/-- noseCone.py:226-257 `plotShape`; the unused `Rho` of line 232 divides by the base radius -/
noncomputable def drawNose (n : Nose) (z : ℝ) : Except PyErr (List Line) :=
  if n.baseDiameter = 0 then .error .zeroDivision
  else
    let xs := samples (n.baseDiameter * n.aspectRatio)
    match radii n xs with
    | .error e => .error e
    | .ok ys => match negate ys with
      | .error e => .error e
      | .ok bot =>
        let zs := xs.map fun i => -1 * i + z
        let top := bot.map fun r => -1 * r
        .ok [(zs.zip top).reverse ++ zs.zip bot]

/-- Fins.py:392-428 `plotShape` -/
noncomputable def drawFins (g : FinGeom) (z : ℝ) : List Line :=
  let r := g.bodyRadius * 2 / 2
  let xs := [z, z - g.span * Real.tan g.sweep, z - g.span * Real.tan g.sweep - g.tipChord, z - g.rootChord, z]
  let ys := [r, r + g.span, r + g.span, r, r]
  let half := Real.sin (30 * Real.pi / 180)
  let inner := -r * half
  let outer := -(r + g.span) * half
  if g.numFins = 4 then
    let ys' := ys.map fun i => -1 * i
    [xs.zip ys, xs.zip ys', xs.zip (ys'.map fun i => 0 * i)]
  else if g.numFins = 3 then [xs.zip ys, xs.zip [inner, outer, outer, inner, inner]]
  else [xs.zip ys]

/-- a component, as far as drawing is concerned: `other` has no `plotShape` (FixedMass, Motor, RecoverySystem, forces) -/
inductive Shape
  | nose (n : Nose) (z : ℝ)
  | tube (t : Tube)
  | trans (t : Trans)
  | fins (g : FinGeom) (z : ℝ)
  | other

/-- a component with the centre of gravity of its inertia at time 0 -/
structure Piece where
  shape : Shape
  cg : Except PyErr (V3 ℝ)

/-- `component.plotShape()` -/
noncomputable def Shape.draw : Shape → Except PyErr (List Line)
  | .nose n z => drawNose n z
  | .tube t => .ok (drawTube t)
  | .trans t => .ok (drawTrans t)
  | .fins g z => .ok (drawFins g z)
  | .other => .error .attributeError

/-- the figure: lines, and the markers of the centres of gravity (z, y) -/
structure Figure where
  lines : List Line
  marks : List (ℝ × ℝ)

/-- stage.py:144-161 `plotShape`: an AttributeError while a component is drawn or asked for its inertia is ignored -/
noncomputable def drawStage : List Piece → Except PyErr Figure
  | [] => .ok ⟨[], []⟩
  | p :: ps =>
    let here : Except PyErr Figure :=
      match p.shape.draw with
      | .error .attributeError => .ok ⟨[], []⟩
      | .error e => .error e
      | .ok ls => match p.cg with
        | .error .attributeError => .ok ⟨ls, []⟩
        | .error e => .error e
        | .ok c => .ok ⟨ls, [(c.z, c.y)]⟩
    match here with
    | .error e => .error e
    | .ok f => match drawStage ps with
      | .error e => .error e
      | .ok g => .ok ⟨f.lines ++ g.lines, f.marks ++ g.marks⟩

/-- rocket.py:447-453: the stages one after the other -/
noncomputable def drawStages : List (List Piece) → Except PyErr Figure
  | [] => .ok ⟨[], []⟩
  | s :: ss => match drawStage s with
    | .error e => .error e
    | .ok f => match drawStages ss with
      | .error e => .error e
      | .ok g => .ok ⟨f.lines ++ g.lines, f.marks ++ g.marks⟩

/-- rocket.py:434-458 `plotShape`: the marker of the whole rocket, the mass in the title, and the stages -/
noncomputable def drawRocket (inertia : Except PyErr (Inertia ℝ)) (stages : List (List Piece)) : Except PyErr ((ℝ × ℝ) × ℝ × Figure) :=
  match inertia with
  | .error e => .error e
  | .ok i => match drawStages stages with
    | .error e => .error e
    | .ok f => .ok ((i.cg.z, 0), i.mass, f)

/-- what the stage asks of the component (RocketComponents.py:47-83, noseCone.py:214-224, bodyTube.py:99-103, boatTail.py:172-176) -/
noncomputable def Shape.body : Shape → BodyComp ℝ
  | .nose n z => some ⟨z, n.length, n.baseDiameter, fun d => n.radiusE d, true⟩
  | .tube t => some ⟨t.position.z, t.length, t.outerDiameter, fun d => .ok (t.getRadius d), true⟩
  | .trans t => some ⟨t.position.z, t.length, max t.startDiameter t.endDiameter, fun d => t.getRadius d, true⟩
  | .fins _ _ => none
  | .other => none

end Mapleaf.Rocket.Draw
