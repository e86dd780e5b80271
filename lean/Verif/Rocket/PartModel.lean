import Verif.Motion.ForceModel
import Verif.Motion.InterpModel
import Mathlib.Data.Char
import Mathlib.Order.Lex
import Mathlib.Data.List.Lex
import Mathlib.Algebra.Module.Pi
import Mathlib.Data.List.Sort
import Mathlib.Data.Prod.Lex
import Mathlib.Order.BooleanAlgebra.Basic

/-!
# Model of the basic rocket components (MAPLEAF/Rocket/RocketComponents.py) and of how a stage builds and orders its components
(stage.py, RocketComponentFactory.py)

A component's dictionary is a function from keys to the text found by `SubDictReader.getString` (its lookup rules are the subject of
`Verif.SimDef.StoreModel`); `float` is Python's `float(str)`, `none` meaning `ValueError`.
-/

namespace Mapleaf.Rocket
open Mapleaf.Motion

/-- A reader on a component's dictionary: subDictReader.py:21-36 `getString` and Python's `float` -/
structure Reader (K : Type) where
  text : Str → Except PyErr Str
  float : Str → Option K

namespace Reader
variable {K : Type}

/-- subDictReader.py:42-43 `getFloat` -/
def getFloat (r : Reader K) (key : Str) : Except PyErr K :=
  match r.text key with
  | .error e => .error e
  | .ok s => match r.float s with
    | some x => .ok x
    | none => .error .valueError

/-- subDictReader.py:45-46 `getVector` -/
def getVector (r : Reader K) (key : Str) : Except PyErr (V3 K) :=
  match r.text key with
  | .error e => .error e
  | .ok s => parseVector r.float s

/-- subDictReader.py:70-74 `tryGetVector(key, defaultValue=None)` -/
def tryGetVector (r : Reader K) (key : Str) : Except PyErr (Option (V3 K)) :=
  match r.getVector key with
  | .ok v => .ok (some v)
  | .error .keyError => .ok none
  | .error e => .error e

/-- subDictReader.py:64-68 `tryGetFloat(key, defaultValue=None)` -/
def tryGetFloat (r : Reader K) (key : Str) : Except PyErr (Option K) :=
  match r.getFloat key with
  | .ok v => .ok (some v)
  | .error .keyError => .ok none
  | .error e => .error e

end Reader

section
variable {K : Type} [Field K]

/-- RocketComponents.py:150-169: what a fixed mass stores -/
structure MassPart (K : Type) where
  position : V3 K
  inertia : Inertia K

/-- RocketComponents.py:150-169 `FixedMass.__init__`; the `except:` around the moments of inertia catches every exception -/
def fixedMass (r : Reader K) (stagePosition : V3 K) : Except PyErr (MassPart K) :=
  match r.getFloat "mass".toList with
  | .error e => .error e
  | .ok mass =>
    match r.getVector "position".toList with
    | .error e => .error e
    | .ok p =>
      let position := p + stagePosition
      match r.getVector "cg".toList with
      | .error e => .error e
      | .ok c =>
        let cg := c + position
        let moi := match r.getVector "MOI".toList with
          | .ok m => m
          | .error _ => ⟨mass * (1 / 100), mass * (1 / 100), mass * (1 / 100)⟩
        .ok ⟨position, Inertia.make moi cg mass⟩

/-- RocketComponents.py:180-181, 375-376: the force of a component without any -/
def zeroForce : FMS K := FMS.make ⟨0, 0, 0⟩ none none

/-- RocketComponents.py:192, 209, 382: the inertia of a component without any -/
def zeroInertia : Inertia K := Inertia.make ⟨0, 0, 0⟩ ⟨0, 0, 0⟩ 0

/-- RocketComponents.py:184-198 `FixedForce.__init__`: the force the component applies; the stage is stored but not used -/
def fixedForce (r : Reader K) (_stagePosition : V3 K) : Except PyErr (FMS K) :=
  match r.getVector "force".toList with
  | .error e => .error e
  | .ok f =>
    match r.getVector "position".toList with
    | .error e => .error e
    | .ok p =>
      match r.getVector "moment".toList with
      | .error e => .error e
      | .ok m => .ok (FMS.make f (some p) (some m))

/-- RocketComponents.py:211-225: what a component with constant aerodynamic coefficients stores -/
structure AeroPart (K : Type) where
  position : V3 K
  aref : K
  lref : K
  coeffs : List K

/-- RocketComponents.py:211-225 `AeroForce.__init__`; the stage is stored but not used -/
def aeroForce (r : Reader K) (_stagePosition : V3 K) : Except PyErr (AeroPart K) := do
  let p ← r.getVector "position".toList
  let aref ← r.getFloat "Aref".toList
  let lref ← r.getFloat "Lref".toList
  let cd ← r.getFloat "Cd".toList
  let cl ← r.getFloat "Cl".toList
  let m ← r.getVector "momentCoeffs".toList
  .ok ⟨p, aref, lref, [cd, cl, m.x, m.y, m.z]⟩

/-- stage.py:33-41: the overrides a stage passes to `CompositeObject.__init__` (centre of gravity, moments of inertia, mass) -/
def stageOverrides (r : Reader K) (stagePosition : V3 K) : Except PyErr (Option (V3 K) × Option (V3 K) × Option K) :=
  match r.tryGetVector "constCG".toList with
  | .error e => .error e
  | .ok cg =>
    match r.tryGetFloat "constMass".toList with
    | .error e => .error e
    | .ok mass =>
      match r.tryGetVector "constMOI".toList with
      | .error e => .error e
      | .ok moi => .ok (cg.map (fun c => c + stagePosition), moi, mass)

end

/-! ## Order of components -/

section
variable {K : Type} [LinearOrder K] {α : Type}

/-- RocketComponents.py:136-140 `getZPosition`: a component has a `position` or is placed at the centre of its initial mass -/
def zOf (position : α → Option (V3 K)) (cg : α → V3 K) (a : α) : K :=
  match position a with
  | some p => p.z
  | none => (cg a).z

/-- RocketComponents.py:131-143 `sortByZLocation`: `list.sort(key=…, reverse=True)`, which is stable -/
def orderByZ (z : α → K) (l : List α) : List α := l.insertionSort (fun a b => z b ≤ z a)

end

/-- RocketComponentFactory.py:16-32: the component classes -/
inductive PartClass
  | aeroDamping | aeroForce | boatTail | bodyTube | finSet | force | jetDamping | mass | motor | noseCone | recovery | stateful
  | tabulatedAero | tabulatedInertia | transition
  deriving DecidableEq, Repr

/-- RocketComponentFactory.py:16-32 `stringNameToClassMap`; a missing name is a `KeyError` -/
def classOf (name : Str) : Except PyErr PartClass :=
  match (([("AeroDamping".toList, .aeroDamping), ("AeroForce".toList, .aeroForce), ("BoatTail".toList, .boatTail),
    ("Bodytube".toList, .bodyTube), ("FinSet".toList, .finSet), ("Force".toList, .force),
    ("FractionalJetDamping".toList, .jetDamping), ("Mass".toList, .mass), ("Motor".toList, .motor),
    ("Nosecone".toList, .noseCone), ("RecoverySystem".toList, .recovery), ("StatefulSample".toList, .stateful),
    ("TabulatedAeroForce".toList, .tabulatedAero), ("TabulatedInertia".toList, .tabulatedInertia),
    ("Transition".toList, .transition)] : List (Str × PartClass)).find? (fun p => p.1 == name)) with
  | some p => .ok p.2
  | none => .error .keyError

/-- `issubclass(componentClass, BodyComponent)`: noseCone.py:58, bodyTube.py:11, boatTail.py:13, 178 -/
def PartClass.isBody : PartClass → Bool
  | .boatTail | .bodyTube | .noseCone | .transition => true
  | _ => false

/-- stage.py:47-54 `returnZeroIfBodyComponent` -/
def orderKey (cls : Str → Except PyErr Str) (path : Str) : Except PyErr (Bool × Str) :=
  match cls path with
  | .error e => .error e
  | .ok name =>
    match classOf name with
    | .error e => .error e
    | .ok c => .ok (!c.isBody, path)

/-- stage.py:43-63 `initializeSubComponents`: the order in which the components are built, with their classes.
`cls path` is the text found for `path.class`. -/
def buildOrder (cls : Str → Except PyErr Str) (paths : List Str) : Except PyErr (List Str) :=
  match paths.mapM (orderKey cls) with
  | .error e => .error e
  | .ok keys => .ok ((keys.insertionSort (fun a b => toLex a ≤ toLex b)).map Prod.snd)

/-! ## Tables -/

/-- AeroParameters.py:110-121: the parameters a table can be keyed by -/
inductive AeroKey
  | mach | altitude | unitReynolds | totalAOA | rollAngle | aoa | aoss
  deriving DecidableEq, Repr

/-- AeroParameters.py:110-121 `stringToAeroFunctionMap` -/
def aeroKeyOf (name : Str) : Option AeroKey :=
  (([("Mach".toList, .mach), ("Altitude".toList, .altitude), ("UnitReynolds".toList, .unitReynolds), ("TotalAOA".toList, .totalAOA),
    ("RollAngle".toList, .rollAngle), ("AOA".toList, .aoa), ("AOSS".toList, .aoss)] : List (Str × AeroKey)).find?
      (fun p => p.1 == name)).map Prod.snd

/-- RocketComponents.py:287-296: the leading key columns -/
def leadingKeys : List Str → List AeroKey × List Str
  | [] => ([], [])
  | c :: cs =>
    match aeroKeyOf c with
    | some k => let r := leadingKeys cs; (k :: r.1, r.2)
    | none => ([], c :: cs)

/-- RocketComponents.py:300: `aeroCoeffStrings` -/
def coeffNames : List Str := ["CD".toList, "CL".toList, "CMx".toList, "CMy".toList, "CMz".toList]

/-- RocketComponents.py:302-311: `aeroCoeffIndices` -/
def coeffIndices : List Str → Except PyErr (List Nat)
  | [] => .ok []
  | c :: cs =>
    if c ∈ coeffNames then
      match coeffIndices cs with
      | .error e => .error e
      | .ok l => .ok (coeffNames.idxOf c :: l)
    else .error .valueError

section
variable {K : Type} [Field K] [LinearOrder K]

/-- `np.loadtxt(…, delimiter=',', skiprows=1)` used as a two-dimensional array. Rows of different lengths: `ValueError`. A table with a
single row or a single column is returned one-dimensional, so that indexing it by row and column is an `IndexError`. -/
def load2D (rows : List (List K)) : Except PyErr Nat :=
  match rows with
  | [] => .error .indexError
  | r :: rs =>
    if rs.all (fun s => decide (s.length = r.length)) then
      if rs = [] ∨ r.length ≤ 1 then .error .indexError else .ok r.length
    else .error .valueError

/-- `row[start : start + n]` of a numpy row -/
def slice (row : List K) (start n : Nat) : Fin n → K := fun j => row.getD (start + j) 0

/-- RocketComponents.py:279-324: a table with one key column, ready for `linInterp`, or one with several -/
structure AeroTable (K : Type) where
  params : List AeroKey
  indices : List Nat
  /-- number of value columns in the data -/
  width : Nat
  /-- first key column (`self.keys`) -/
  keys : List K
  /-- all key columns -/
  keyRows : List (List K)
  values : List (Fin width → K)

/-- RocketComponents.py:279-324 `_loadCoefficients`; `header` is the first line, `rows` the numbers below it -/
def loadCoefficients (header : Str) (rows : List (List K)) : Except PyErr (AeroTable K) :=
  let names := Str.splitC ',' (Str.strip header)
  let lk := leadingKeys names
  match coeffIndices lk.2 with
  | .error e => .error e
  | .ok idx =>
    match load2D rows with
    | .error e => .error e
    | .ok cols =>
      let n := lk.1.length
      if n = 0 then .error .indexError
      else
        .ok { params := lk.1, indices := idx, width := cols - n, keys := rows.map (fun r => r.getD 0 0),
              keyRows := rows.map (fun r => r.take n), values := rows.map (fun r => slice r n (cols - n)) }

/-- RocketComponents.py:336-341: the loop filling the five coefficients -/
def fillCoeffs (indices : List Nat) : List (Nat × K) → List K → Except PyErr (List K)
  | [], acc => .ok acc
  | (i, v) :: rest, acc =>
    match indices[i]? with
    | none => .error .indexError
    | some k => if k < acc.length then fillCoeffs indices rest (acc.set k v) else .error .indexError

/-- RocketComponents.py:326-341 `_getAeroCoefficients`. `value` gives the current value of an aerodynamic parameter; `nd` is
`NoNaNLinearNDInterpolator` (SciPy), used for tables with several key columns. -/
def aeroCoefficients (t : AeroTable K) (value : AeroKey → K)
    (nd : List (List K) → List (Fin t.width → K) → List K → Except PyErr (Fin t.width → K)) : Except PyErr (List K) :=
  let keys := t.params.map value
  let row := if keys.length > 1 then nd t.keyRows t.values keys else
    match keys with
    | [] => .error .indexError
    | k :: _ => linInterp t.keys t.values k
  match row with
  | .error e => .error e
  | .ok v => fillCoeffs t.indices ((List.finRange t.width).map (fun j => (j.val, v j))) [0, 0, 0, 0, 0]

/-- RocketComponents.py:360-368 `_parseInertiaTable` -/
def loadInertia (rows : List (List K)) : Except PyErr (List K × List (Fin 7 → K)) :=
  match load2D rows with
  | .error e => .error e
  | .ok cols =>
    if cols ≠ 8 then .error .valueError else .ok (rows.map (fun r => r.getD 0 0), rows.map (fun r => slice r 1 7))

/-- RocketComponents.py:370-373 `TabulatedInertia.getInertia` -/
def tableInertia (t : List K × List (Fin 7 → K)) (time : K) : Except PyErr (Inertia K) :=
  match linInterp t.1 t.2 time with
  | .error e => .error e
  | .ok v => .ok (Inertia.make ⟨v 4, v 5, v 6⟩ ⟨v 1, v 2, v 3⟩ (v 0))

end
end Mapleaf.Rocket
