import Verif.Base.Dict
import Verif.Base.Str
import Mathlib.Analysis.SpecialFunctions.Pow.Real

/-!
# Model: coefficients from the derivative evaluation log (MAPLEAF/IO/Logging.py:189-278 `postProcessForceEvalLog`)

A data frame with `n` rows: its columns in order, each with one cell per row. A cell that is not a (finite) number - NaN or
infinity, the result of a division by zero or of the square root of a negative number - is `none`; arithmetic with it gives
`none` again (in the function no infinity is ever divided by). Floating point is not modelled. Column names are distinct.
The `print` calls, reading and writing the file are not modelled: `expand` maps the frame read to the frame written.
-/

namespace Mapleaf.LogM
open Mapleaf

/-- One column of a data frame with `n` rows -/
abbrev Column (n : Nat) := Fin n → Option ℝ
/-- A data frame with `n` rows -/
abbrev Frame (n : Nat) := Dict Str (Column n)

variable {n : Nat}

/-- `forcesLog[name]` -/
def Frame.col (D : Frame n) (name : Str) : Except PyErr (Column n) :=
  match Dict.get? D name with
  | some c => .ok c
  | none => .error .keyError

namespace Cell
/-- Arithmetic of cells: not-a-number spreads -/
def map2 (f : ℝ → ℝ → ℝ) : Option ℝ → Option ℝ → Option ℝ
  | some a, some b => some (f a b)
  | _, _ => none
open Classical in
/-- `/` -/
noncomputable def div : Option ℝ → Option ℝ → Option ℝ
  | some a, some b => if b = 0 then none else some (a / b)
  | _, _ => none
open Classical in
/-- `** 0.5` -/
noncomputable def root : Option ℝ → Option ℝ
  | some a => if a < 0 then none else some (Real.sqrt a)
  | none => none
/-- `** 2` -/
def sq : Option ℝ → Option ℝ
  | some a => some (a ^ 2)
  | none => none
/-- a number times a cell -/
def scale (k : ℝ) : Option ℝ → Option ℝ
  | some a => some (k * a)
  | none => none
end Cell

open Cell

/-- columns of the same length, cell by cell -/
def zip (f : Option ℝ → Option ℝ → Option ℝ) (a b : Column n) : Column n := fun i => f (a i) (b i)

/-- Logging.py:218-219: one airspeed component, for the direction `d` -/
def airVel (D : Frame n) (d : Char) : Except PyErr (Frame n) := do
  let v ← Frame.col D ("Velocity".toList ++ d :: "(m/s)".toList)
  let w ← Frame.col D ("Wind".toList ++ d :: "(m/s)".toList)
  .ok (Dict.set D ("AirVel".toList ++ d :: "(m/s)".toList) (zip (map2 (· - ·)) v w))

/-- Logging.py:222-230: square and magnitude of the airspeed, its direction, dynamic pressure, dynamic pressure times
area -/
noncomputable def airSpeed (D : Frame n) (refArea : ℝ) : Except PyErr (Frame n) := do
  let x ← Frame.col D "AirVelX(m/s)".toList
  let y ← Frame.col D "AirVelY(m/s)".toList
  let z ← Frame.col D "AirVelZ(m/s)".toList
  let v2 : Column n := fun i => map2 (· + ·) (map2 (· + ·) (sq (x i)) (sq (y i))) (sq (z i))
  let D := Dict.set D "AirVel^2".toList v2
  let mag : Column n := fun i => root (v2 i)
  let D := Dict.set D "AirVelMag".toList mag
  let D := Dict.set D "AirVelUnitX".toList (zip div x mag)
  let D := Dict.set D "AirVelUnitY".toList (zip div y mag)
  let D := Dict.set D "AirVelUnitZ".toList (zip div z mag)
  let rho ← Frame.col D "AirDensity(kg/m^3)".toList
  let q : Column n := fun i => scale 0.5 (map2 (· * ·) (v2 i) (rho i))
  let D := Dict.set D "DynamicP(Pa)".toList q
  .ok (Dict.set D "nonDimConstant".toList (fun i => scale refArea (q i)))

/-- `col[-k]` -/
def fromEnd (s : Str) (k : Nat) : Except PyErr Char :=
  if s.length < k then .error .indexError
  else match s[s.length - k]? with
    | some c => .ok c
    | none => .error .indexError

/-- Logging.py:234-248: the loop body, for the column `col` -/
noncomputable def coefficient (refLength : ℝ) (D : Frame n) (col : Str) : Except PyErr (Frame n) :=
  if Str.isIn "(N)".toList col then do
    let d ← fromEnd col 4
    let values ← Frame.col D col
    let nonDim ← Frame.col D "nonDimConstant".toList
    .ok (Dict.set D (Str.replace col ('F' :: d :: "(N)".toList) ['C', 'F', d]) (zip div values nonDim))
  else if Str.isIn "(Nm)".toList col then do
    let d ← fromEnd col 5
    let values ← Frame.col D col
    let nonDim ← Frame.col D "nonDimConstant".toList
    .ok (Dict.set D (Str.replace col ('M' :: d :: "(Nm)".toList) ['C', 'M', d])
      (fun i => div (values i) (scale refLength (nonDim i))))
  else .ok D

/-- Logging.py:233: the loop over the columns that exist when it starts -/
noncomputable def coefficients (refLength : ℝ) : List Str → Frame n → Except PyErr (Frame n)
  | [], D => .ok D
  | c :: cs, D => do
    let D' ← coefficient refLength D c
    coefficients refLength cs D'

/-- Logging.py:253-260: drag, lift and normal force and their coefficients -/
noncomputable def liftDrag (D : Frame n) : Except PyErr (Frame n) := do
  let fx ← Frame.col D "AeroFX(N)".toList
  let ux ← Frame.col D "AirVelUnitX".toList
  let fy ← Frame.col D "AeroFY(N)".toList
  let uy ← Frame.col D "AirVelUnitY".toList
  let fz ← Frame.col D "AeroFZ(N)".toList
  let uz ← Frame.col D "AirVelUnitZ".toList
  let nonDim ← Frame.col D "nonDimConstant".toList
  let drag : Column n := fun i => map2 (· + ·) (map2 (· + ·) (map2 (· * ·) (fx i) (ux i)) (map2 (· * ·) (fy i) (uy i)))
    (map2 (· * ·) (fz i) (uz i))
  let D := Dict.set D "dragForce".toList drag
  let D := Dict.set D "Cd".toList (fun i => div (scale (-1) (drag i)) (nonDim i))
  let lift : Column n := fun i => root (map2 (· - ·)
    (map2 (· + ·) (map2 (· + ·) (sq (fx i)) (sq (fy i))) (sq (fz i))) (sq (drag i)))
  let D := Dict.set D "liftForce".toList lift
  let D := Dict.set D "Cl".toList (zip div lift nonDim)
  let normal : Column n := fun i => root (map2 (· + ·) (sq (fx i)) (sq (fy i)))
  let D := Dict.set D "normalForce".toList normal
  .ok (Dict.set D "CN".toList (zip div normal nonDim))

/-- Logging.py:189-278: from the frame read to the frame written. The frame returned by `drop` on line 270 is not used. -/
noncomputable def expand (D : Frame n) (refArea refLength : ℝ) : Except PyErr (Frame n) :=
  if Dict.has D "AeroCFX(N)".toList then .error .valueError
  else do
    let D ← airVel D 'X'
    let D ← airVel D 'Y'
    let D ← airVel D 'Z'
    let D ← airSpeed D refArea
    let D ← coefficients refLength (Dict.keys D) D
    liftDrag D

/-- Logging.py:273: the file written -/
def expandedPath (path : Str) : Str := Str.replace path ".csv".toList "_expanded.csv".toList

end Mapleaf.LogM
