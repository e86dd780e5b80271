import Verif.Base.Dict
import Mathlib.Algebra.Order.Field.Basic
import Mathlib.Algebra.Module.Basic
import Mathlib.LinearAlgebra.Matrix.NonsingularInverse
import Mathlib.LinearAlgebra.Matrix.Notation

/-!
# Model of table and cubic interpolation (MAPLEAF/Motion/Interpolation.py)

Generic over an ordered field `K` for abscissae and a `K`-module `V` for tabulated values: scalars, or rows of a numpy
table. `bisect` of the standard library is modelled by its own algorithm, so unsorted tables are covered too. A division by
zero raises, as for Python floats (numpy scalars would give `inf`/`nan` and a warning). `NoNaNLinearNDInterpolator` is a
wrapper around SciPy and is not modelled.
-/

namespace Mapleaf.Motion

/-- Python list indexing, negative indices count from the end -/
def pyGet {α : Type} (l : List α) (i : Int) : Except PyErr α :=
  let j := if i < 0 then i + l.length else i
  if j < 0 then .error .indexError
  else
    match l[j.toNat]? with
    | some a => .ok a
    | none => .error .indexError

section bisect
variable {K : Type} [LT K] [DecidableRel (fun a b : K => a < b)]

/-- The loop of the standard library's `bisect.bisect` (= `bisect_right`): `while lo < hi: mid = (lo+hi)//2;
if x < a[mid]: hi = mid else: lo = mid+1`. The fuel bounds the number of rounds. -/
def bisectLoop (a : List K) (x : K) : Nat → Nat → Nat → Nat
  | 0, lo, _ => lo
  | fuel + 1, lo, hi =>
    if lo < hi then
      let mid := (lo + hi) / 2
      match a[mid]? with
      | some v => if x < v then bisectLoop a x fuel lo mid else bisectLoop a x fuel (mid + 1) hi
      | none => lo
    else lo

/-- `bisect(a, x)` -/
def bisect (a : List K) (x : K) : Nat := bisectLoop a x a.length 0 a.length

end bisect

section interp
variable {K V : Type} [Field K] [LinearOrder K] [AddCommGroup V] [Module K V]

/-- Interpolation.py:15-41 `linInterp` -/
def linInterp (X : List K) (Y : List V) (x : K) : Except PyErr V :=
  let pt := bisect X x
  if pt ≥ X.length then pyGet Y (X.length - 1)
  else if pt < 1 then pyGet Y 0
  else
    match pyGet X pt, pyGet X (pt - 1), pyGet Y pt, pyGet Y (pt - 1) with
    | .ok lgX, .ok smX, .ok lgY, .ok smY =>
      if lgX - smX = 0 then .error .zeroDivision
      else .ok (((x - smX) / (lgX - smX)) • (lgY - smY) + smY)
    | _, _, _, _ => .error .indexError

/-- Interpolation.py:43-70 `linInterpWeights`: (smallYIndex, smallYWeight, largeYIndex, largeYWeight) -/
def linInterpWeights (X : List K) (x : K) : Except PyErr (Int × K × Int × K) :=
  let pt := bisect X x
  if pt ≥ X.length then .ok (0, 0, -1, 1)
  else if pt < 1 then .ok (0, 1, 0, 0)
  else
    match pyGet X pt, pyGet X (pt - 1) with
    | .ok lgX, .ok smX =>
      if lgX - smX = 0 then .error .zeroDivision
      else
        let w := (x - smX) / (lgX - smX)
        .ok (pt - 1, 1 - w, pt, w)
    | _, _ => .error .indexError

end interp

section cubic
variable {K : Type} [Field K] [DecidableEq K]

/-- Interpolation.py:78-82: the matrix of `getInvAMatrix` -/
def cubicMatrix (X1 X2 : K) : Matrix (Fin 4) (Fin 4) K :=
  !![1, X1, X1 ^ 2, X1 ^ 3;
     1, X2, X2 ^ 2, X2 ^ 3;
     0, 1, 2 * X1, 3 * X1 ^ 2;
     0, 1, 2 * X2, 3 * X2 ^ 2]

/-- Interpolation.py:72-84 `getInvAMatrix`: `scipy.linalg.inv` raises for a singular matrix. The `lru_cache` around it holds
immutable keys and a matrix nobody writes to. -/
noncomputable def getInvAMatrix (X1 X2 : K) : Except PyErr (Matrix (Fin 4) (Fin 4) K) :=
  if (cubicMatrix X1 X2).det = 0 then .error .valueError else .ok (cubicMatrix X1 X2)⁻¹

/-- Interpolation.py:86-100 `calculateCubicInterpCoefficients` -/
noncomputable def cubicCoefficients (X1 X2 Y1 Y2 d1 d2 : K) : Except PyErr (Fin 4 → K) :=
  match getInvAMatrix X1 X2 with
  | .error e => .error e
  | .ok M => .ok (M.mulVec ![Y1, Y2, d1, d2])

/-- Interpolation.py:102-107 `cubicInterp` -/
noncomputable def cubicInterp (X X1 X2 Y1 Y2 Y1p Y2p dx : K) : Except PyErr K :=
  if dx = 0 then .error .zeroDivision
  else
    match cubicCoefficients X1 X2 Y1 Y2 ((Y1p - Y1) / dx) ((Y2p - Y2) / dx) with
    | .error e => .error e
    | .ok c => .ok (c 0 + c 1 * X + c 2 * X ^ 2 + c 3 * X ^ 3)

end cubic

end Mapleaf.Motion
