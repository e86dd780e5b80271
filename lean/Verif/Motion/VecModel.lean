import Verif.Base.Dict
import Verif.Base.Str
import Mathlib.Algebra.Field.Basic
import Mathlib.Algebra.Module.Basic
import Mathlib.Tactic.Ring
import Mathlib.Tactic.FieldSimp
import Mathlib.Tactic.Linarith
import Mathlib.Analysis.SpecialFunctions.Trigonometric.Inverse

/-! # Model: `Vector` (MAPLEAF/Motion/CythonVector.pyx)

Components are elements of a field `K` (no rounding). Functions using a square root or a trigonometric function are
over `ℝ`. -/

namespace Mapleaf.Motion

/-- CythonVector.pyx:13 `Vector`: three components -/
structure V3 (K : Type) where
  x : K
  y : K
  z : K
  deriving DecidableEq, Repr

namespace V3

@[ext] theorem ext' {K : Type} {a b : V3 K} (hx : a.x = b.x) (hy : a.y = b.y) (hz : a.z = b.z) : a = b := by
  cases a; cases b; simp_all

variable {K : Type} [Field K]

/-- CythonVector.pyx:74-77 `__add__` of two vectors -/
instance : Add (V3 K) := ⟨fun a b => ⟨a.x + b.x, a.y + b.y, a.z + b.z⟩⟩
/-- CythonVector.pyx:87-88 `__neg__` -/
instance : Neg (V3 K) := ⟨fun a => ⟨-a.x, -a.y, -a.z⟩⟩
/-- CythonVector.pyx:83-85 `__sub__`: `self.__add__(-vector2)` -/
instance : Sub (V3 K) := ⟨fun a b => a + (-b)⟩
/-- CythonVector.pyx:125 `Vector(0,0,0)` -/
instance : Zero (V3 K) := ⟨⟨0, 0, 0⟩⟩
/-- CythonVector.pyx:101-105 product with a number -/
instance : SMul K (V3 K) := ⟨fun k a => ⟨a.x * k, a.y * k, a.z * k⟩⟩

/-- CythonVector.pyx:98-100 product of two vectors (dot product) -/
def dot (a b : V3 K) : K := a.x * b.x + a.y * b.y + a.z * b.z

/-- CythonVector.pyx:127-130 `crossProduct` -/
def cross (a b : V3 K) : V3 K := ⟨a.y * b.z - a.z * b.y, a.z * b.x - a.x * b.z, a.x * b.y - a.y * b.x⟩

/-- CythonVector.pyx:109-111 `__truediv__`: `self * (1/scalar)` -/
def div [DecidableEq K] (a : V3 K) (s : K) : Except PyErr (V3 K) :=
  if s = 0 then .error .zeroDivision else .ok ((1 / s) • a)

/-- CythonVector.pyx:54-63 `__getitem__` (Cython passes negative positions through, they raise too) -/
def getItem (a : V3 K) (i : Int) : Except PyErr K :=
  if i = 0 then .ok a.x else if i = 1 then .ok a.y else if i = 2 then .ok a.z else .error .indexError

/-- An operand of an overloaded operator: a `Vector`, a number, or anything else. -/
inductive Operand (K : Type)
  | vec (v : V3 K)
  | num (k : K)
  | other
  deriving DecidableEq, Repr

/-- CythonVector.pyx:74-81 `__add__`, all operand types. `NotImplementedError` is a `RuntimeError`. -/
def pyAdd (a : V3 K) : Operand K → Except PyErr (V3 K)
  | .vec b => .ok (a + b)
  | .num k => .ok ⟨a.x + k, a.y + k, a.z + k⟩
  | .other => .error .runtimeError

/-- CythonVector.pyx:83-85 `__sub__`, all operand types: negates the operand, then adds (the unary minus of an
arbitrary object raises `TypeError`) -/
def pySub (a : V3 K) : Operand K → Except PyErr (V3 K)
  | .vec b => pyAdd a (.vec (-b))
  | .num k => pyAdd a (.num (-k))
  | .other => .error .typeError

/-- CythonVector.pyx:90-94 `__eq__` -/
def pyEq [DecidableEq K] (a : V3 K) : Operand K → Bool
  | .vec b => decide (a.x = b.x) && decide (a.y = b.y) && decide (a.z = b.z)
  | _ => false

/-- CythonVector.pyx:96-107 `__mul__`: at least one of the operands is a `Vector` (Cython calls it for reversed
operands too) -/
def pyMul : Operand K → Operand K → Except PyErr (Operand K)
  | .vec a, .vec b => .ok (.num (dot a b))
  | .vec a, .num k => .ok (.vec (k • a))
  | .num k, .vec b => .ok (.vec ⟨k * b.x, k * b.y, k * b.z⟩)
  | _, _ => .error .runtimeError

@[simp] theorem add_x (a b : V3 K) : (a + b).x = a.x + b.x := rfl
@[simp] theorem add_y (a b : V3 K) : (a + b).y = a.y + b.y := rfl
@[simp] theorem add_z (a b : V3 K) : (a + b).z = a.z + b.z := rfl
@[simp] theorem neg_x (a : V3 K) : (-a).x = -a.x := rfl
@[simp] theorem neg_y (a : V3 K) : (-a).y = -a.y := rfl
@[simp] theorem neg_z (a : V3 K) : (-a).z = -a.z := rfl
@[simp] theorem sub_x (a b : V3 K) : (a - b).x = a.x - b.x := (sub_eq_add_neg _ _).symm
@[simp] theorem sub_y (a b : V3 K) : (a - b).y = a.y - b.y := (sub_eq_add_neg _ _).symm
@[simp] theorem sub_z (a b : V3 K) : (a - b).z = a.z - b.z := (sub_eq_add_neg _ _).symm
@[simp] theorem zero_x : (0 : V3 K).x = 0 := rfl
@[simp] theorem zero_y : (0 : V3 K).y = 0 := rfl
@[simp] theorem zero_z : (0 : V3 K).z = 0 := rfl
@[simp] theorem smul_x (k : K) (a : V3 K) : (k • a).x = a.x * k := rfl
@[simp] theorem smul_y (k : K) (a : V3 K) : (k • a).y = a.y * k := rfl
@[simp] theorem smul_z (k : K) (a : V3 K) : (k • a).z = a.z * k := rfl

/-- The vector-space structure (used for sums over lists of vectors in later models). -/
instance : AddCommGroup (V3 K) where
  add_assoc a b c := by ext <;> simp [add_assoc]
  zero_add a := by ext <;> simp
  add_zero a := by ext <;> simp
  add_comm a b := by ext <;> simp [add_comm]
  neg_add_cancel a := by ext <;> simp
  sub_eq_add_neg a b := rfl
  nsmul := nsmulRec
  zsmul := zsmulRec

instance : Module K (V3 K) where
  one_smul a := by ext <;> simp
  mul_smul a b c := by ext <;> simp <;> ring
  smul_zero a := by ext <;> simp
  smul_add a b c := by ext <;> simp <;> ring
  add_smul a b c := by ext <;> simp <;> ring
  zero_smul a := by ext <;> simp

/-- CythonVector.pyx:116-117 `length` -/
noncomputable def length (a : V3 ℝ) : ℝ := Real.sqrt (a.x * a.x + a.y * a.y + a.z * a.z)

open Classical in
/-- CythonVector.pyx:119-125 `normalize` -/
noncomputable def normalize (a : V3 ℝ) : V3 ℝ :=
  if a.length > 0 then ⟨a.x / a.length, a.y / a.length, a.z / a.length⟩ else ⟨0, 0, 0⟩

open Classical in
/-- CythonVector.pyx:133-139 `angle`. Division by a zero length raises `ZeroDivisionError`. -/
noncomputable def angle (a b : V3 ℝ) : Except PyErr ℝ :=
  if a.length * b.length = 0 then .error .zeroDivision
  else
    let interior := dot a b / (a.length * b.length)
    if |interior - 1| < 0.00000001 then .ok (Real.arccos 1) else .ok (Real.arccos interior)

end V3

/-! ## Text form -/

/-- Python `s.split(sep)` for a non-empty separator string; `skip` counts characters of a match still to be dropped -/
def splitS (sep : Str) : Nat → Str → List Str
  | _, [] => [[]]
  | k + 1, _ :: cs => splitS sep k cs
  | 0, c :: cs =>
    if List.isPrefixOf sep (c :: cs) then [] :: splitS sep (sep.length - 1) cs
    else match splitS sep 0 cs with
      | h :: t => (c :: h) :: t
      | [] => [[c]]

/-- CythonVector.pyx:36-44: choosing the separator -/
def splitComponents (s : Str) : List Str :=
  let p := splitS [',', ' '] 0 s
  let p := if p.length = 1 then splitS [';', ' '] 0 (p.headD []) else p
  let p := if p.length = 1 then Str.wsSplit (p.headD []) else p
  let p := if p.length = 1 then Str.splitC ',' (p.headD []) else p
  if p.length = 1 then Str.splitC ';' (p.headD []) else p

/-- CythonVector.pyx:31-33: dropping one pair of brackets -/
def dropBrackets (s : Str) : Except PyErr Str :=
  match Str.strip s with
  | [] => .error .indexError
  | c :: cs =>
    if c = '[' ∨ c = '(' ∨ c = '{' then .ok (Str.strip cs.dropLast) else .ok (c :: cs)

/-- CythonVector.pyx:15-52 `Vector("…")`. `float` is Python's `float(str)` (`none`: `ValueError`). -/
def parseVector {K : Type} (float : Str → Option K) (s : Str) : Except PyErr (V3 K) :=
  match dropBrackets s with
  | .error e => .error e
  | .ok s' =>
    match splitComponents s' with
    | [a, b, c] =>
      match float a, float b, float c with
      | some x, some y, some z => .ok ⟨x, y, z⟩
      | _, _, _ => .error .valueError
    | _ => .error .valueError

/-- CythonVector.pyx:70-72 `__str__`. `fmt` is Python's `str(float)` -/
def vecStr {K : Type} (fmt : K → Str) (v : V3 K) : Str :=
  ['('] ++ fmt v.x ++ [' '] ++ fmt v.y ++ [' '] ++ fmt v.z ++ [')']

/-- CythonVector.pyx:65-68 `__format__` -/
def vecFormat {K : Type} (fmt : K → Str) (v : V3 K) : Str :=
  fmt v.x ++ [' '] ++ fmt v.y ++ [' '] ++ fmt v.z

end Mapleaf.Motion
