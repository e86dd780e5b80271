import Verif.Motion.InterpModel
import Verif.Motion.VecModel
import Mathlib.Analysis.SpecialFunctions.Trigonometric.Basic

/-!
# Model of the turbulence models (MAPLEAF/ENV/TurbulenceModelling.py)

The seeded Gaussian generator is an arbitrary sequence of numbers `g 0, g 1, …` in the order drawn. List reads that are always
in range are written `getD`; the in-range facts are part of the invariant proved in `TurbProps`. The `while` loop of
`getValue` carries fuel.
-/

namespace Mapleaf.ENV
open Mapleaf.Motion

variable {K : Type} [Field K] [LinearOrder K]

/-- TurbulenceModelling.py:189-216: the fields of a `PinkNoiseGenerator`; `drawn` counts the Gaussian numbers used so far -/
structure Pink (K : Type) where
  coeffs : List K
  n : Nat
  next : Nat
  lastT : K
  dt : K
  vals : List K
  drawn : Nat

namespace Pink

/-- TurbulenceModelling.py:201-203: the filter coefficients, the leading 1 included -/
def coeff (alpha : K) : Nat → K
  | 0 => 1
  | i + 1 => ((i : K) - alpha / 2) * coeff alpha i / ((i : K) + 1)

/-- TurbulenceModelling.py:201-204 -/
def coeffList (alpha : K) (n : Nat) : List K := (List.range n).map fun i => coeff alpha (i + 1)

/-- TurbulenceModelling.py:225-232: the next sample -/
def sample (g : Nat → K) (s : Pink K) : K × Pink K :=
  let v := (List.range s.n).foldl (fun w i =>
    w - s.coeffs.getD i 0 * s.vals.getD (((s.next : Int) - i - 1) % s.n).toNat 0) (g s.drawn)
  (v, { s with vals := s.vals.set s.next v, next := (s.next + 1) % s.n, drawn := s.drawn + 1 })

/-- TurbulenceModelling.py:215-216: the warm-up loop -/
def warm (g : Nat → K) : Nat → Pink K → Pink K
  | 0, s => s
  | k + 1, s => warm g k (s.sample g).2

/-- TurbulenceModelling.py:189-216 `__init__` -/
def init (g : Nat → K) (alpha : K) (n : Nat) (dt : K) : Pink K :=
  warm g (10 * n) ⟨coeffList alpha n, n, 0, 0, dt, (List.range n).map g, n⟩

/-- TurbulenceModelling.py:241-247: interpolation between the last two samples -/
def between (s : Pink K) (time : K) : Except PyErr K :=
  match pyGet s.vals ((s.next : Int) - 1), pyGet s.vals ((s.next : Int) - 2) with
  | .ok last, .ok second =>
    if s.dt = 0 then .error .zeroDivision
    else .ok ((last - second) / s.dt * (time - (s.lastT - s.dt)) + second)
  | _, _ => .error .indexError

/-- TurbulenceModelling.py:218-247 `getValue(time)` -/
def getValue (g : Nat → K) (time : K) : Nat → Pink K → Except PyErr (K × Pink K)
  | fuel, s =>
    if time > s.lastT then
      match fuel with
      | 0 => .error .outOfFuel
      | f + 1 =>
        let (v, s') := s.sample g
        let s'' := { s' with lastT := s'.lastT + s'.dt }
        if s''.lastT = time then .ok (v, s'') else getValue g time f s''
    else
      match s.between time with
      | .error e => .error e
      | .ok v => .ok (v, s)

/-- a sequence of queries to one generator -/
def queries (g : Nat → K) (fuel : Nat) : Pink K → List K → Except PyErr (List K × Pink K)
  | s, [] => .ok ([], s)
  | s, t :: ts =>
    match getValue g t fuel s with
    | .error e => .error e
    | .ok (v, s') =>
      match queries g fuel s' ts with
      | .error e => .error e
      | .ok (vs, s'') => .ok (v :: vs, s'')

end Pink

/-- TurbulenceModelling.py:94-98 `_getDesiredTurbulenceStdDev` -/
noncomputable def desiredStdDev (intensity : Option ℝ) (stdDev : Option ℝ) (meanWind : V3 ℝ) : Except PyErr ℝ :=
  match intensity with
  | some i => .ok (meanWind.length * i)
  | none => match stdDev with
    | some s => .ok s
    | none => .error .typeError   -- the product with `None` raises

/-- TurbulenceModelling.py:104-107 `PinkNoise1D.getTurbVelocity` -/
noncomputable def turb1 (g1 : Nat → ℝ) (fuel : Nat) (p1 : Pink ℝ) (sd : ℝ) (meanWind : V3 ℝ) (time : ℝ) :
    Except PyErr (V3 ℝ × Pink ℝ) :=
  match p1.getValue g1 time fuel with
  | .error e => .error e
  | .ok (v, p1') => .ok ((v * sd) • meanWind.normalize, p1')

/-- TurbulenceModelling.py:114-118 `PinkNoise2D.getTurbVelocity` -/
noncomputable def turb2 (g1 g2 : Nat → ℝ) (fuel : Nat) (p1 p2 : Pink ℝ) (sd : ℝ) (time : ℝ) :
    Except PyErr (V3 ℝ × Pink ℝ × Pink ℝ) :=
  match p1.getValue g1 time fuel with
  | .error e => .error e
  | .ok (x, p1') =>
    match p2.getValue g2 time fuel with
    | .error e => .error e
    | .ok (y, p2') => .ok (⟨x * sd, y * sd, 0⟩, p1', p2')

/-- TurbulenceModelling.py:126-131 `PinkNoise3D.getTurbVelocity` (the third generator, `png3`, is not used) -/
noncomputable def turb3 (g1 g2 : Nat → ℝ) (fuel : Nat) (p1 p2 : Pink ℝ) (sd : ℝ) (time : ℝ) :
    Except PyErr (V3 ℝ × Pink ℝ × Pink ℝ) :=
  match p1.getValue g1 time fuel with
  | .error e => .error e
  | .ok (x, p1') =>
    match p2.getValue g2 time fuel with
    | .error e => .error e
    | .ok (y, p2') =>
      match p2'.getValue g2 time fuel with
      | .error e => .error e
      | .ok (z, p2'') => .ok (⟨x * sd, y * sd, z * sd⟩, p1', p2'')

/-- TurbulenceModelling.py:133-145: the fields of a `CustomSineGust`; the boundaries are computed from them -/
structure SineGust where
  start : ℝ
  blend : ℝ
  thickness : ℝ
  magnitude : ℝ
  direction : V3 ℝ

namespace SineGust

/-- TurbulenceModelling.py:140-145 -/
noncomputable def b1 (s : SineGust) : ℝ := s.start + s.blend
noncomputable def b2 (s : SineGust) : ℝ := s.start + s.blend + s.thickness
noncomputable def b3 (s : SineGust) : ℝ := s.start + s.blend + s.thickness + s.blend

open Classical in
/-- TurbulenceModelling.py:147-166 `getTurbVelocity`. A division by `blend` happens only strictly inside a blending region,
where it is not zero. -/
noncomputable def velocity (s : SineGust) (altitude : ℝ) : V3 ℝ :=
  if altitude > s.start then
    if altitude < s.b1 then
      (s.magnitude / 2 * (1 - Real.cos (Real.pi * (altitude - s.start) / s.blend))) • s.direction
    else if altitude < s.b2 then
      s.magnitude • s.direction
    else if altitude < s.b3 then
      (s.magnitude / 2 * (1 - Real.cos (Real.pi * (altitude - s.start - (s.b3 - s.start)) / s.blend))) • s.direction
    else 0
  else 0

end SineGust

end Mapleaf.ENV
