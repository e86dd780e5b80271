import Verif.Motion.InterpModel
import Mathlib.Analysis.SpecialFunctions.Pow.Real

/-!
# Model of the atmosphere models (MAPLEAF/ENV/AtmosphereModelling.py)

Real arithmetic; `x**y` of positive reals is `Real.rpow`. The lists `baseTemps` and `basePressures` of
`USStandardAtmosphere` are class attributes: every instance created in the process appends to the same lists, so the model
threads them as a store. The base temperatures are never zero, so divisions by them are not modelled as failing.
-/

namespace Mapleaf.ENV
open Mapleaf.Motion

/-- AtmosphereModelling.py:113-114: the two class attributes that `__init__` appends to -/
structure AtmStore where
  temps : List ℝ
  press : List ℝ

namespace Atm

/-- AtmosphereModelling.py:104-109 -/
noncomputable def T0 : ℝ := 288.15
noncomputable def p0 : ℝ := 101325
noncomputable def M : ℝ := 28.9644
noncomputable def R : ℝ := 8.31432
noncomputable def earthRadius : ℝ := 6356766
noncomputable def G : ℝ := 9.80665

/-- AtmosphereModelling.py:111 -/
noncomputable def heights : List ℝ := [-2000, 11000, 20000, 32000, 47000, 51000, 71000, 84852]

/-- AtmosphereModelling.py:112 -/
noncomputable def rates : List ℝ := [-6.5e-3, 0, 1.0e-3, 2.8e-3, 0, -2.8e-3, -2.0e-3, 0]

open Classical in
/-- AtmosphereModelling.py:135-142 and 167-173: pressure at `dh` above a base with temperature `Tb` and pressure `Pb` -/
noncomputable def layerPressure (Tb Pb L dh : ℝ) : ℝ :=
  if L = 0 then Real.exp (-G * M * dh / (R * Tb * 1000)) * Pb
  else ((Tb + L * dh) / Tb) ^ (-G * M / (R * L * 1000)) * Pb

/-- AtmosphereModelling.py:117-124: the first base -/
noncomputable def initFirst (s : AtmStore) : Except PyErr AtmStore :=
  match pyGet rates 0, pyGet heights 0 with
  | .ok L, .ok h => .ok ⟨s.temps ++ [T0 + L * h], s.press ++ [((T0 + L * h) / T0) ^ (-G * M / (R * L * 1000)) * p0]⟩
  | _, _ => .error .indexError

/-- AtmosphereModelling.py:127-145: the body of the loop -/
noncomputable def initStep (s : AtmStore) (i : Nat) : Except PyErr AtmStore :=
  match pyGet s.temps (-1), pyGet s.press (i - 1), pyGet rates (i - 1), pyGet heights i, pyGet heights (i - 1) with
  | .ok Tb, .ok Pb, .ok L, .ok h1, .ok h0 =>
    .ok ⟨s.temps ++ [Tb + L * (h1 - h0)], s.press ++ [layerPressure Tb Pb L (h1 - h0)]⟩
  | _, _, _, _, _ => .error .indexError

/-- AtmosphereModelling.py:127: the loop -/
noncomputable def initLoop : List Nat → AtmStore → Except PyErr AtmStore
  | [], s => .ok s
  | i :: is, s =>
    match initStep s i with
    | .error e => .error e
    | .ok s' => initLoop is s'

/-- AtmosphereModelling.py:116-145 `__init__`: the class attributes afterwards -/
noncomputable def init (s : AtmStore) : Except PyErr AtmStore :=
  match initFirst s with
  | .error e => .error e
  | .ok s' => initLoop ((List.range heights.length).drop 1) s'

/-- the class attributes after `n` instances have been created -/
noncomputable def afterInstances : Nat → Except PyErr AtmStore
  | 0 => .ok ⟨[], []⟩
  | n + 1 =>
    match afterInstances n with
    | .error e => .error e
    | .ok s => init s

/-- air properties: temperature (K), pressure (Pa), density (kg/m³), dynamic viscosity (Pa s) -/
structure Air where
  temp : ℝ
  pressure : ℝ
  density : ℝ
  viscosity : ℝ

/-- AtmosphereModelling.py:150: geopotential altitude -/
noncomputable def geopotential (z : ℝ) : ℝ := (earthRadius * z) / (earthRadius + z)

open Classical in
/-- AtmosphereModelling.py:152-182: the properties at a geopotential altitude -/
noncomputable def airAt (s : AtmStore) (H0 : ℝ) : Except PyErr Air :=
  let H := if H0 ≥ 86000 then 86000 else H0
  let idx : Int := (bisect heights H : Int) - 1
  match pyGet heights idx, pyGet rates idx, pyGet s.temps idx, pyGet s.press idx with
  | .ok h, .ok L, .ok Tb, .ok Pb =>
    let temp := Tb + L * (H - h)
    let pressure := layerPressure Tb Pb L (H - h)
    let rho := if H ≥ 86000 then 0 else M * pressure / (R * temp * 1000)
    .ok ⟨temp, pressure, rho, 1.457e-6 * temp ^ (1.5 : ℝ) / (temp + 110.4)⟩
  | _, _, _, _ => .error .indexError

open Classical in
/-- AtmosphereModelling.py:147-182 `getAirProperties` -/
noncomputable def getAirProperties (s : AtmStore) (z : ℝ) : Except PyErr Air :=
  if earthRadius + z = 0 then .error .zeroDivision else airAt s (geopotential z)

end Atm

/-- AtmosphereModelling.py:72-77 `ConstantAtmosphere` -/
def constantAtmosphere (props : Atm.Air) (_z : ℝ) : Atm.Air := props

/-- AtmosphereModelling.py:85-96 `TabulatedAtmosphere`: rows are (altitude, temperature, pressure, density, viscosity in
1e-5 Pa s); a row of values is a function of the column -/
noncomputable def tabulatedAtmosphere (table : List (Fin 5 → ℝ)) (z : ℝ) : Except PyErr (Fin 4 → ℝ) :=
  linInterp (table.map (· 0)) (table.map fun r => ![r 1, r 2, r 3, r 4 * 1e-5]) z

end Mapleaf.ENV
