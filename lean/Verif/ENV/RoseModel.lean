import Verif.ENV.WindModel

/-!
# Model of the wind-rose sampler (MAPLEAF/ENV/MeanWindModelling.py:204-329)

A wind rose is the table `_readWindRose` returns: one row per sector with its direction (degrees) and the shares of the seven
speed classes. The text parsing by pandas is not modelled. `scipy.stats.rv_histogram` is modelled from its documentation: with
the default `density=None` and bins of different widths the given numbers are taken as densities, and `ppf` interpolates the
bin boundaries linearly over the cumulative sums. The two random numbers are parameters.
-/

namespace Mapleaf.ENV
open Mapleaf.Motion V3

namespace Rose

/-- MeanWindModelling.py:235-268: one row of a wind rose -/
structure Row where
  dir : ℝ
  f : Fin 7 → ℝ

/-- MeanWindModelling.py:241-250: the directions of the sectors: the middle of the two numbers given, the first one 0 -/
noncomputable def directions : List (ℝ × ℝ) → List ℝ
  | [] => []
  | _ :: rest => 0 :: rest.map fun s => (s.1 + s.2) / 2

/-- MeanWindModelling.py:276: multiplying a table by a number; the direction column is a column like the others -/
noncomputable def Row.scale (r : Row) (k : ℝ) : Row := ⟨r.dir * k, fun i => r.f i * k⟩

/-- MeanWindModelling.py:276: adding two tables row by row -/
noncomputable def Row.add (r s : Row) : Row := ⟨r.dir + s.dir, fun i => r.f i + s.f i⟩

/-- MeanWindModelling.py:270-278 `_getAveragedWindRose` for one month (weight 1): `base` is the table used for the shape,
`roses` the tables of the locations with their weights. The tables have the same rows. -/
noncomputable def average (base : List Row) (roses : List (ℝ × List Row)) : List Row :=
  roses.foldl (fun acc wr => List.zipWith Row.add acc (wr.2.map fun r => (r.scale 1).scale wr.1)) (base.map fun r => r.scale 0)

section hist
variable {K : Type} [Field K] [LinearOrder K]

/-- widths of the bins -/
def widths (bins : List K) : List K := List.zipWith (fun a b => b - a) bins bins.tail

/-- running sums, starting from `acc` -/
def sums (acc : K) : List K → List K
  | [] => [acc]
  | x :: xs => acc :: sums (acc + x) xs

/-- scipy's `rv_histogram((vals, bins))`: the cumulative distribution at the bin boundaries. A total of zero gives `nan`s in
scipy; here it raises. -/
def cdf (vals bins : List K) : Except PyErr (List K) :=
  if vals.length + 1 ≠ bins.length then .error .valueError
  else
    let total := (List.zipWith (· * ·) vals (widths bins)).sum
    if total = 0 then .error .zeroDivision
    else .ok (sums 0 (List.zipWith (fun v w => v / total * w) vals (widths bins)))

/-- scipy's `rv_histogram((vals, bins)).ppf(q)` -/
def ppf (vals bins : List K) (q : K) : Except PyErr K :=
  match cdf vals bins with
  | .error e => .error e
  | .ok c => linInterp c bins q

end hist

/-- MeanWindModelling.py:283-284: sum over the sectors, per speed class -/
noncomputable def bySpeed (rose : List Row) (i : Fin 7) : ℝ := (rose.map fun r => r.f i).sum

/-- MeanWindModelling.py:282-296: what `_createWindSpeedCDF` hands to scipy: shares of the classes, with 0.014 taken from the
last one for the extreme winds -/
noncomputable def speedVals (rose : List Row) : List ℝ :=
  let total := ((List.ofFn (bySpeed rose))).sum
  let s := fun i => bySpeed rose i / total
  [s 0, s 1, s 2, s 3, s 4, s 5, s 6 - (0.01 + 0.004 + 0), 0.01, 0.004, 0]

/-- MeanWindModelling.py:211-213 and 291-294: the bin boundaries in m/s -/
noncomputable def speedBins : List ℝ :=
  ([0, 2, 5, 7, 10, 15, 20, 23.5] : List ℝ).map (· * 0.44704) ++ ([25, 31, 50] : List ℝ).map (· * 0.44704)

/-- MeanWindModelling.py:220-223: the wind speed for the random number `q`. A table without any wind gives `nan`s; here it
raises. -/
noncomputable def sampleSpeed (rose : List Row) (q : ℝ) : Except PyErr ℝ :=
  open Classical in
  if (List.ofFn (bySpeed rose)).sum = 0 then .error .zeroDivision else ppf (speedVals rose) speedBins q

/-- MeanWindModelling.py:308-309, 312: the speeds (m/s) of the columns; the first column holds the data of the second one -/
noncomputable def classSpeeds : List ℝ := ([0, 3.5, 6, 8.5, 12.5, 17.5, 23.5] : List ℝ).map (· * 0.44704)

/-- MeanWindModelling.py:307-326: the share of a sector at the given speed: interpolation between the columns, the last
column beyond it -/
noncomputable def Row.shareAt (r : Row) (speed : ℝ) : Except PyErr ℝ :=
  linInterp classSpeeds [r.f 1, r.f 1, r.f 2, r.f 3, r.f 4, r.f 5, r.f 6] speed

/-- MeanWindModelling.py:303-307: the sector with direction 0 is moved to the end as 360, and a bin boundary 0 is put in
front. Directions are distinct and below 360. -/
noncomputable def headingTable (rose : List Row) : Except PyErr (List Row × List ℝ) :=
  open Classical in
  match rose.find? fun r => r.dir = 0 with
  | none => .error .keyError
  | some r0 =>
    let rows := rose.filter (fun r => r.dir ≠ 0) ++ [⟨360, r0.f⟩]
    .ok (rows, 0 :: rows.map Row.dir)

/-- MeanWindModelling.py:226-227 and 298-329: the heading for the random number `q` at the given speed -/
noncomputable def sampleHeading (rose : List Row) (speed q : ℝ) : Except PyErr ℝ :=
  match headingTable rose with
  | .error e => .error e
  | .ok (rows, bins) =>
    match rows.mapM (fun r => r.shareAt speed) with
    | .error e => .error e
    | .ok vals => ppf vals bins q

/-- MeanWindModelling.py:215-231 `sampleWindRoses`, after the averaging -/
noncomputable def sampleWind (rose : List Row) (q₁ q₂ : ℝ) : Except PyErr (V3 ℝ) :=
  match sampleSpeed rose q₁ with
  | .error e => .error e
  | .ok v =>
    match sampleHeading rose v q₂ with
    | .error e => .error e
    | .ok h => .ok (v • windDirection h 0)

end Rose

end Mapleaf.ENV
