import Verif.Run.ConvRunModel
import Verif.Run.FigureModel

/-!
# Model: checking and plotting the convergence of curves (MAPLEAF/IO/gridConvergenceFunctions.py:56-322)

A figure is what has been handed to `matplotlib`: the bands and lines with their labels. Colours, styles, limits, axis labels and the summary on
the console are left out. The spline of `scipy` is a parameter. In `plotConvergence` the medium and fine values are numpy numbers, for which a
division by zero gives `inf` or `nan` with a warning; the model raises there, as Python does for its own numbers, and the properties are about
data without such divisions.
-/

namespace Mapleaf.Run.ConvPlot
open Mapleaf Mapleaf.Str Mapleaf.Path Conv

/-! ## Uncertainties -/

/-- how an uncertainty is estimated from order, fine value, medium value, ratio and formal order -/
abbrev Estimator := ℝ → ℝ → ℝ → ℝ → ℝ → Except PyErr ℝ

open Classical in
/-- gridConvergenceFunctions.py:57-64 `uncertainty_FS`. For an order that is not positive `FS` is not assigned; the exception for that,
an UnboundLocalError, is `runtimeError` here. -/
noncomputable def uncFS : Estimator := fun order fine med ratio formal =>
  if formal = 0 then .error .zeroDivision
  else
    let P := order / formal
    if 0 < P ∧ P ≤ 1 then (errorEstimate order fine med ratio).map fun e => (1.6 * P + 2.45 * (1 - P)) * e
    else if 1 < P then (errorEstimate order fine med ratio).map fun e => (1.6 * P + 14.8 * (P - 1)) * e
    else .error .runtimeError

open Classical in
/-- gridConvergenceFunctions.py:66-70 `uncertainty_GCIOR` -/
noncomputable def uncGCIOR : Estimator := fun order fine med ratio _ =>
  if 1.8 < order ∧ order < 2.2 then (errorEstimate order fine med ratio).map fun e => 1.25 * e
  else (errorEstimate order fine med ratio).map fun e => 3 * e

/-- gridConvergenceFunctions.py:72-73 `uncertainty_GCI2g` -/
noncomputable def uncGCI2g : Estimator := fun _ fine med ratio formal => uncertainty fine med ratio formal

/-- gridConvergenceFunctions.py:75-76 `uncertainty_GCIglb` -/
noncomputable def uncGCIglb : Estimator := fun order fine med ratio _ => (errorEstimate order fine med ratio).map fun e => 1.25 * e

/-! ## Checking lists of values -/

/-- the arguments of `checkConvergence` besides the data (gridConvergenceFunctions.py:79-81); the normalisation constant has no effect (93-98) -/
structure Settings where
  ratio : ℝ
  minOrder : ℝ
  maxOrder : ℝ
  orderTol : ℝ
  asympTol : ℝ
  formal : ℝ
  est : Estimator
  useAvg : Bool

/-- coarse, medium and fine value at one place -/
structure Triple where
  coarse : ℝ
  med : ℝ
  fine : ℝ

def eachE {α β : Type} (f : α → Except PyErr β) : List α → Except PyErr (List β)
  | [] => .ok []
  | a :: l => match f a with
    | .error e => .error e
    | .ok b => match eachE f l with
      | .error e => .error e
      | .ok bs => .ok (b :: bs)

open Classical in
/-- gridConvergenceFunctions.py:89-115 `actuallyCheckConvergence` -/
noncomputable def checkPoint (s : Settings) (x : Triple) (p : ℝ) : Except PyErr ConvRun.Check := do
  let g12 ← gci x.med x.fine s.ratio p 3
  let g23 ← gci x.coarse x.med s.ratio p 3
  let a ← asymptotic g12 g23 s.ratio p
  let (g12, g23) ← if (p < s.formal + s.orderTol ∧ p > s.formal - s.orderTol) ∧ |a - 1| < s.asympTol then do
      let x' ← gci x.med x.fine s.ratio p 1.25
      let y' ← gci x.coarse x.med s.ratio p 1.25
      pure (x', y')
    else pure (g12, g23)
  let v ← richardson x.fine x.med s.ratio p
  let u ← s.est p x.fine x.med s.ratio s.formal
  pure ⟨p, g12, g23, a, v, u⟩

/-- gridConvergenceFunctions.py:129-156: the orders of all places, then the checks. `mean` of nothing raises (StatisticsError is a ValueError). -/
noncomputable def checkAll (s : Settings) (xs : List Triple) : Except PyErr (List ℝ × List ConvRun.Check) :=
  match eachE (fun x : Triple => orderOf x.coarse x.med x.fine s.ratio s.minOrder s.maxOrder) xs with
  | .error e => .error e
  | .ok ps =>
    if ps = [] then .error .valueError
    else
      match eachE (fun y : Triple × ℝ => checkPoint s y.1 (if s.useAvg then ps.sum / ps.length else y.2)) (xs.zip ps) with
      | .error e => .error e
      | .ok cs => .ok (ps, cs)

/-- a list, or the number itself if there is only one -/
inductive Column
  | many (l : List ℝ)
  | one (x : ℝ)

/-- gridConvergenceFunctions.py:165-172 -/
def column : List ℝ → Column
  | [x] => .one x
  | l => .many l

/-- what is returned (gridConvergenceFunctions.py:173): `ordersOfConvergence` are always the local orders -/
structure Checks where
  orders : Column
  gci12 : Column
  gci23 : Column
  asym : Column
  extrap : Column
  unc : Column

/-- gridConvergenceFunctions.py:79-173 `checkConvergence` of three lists; `zip` stops with the shortest -/
noncomputable def checkConvergence (s : Settings) (coarse med fine : List ℝ) : Except PyErr Checks :=
  match checkAll s (List.zipWith (fun c y => ⟨c, y.1, y.2⟩) coarse (med.zip fine)) with
  | .error e => .error e
  | .ok (ps, cs) =>
    .ok ⟨column ps, column (cs.map (·.gci12)), column (cs.map (·.gci23)), column (cs.map (·.asym)), column (cs.map (·.extrap)),
      column (cs.map (·.unc))⟩

/-! ## The figures -/

/-- what is drawn: the area between two curves, or a line -/
inductive Mark
  | band (label : Str) (x lo hi : List ℝ)
  | line (label : Str) (x y : List ℝ)

/-- `zip(l, column)`: a number cannot be iterated over -/
def Column.iter : Column → Except PyErr (List ℝ)
  | many l => .ok l
  | one _ => .error .typeError

/-- what `axes.plot` makes of it -/
def Column.values : Column → List ℝ
  | many l => l
  | one x => [x]

/-- `axes.plot`: x and y must have as many entries -/
def line (label : Str) (x y : List ℝ) : Except PyErr Mark :=
  if x.length = y.length then .ok (.line label x y) else .error .valueError

/-- `axes.fill_between` -/
def band (label : Str) (x lo hi : List ℝ) : Except PyErr Mark :=
  if x.length = lo.length ∧ x.length = hi.length then .ok (.band label x lo hi) else .error .valueError

/-- the options of `plotConvergence` that decide what is drawn -/
structure Show where
  uncertainty : Bool
  coarse : Bool
  med : Bool
  fine : Bool
  extrap : Bool

/-- axes and figure handed in for one of the three figures -/
structure Given where
  axes : Bool
  fig : Bool

/-- gridConvergenceFunctions.py:224-244: the marks of the first figure; `c` are the results of the check, `fine` the fine values at `coarseX` -/
noncomputable def resultMarks (sh : Show) (pre : Str) (labels : Str × Str × Str) (coarseX coarseY medX medY fineX fineY fine : List ℝ) (c : Checks) :
    Except PyErr (List Mark) := do
  let b ← (if sh.uncertainty then do
      let u ← c.unc.iter
      let hi := List.zipWith (· + ·) fine u
      let lo := List.zipWith (· - ·) fine u
      let m ← band (pre ++ "Uncertainty".toList) coarseX lo hi
      pure [m]
    else pure [])
  let l1 ← (if sh.coarse then do let m ← line (pre ++ labels.1) coarseX coarseY; pure [m] else pure [])
  let l2 ← (if sh.med then do let m ← line (pre ++ labels.2.1) medX medY; pure [m] else pure [])
  let l3 ← (if sh.fine then do let m ← line (pre ++ labels.2.2) fineX fineY; pure [m] else pure [])
  let l4 ← (if sh.extrap then do let m ← line (pre ++ "_R".toList) coarseX c.extrap.values; pure [m] else pure [])
  pure (b ++ l1 ++ l2 ++ l3 ++ l4)

/-- what is drawn in the three figures; `fresh` says that new axes have been made for one -/
structure Panels where
  results : List Mark
  convergence : List Mark
  uncertainty : List Mark
  fresh : Bool × Bool × Bool
  written : List Str

/-- gridConvergenceFunctions.py:313-317, 324-361: save three figures one after the other; a figure that is `None` fails when it should be
written -/
def saveAll (fs : FS) (dir : Str) (overwrite : Bool) : List (Str × Bool) → List Str → Except PyErr (List Str)
  | [], done => .ok done
  | (name, there) :: rest, done =>
    let new := (Fig.saveFigure fs name dir overwrite true true true).1.filter fun p => overwrite || !(done.contains p)
    if new ≠ [] ∧ there = false then .error .attributeError else saveAll fs dir overwrite rest (done ++ new)

/-- gridConvergenceFunctions.py:176-322 `plotConvergence`. `spline` gives the interpolation of points; `dir` is a directory to save to
(`none` also for a text that is not a directory). The zoomed inset, which shows the marks of the first figure again, is left out. -/
noncomputable def plotConvergence (spline : List ℝ → List ℝ → Except PyErr (ℝ → ℝ)) (fs : FS) (minOrder maxOrder ratio : ℝ) (useAvg : Bool) (sh : Show)
    (pre : Str) (labels : Str × Str × Str) (dir : Option Str) (overwrite : Bool) (g1 g2 g3 : Given) (coarseX coarseY medX medY fineX fineY : List ℝ) :
    Except PyErr Panels := do
  let med ← spline medX medY
  let fine ← spline fineX fineY
  let c ← checkConvergence ⟨ratio, minOrder, maxOrder, 0.2, 0.05, 2, uncFS, useAvg⟩ coarseY (coarseX.map med) (coarseX.map fine)
  let save := dir.isSome
  let fresh1 := !g1.axes || (!g1.fig && save)
  let fresh2 := !g2.axes || (!g2.fig && save)
  let fresh3 := !g3.axes || (!g3.axes && save)
  let results ← resultMarks sh pre labels coarseX coarseY medX medY fineX fineY (coarseX.map fine) c
  let o ← line (pre ++ "Observed order of convergence".toList) coarseX c.orders.values
  let a ← line (pre ++ "Asymptotic check".toList) coarseX c.asym.values
  let u ← line (pre ++ "Uncertainty".toList) coarseX c.unc.values
  let written ← (match dir with
    | none => .ok []
    | some d => saveAll fs d overwrite [("Results".toList, fresh1 || g1.fig), ("Convergence".toList, fresh2 || g2.fig),
        ("Uncertainty".toList, fresh3 || g3.fig)] [])
  .ok ⟨results, [o, a], [u], (fresh1, fresh2, fresh3), written⟩

end Mapleaf.Run.ConvPlot
