import Verif.Base.Str
import Verif.Motion.InterpModel
import Verif.Motion.VecModel
import Verif.ENV.EarthModel
import Mathlib.Analysis.SpecialFunctions.Pow.Real

/-!
# Model of the mean wind models and the radiosonde reader (MAPLEAF/ENV/MeanWindModelling.py)

Wind rose sampling (lines 199-329: pandas tables and scipy random variables) is not modelled.
-/

namespace Mapleaf.ENV
open Mapleaf.Motion

/-- MeanWindModelling.py:139-140 `ConstantWind.getMeanWind` -/
def constantWind (wind : V3 ℝ) (_altitude : ℝ) : V3 ℝ := wind

/-- MeanWindModelling.py:159-163 `Hellman.getMeanWind` -/
noncomputable def hellmanWind (ground : V3 ℝ) (limit alpha altitude : ℝ) : V3 ℝ :=
  ((max (min limit altitude) 10 / 10) ^ alpha) • ground

/-- MeanWindModelling.py:180-188 and 195-196 `InterpolatedWind.getMeanWind` -/
noncomputable def interpolatedWind (altitudes : List ℝ) (winds : List (V3 ℝ)) (altitude : ℝ) : Except PyErr (V3 ℝ) :=
  linInterp altitudes winds altitude

/-- MeanWindModelling.py:487-499 `_convertWindHeadingToXYPlaneWindDirection` -/
noncomputable def windDirection (heading angle : ℝ) : V3 ℝ :=
  (-1 : ℝ) • ⟨Real.sin (radians (heading + angle)), Real.cos (radians (heading + angle)), 0⟩

namespace Sonde

/-- MeanWindModelling.py:410 -/
def monthList : List Str := ["noZerothMonth", "Jan", "Feb", "Mar", "Apr", "May", "Jun", "Jul", "Aug", "Sep", "Oct", "Nov",
  "Dec"].map String.toList

/-- MeanWindModelling.py:404-411: `none` for no filter, otherwise the month number -/
def monthFilter (filterByMonth : Option Str) : Except PyErr (Option Nat) :=
  match filterByMonth with
  | none => .ok none
  | some m =>
    if m = "Yearly".toList then .ok none
    else
      match monthList.findIdx? (· = m) with
      | some i => .ok (some i)
      | none => .error .valueError

/-- MeanWindModelling.py:418: is this line the header of a sounding of the wanted month? `int` is Python's conversion of text to
an integer (`none` where it raises). -/
def isStart (int : Str → Option Int) (month : Option Nat) (line : Str) : Except PyErr Bool :=
  match line with
  | [] => .error .indexError
  | c :: _ =>
    if c = '#' then
      match month with
      | none => .ok true
      | some m =>
        match (Str.wsSplit line)[2]? with
        | none => .error .indexError
        | some w =>
          match int w with
          | none => .error .valueError
          | some k => .ok (decide (k = (m : Int)))
    else .ok false

/-- MeanWindModelling.py:413-422: the loop collecting the start lines, from line `i` on -/
def startLines (int : Str → Option Int) (month : Option Nat) : Nat → List Str → Except PyErr (List Nat)
  | _, [] => .ok []
  | i, l :: ls =>
    match isStart int month l with
    | .error e => .error e
    | .ok b =>
      match startLines int month (i + 1) ls with
      | .error e => .error e
      | .ok r => .ok (if b then i :: r else r)

/-- MeanWindModelling.py:435-437: the loop collecting a dataset, from line `i` on -/
def collect (data : List Str) (i : Nat) : Except PyErr (List Str) :=
  if h : i < data.length then
    match data[i] with
    | [] => .error .indexError
    | c :: cs =>
      if c ≠ '#' then
        match collect data (i + 1) with
        | .error e => .error e
        | .ok r => .ok ((c :: cs) :: r)
      else .ok []
  else .ok []
termination_by data.length - i

/-- MeanWindModelling.py:424-439 `_extractRadioSondeDataSet` -/
def extract (starts : List Nat) (data : List Str) (k : Int) : Except PyErr (Str × List Str) :=
  match pyGet starts k with
  | .error e => .error e
  | .ok s =>
    match data[s]? with
    | none => .error .indexError
    | some header =>
      match collect data (s + 1) with
      | .error e => .error e
      | .ok ds => .ok (header, ds)

/-- MeanWindModelling.py:469: `[ float(x) for x in line.split() ]` -/
def parseLine (float : Str → Option ℝ) (line : Str) : Except PyErr (List ℝ) :=
  match (Str.wsSplit line).mapM float with
  | none => .error .valueError
  | some r => .ok r

/-- MeanWindModelling.py:456-485 `_parseRadioSondeData`. Building the array fails or the column access raises unless all rows have
the same number of columns and that is at least three. `argsort` is numpy's, of which only that it returns a sorting
permutation is assumed (it is not stable). -/
noncomputable def parse (float : Str → Option ℝ) (argsort : List ℝ → List Nat) (data : List Str) (asl : ℝ) :
    Except PyErr (List ℝ × List (V3 ℝ)) :=
  match data.mapM (parseLine float) with
  | .error e => .error e
  | .ok rows =>
    match rows with
    | [] => .error .indexError
    | r0 :: _ =>
      if r0.length < 3 ∨ ¬ rows.all (fun r => r.length = r0.length) then .error .indexError
      else
        let sorted := (argsort (rows.map fun r => r.getD 0 0)).map fun i => rows.getD i []
        .ok (sorted.map (fun r => r.getD 0 0 - asl),
          sorted.map (fun r => (r.getD 2 0 / 10) • windDirection (r.getD 1 0) 0))

/-- MAPLEAF/Examples/Wind/filterRadioSondeData.py:13-25: the line written for a line read, if any -/
def filterLine (raw : Str) : Except PyErr (Option Str) :=
  let line := Str.strip raw
  match line with
  | [] => .error .indexError
  | c :: _ =>
    let lastN := fun n => line.drop (line.length - n)
    let alt := (line.drop 16).take 5
    if c = '#' then .ok (some (line ++ ['\n']))
    else if lastN 5 ≠ "-9999".toList ∧ alt ≠ "-9999".toList then .ok (some (alt ++ [' '] ++ lastN 11 ++ ['\n']))
    else .ok none

end Sonde

end Mapleaf.ENV
