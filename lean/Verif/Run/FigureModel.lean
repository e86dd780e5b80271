import Verif.Log.PlotModel
import Verif.SimDef.PathModel
import Verif.Rocket.PartModel
import Verif.Run.CaseModel

/-!
# Model: the figures of a batch run (MAPLEAF/SimulationRunners/Batch.py:541-785, 854-868, MAPLEAF/IO/gridConvergenceFunctions.py:324-362)

A figure is what has been handed to `matplotlib`: the marks drawn, limits, scales, labels. A dictionary is a `Reader`; `sheet` is the
table `getLoggedColumns` finds for a path (`Verif.Log.PlotModel` says which). Formats are taken to be valid format texts, data to be
numbers. Warnings are counted; other messages on the console are left out. An exception leaves `_generatePlot`, so what was drawn
before it is of no consequence.
-/

namespace Mapleaf.Run.Fig
open Mapleaf Mapleaf.Str Mapleaf.LogM Mapleaf.Path
open Mapleaf.Rocket (Reader)

/-! ## reading -/

section read
variable {K : Type}

/-- subDictReader.py:52-56 `tryGetString` -/
def tryText (r : Reader K) (key default : Str) : Except PyErr Str :=
  match r.text key with
  | .ok s => .ok s
  | .error .keyError => .ok default
  | .error e => .error e

/-- subDictReader.py:64-68 `tryGetFloat` -/
def tryNumber (r : Reader K) (key : Str) (default : K) : Except PyErr K := do
  let x ← r.tryGetFloat key
  .ok (x.getD default)

/-- `distutils.util.strtobool` -/
def strtobool (s : Str) : Except PyErr Bool :=
  let v := s.map Char.toLower
  if v ∈ ["y".toList, "yes".toList, "t".toList, "true".toList, "on".toList, "1".toList] then .ok true
  else if v ∈ ["n".toList, "no".toList, "f".toList, "false".toList, "off".toList, "0".toList] then .ok false
  else .error .valueError

/-- subDictReader.py:76-80 `tryGetBool` -/
def tryFlag (r : Reader K) (key : Str) (default : Bool) : Except PyErr Bool :=
  match r.text key with
  | .ok s => strtobool s
  | .error .keyError => .ok default
  | .error e => .error e

/-- Batch.py:854-868 `_latexLabelTranslation`. In the first key `\a` is the character 7; the other keys are their own translations. -/
def latexLabel (s : Str) : Str :=
  if s = '$' :: Char.ofNat 7 :: "lpha$".toList then "$\\alpha$".toList else s

/-- Batch.py:662-673: the limits asked for and whether the text is the single word `False` -/
def limits (float : Str → Option K) (text : Str) : Except PyErr (Option (K × K) × Bool) :=
  match wsSplit text with
  | [] => .error .indexError
  | a :: l =>
    if a = "False".toList then .ok (none, decide (l = []))
    else
      match float a with
      | none => .error .valueError
      | some lo =>
        match l with
        | [] => .error .indexError
        | b :: _ =>
          match float b with
          | none => .error .valueError
          | some hi => .ok (some (lo, hi), false)

/-- what `_setUpFigure` returns and has set -/
structure Settings (K : Type) where
  specs : List Str
  x : Str
  formats : List Str
  colors : List Str
  labels : List (Option Str)
  scale : K
  offset : K
  xLim : Option (K × K)
  fitX : Bool
  yLim : Option (K × K)
  fitY : Bool
  xScale : Str
  yScale : Str
  xLabel : Str
  yLabel : Str

/-- Batch.py:652-657: labels for `n` lines; the specifications continue a list that is too short -/
def legendLabels (text : Str) (n : Nat) (specs : List Str) : List (Option Str) :=
  let l := splitC ',' text
  if l ≠ ["None".toList] then (l ++ (specs.take n).drop l.length).map some
  else List.replicate n none

/-- Batch.py:631-691 `_setUpFigure`. Without columns it returns nothing, and unpacking that (556) raises `TypeError`. `known` are the
scales of `matplotlib`; an unknown one raises `ValueError`. -/
def setUp [OfNat K 0] [OfNat K 1] (known : Str → Bool) (r : Reader K) : Except PyErr (Settings K) := do
  let columns ← tryText r "columnsToPlot".toList []
  let specs := wsSplit columns
  match specs with
  | [] => .error .typeError
  | first :: _ =>
    let n := specs.length
    let x ← tryText r "xColumnName".toList "Time(s)".toList
    let specs := if x ∈ specs then specs else specs ++ [x]
    let formats ← tryText r "lineFormat".toList "y--".toList
    let formats := wsSplit formats ++ List.replicate (n - (wsSplit formats).length) []
    let colors ← tryText r "lineColors".toList []
    let labels ← tryText r "legendLabel".toList first
    let scale ← tryNumber r "scalingFactor".toList 1
    let offset ← tryNumber r "offset".toList 0
    let xl ← tryText r "xLimits".toList "False".toList
    let xl ← limits r.float xl
    let yl ← tryText r "yLimits".toList "False".toList
    let yl ← limits r.float yl
    let ys ← tryText r "yScale".toList "linear".toList
    if ys ≠ "linear".toList ∧ known ys = false then .error .valueError
    else
      let xs ← tryText r "xScale".toList "linear".toList
      if xs ≠ "linear".toList ∧ known xs = false then .error .valueError
      else
        let xLabel ← tryText r "xLabel".toList x
        let yLabel ← tryText r "yLabel".toList first
        .ok ⟨specs, x, formats, wsSplit colors, legendLabels labels n specs, scale, offset, xl.1, xl.2, yl.1, yl.2, "linear".toList,
          if xs ≠ "linear".toList then xs else ys, latexLabel xLabel, latexLabel yLabel⟩

end read

/-! ## drawing -/

section draw
variable {K : Type}

/-- a line (with a format) or points -/
structure Mark (K : Type) where
  x : List K
  y : List K
  format : Option Str
  color : Option Str
  label : Option Str
  width : K
  deriving DecidableEq

/-- Batch.py:757-762: takes the first column called `name` -/
def popX (name : Str) : Sheet K → Option (List K) × Sheet K
  | [] => (none, [])
  | c :: cs => if c.1 = name then (some c.2, cs) else ((popX name cs).1, c :: (popX name cs).2)

/-- how the marks look: formats, colours, labels, width -/
structure Style (K : Type) where
  formats : List Str
  colors : List Str
  labels : List (Option Str)
  width : K

/-- Batch.py:773-784: the mark for column number `i` -/
def drawOne (st : Style K) (xs : List K) (i : Nat) (ys : List K) : Except PyErr (Mark K) :=
  match st.labels[i]? with
  | none => .error .indexError
  | some label =>
    if 1 < xs.length then
      match st.formats[i]? with
      | none => .error .indexError
      | some f => if xs.length ≠ ys.length then .error .valueError else .ok ⟨xs, ys, some f, st.colors[i]?, label, st.width⟩
    else if xs.length ≠ ys.length then .error .valueError
    else .ok ⟨xs, ys, none, st.colors[i]?, label, st.width⟩

/-- Batch.py:772-784: the loop, from column number `i` -/
def drawFrom (st : Style K) (xs : List K) : Nat → Sheet K → Except PyErr (List (Mark K))
  | _, [] => .ok []
  | i, c :: cs => do
    let m ← drawOne st xs i c.2
    let rest ← drawFrom st xs (i + 1) cs
    .ok (m :: rest)

/-- what `_plotData` leaves behind -/
structure Drawn (K : Type) where
  marks : List (Mark K)
  x : List K
  cols : Sheet K
  fit : Option (K × K)
  deriving DecidableEq

/-- Batch.py:746-785 `_plotData`; `labels` gives the labels from the names that are left when the column for `x` is taken out
(728: the list of names is itself the list of labels) -/
def plotData [Mul K] [Add K] (cols : Sheet K) (x : Str) (st : List Str → Style K) (scale offset : K) (fit : Bool) :
    Except PyErr (Drawn K) := do
  let p := popX x cols
  let xs := p.1.getD []
  let lim ← if fit then
      match xs.head?, xs.getLast? with
      | some a, some b => Except.ok (some (a, b))
      | _, _ => .error .indexError
    else .ok none
  let scaled := p.2.map fun c => (c.1, c.2.map fun v => scale * v + offset)
  let marks ← drawFrom (st (scaled.map Prod.fst)) xs 0 scaled
  .ok ⟨marks, xs, scaled, lim⟩

/-- Batch.py:559-561 and the axes -/
structure Acc (K : Type) where
  names : List Str
  X : List (List K)
  Y : List (List K)
  marks : List (Mark K)
  lim : Option (K × K)

/-- Batch.py:562-578: one log file -/
def stepLog [Mul K] [Add K] [OfNat K 3] (rx : Regex) (sheet : Files K) (s : Settings K) (acc : Acc K) (path : Str) :
    Except PyErr (Acc K) := do
  let df ← sheet path
  let cols ← pick rx acc.names df s.specs
  if 1 < cols.length then
    let d ← plotData cols s.x (fun _ => ⟨s.formats, s.colors, s.labels, 3⟩) s.scale s.offset s.fitX
    let new := d.cols.filter fun c => c.1 ≠ s.x
    .ok ⟨acc.names ++ new.map Prod.fst, acc.X ++ d.cols.map (fun _ => d.x), acc.Y ++ new.map Prod.snd, acc.marks ++ d.marks,
      match d.fit with
      | some l => some l
      | none => acc.lim⟩
  else .ok acc

/-- Batch.py:559-578 -/
def plotLogs [Mul K] [Add K] [OfNat K 3] (rx : Regex) (sheet : Files K) (s : Settings K) (paths : List Str) : Except PyErr (Acc K) :=
  paths.foldlM (stepLog rx sheet s) ⟨[], [], [], [], s.xLim⟩

/-! ## comparison data -/

/-- what `_plotComparisonData` draws, returns, and how many warnings it gives -/
structure Compared (K : Type) where
  marks : List (Mark K)
  cols : Sheet K
  x : List K
  warnings : Nat
  deriving DecidableEq

/-- Batch.py:707-712: where the file is looked for -/
def located (fs : FS) (install : PPath) (path : Str) : Str :=
  if fs.there path then path
  else
    let other := getAbsoluteFilePath fs install path none
    if fs.there other then other else path

/-- Batch.py:693-744 `_plotComparisonData` -/
def compareData [Mul K] [Add K] [Div K] [OfNat K 0] [OfNat K 1] [OfNat K 2] [OfNat K 3] (rx : Regex) (sheet : Files K) (fs : FS) (install : PPath)
    (r : Reader K) : Except PyErr (Compared K) := do
  let path ← tryText r "file".toList []
  let specs ← tryText r "columnsToPlot".toList []
  let specs := wsSplit specs
  let x ← tryText r "xColumnName".toList "Time(s)".toList
  let formats ← tryText r "lineFormat".toList "k-".toList
  let formats := wsSplit formats
  let labels ← tryText r "legendLabel".toList []
  let labels := splitC ',' labels
  let scale ← tryNumber r "scalingFactor".toList 1
  let colors ← tryText r "lineColors".toList []
  let hasPath := match r.text "file".toList with
    | .ok _ => true
    | .error _ => false
  if hasPath = true ∧ specs ≠ [] then
    let specs := if x ∈ specs then specs else specs ++ [x]
    match sheet (located fs install path) with
    | .error .fileNotFound => .ok ⟨[], [], [], 1⟩
    | .error e => .error e
    | .ok df =>
      let cols ← pick rx [] df specs
      let few := if cols.length < specs.length then 1 else 0
      if x ∉ cols.map Prod.fst then .ok ⟨[], [], [], few + 1⟩
      else if cols.length ≠ formats.length + 1 then .ok ⟨[], [], [], few + 1⟩
      else
        let d ← plotData cols x
          (fun names => ⟨formats, wsSplit colors, if labels = [[]] then names.map some else labels.map some, 3 / 2⟩) scale 0 false
        .ok ⟨d.marks, d.cols, d.x, few⟩
  else .ok ⟨[], [], [], 1⟩

/-- Batch.py:587-594: whether the comparison data are those to validate -/
def toValidate (target dict : Str) (valNames names : List Str) (flag : Bool) : Bool :=
  flag && (isIn target dict && decide (valNames.length = 1) ||
    decide (valNames.length = 1) && (valNames.head?.map (isIn target)).getD false ||
    decide (names.length = 1) && (names.head?.map (isIn target)).getD false) && decide (0 < valNames.length)

/-- the comparison data of a figure so far -/
structure Checked (K : Type) where
  marks : List (Mark K)
  warnings : Nat
  errors : List (Str × K)

/-- Batch.py:583-597: one dictionary of comparison data -/
def stepComp [Field K] [LinearOrder K] (rx : Regex) (sheet : Files K) (fs : FS) (install : PPath) (reader : Str → Reader K)
    (target : Option Str) (acc : Acc K) (st : Checked K) (dict : Str) : Except PyErr (Checked K) := do
  let c ← compareData rx sheet fs install (reader dict)
  let flag ← tryFlag (reader dict) "validationData".toList true
  let st := { st with marks := st.marks ++ c.marks, warnings := st.warnings + c.warnings }
  match target with
  | none => .ok st
  | some t =>
    if toValidate t dict (c.cols.map Prod.fst) acc.names flag then
      let v ← CaseM.validate acc.X acc.Y (c.cols.map Prod.snd) c.x
      match v with
      | none => .ok { st with warnings := st.warnings + 1 }
      | some e => .ok { st with errors := st.errors ++ [(dict, e)] }
    else .ok st

end draw

/-! ## saving -/

/-- `os.path.dirname` -/
def dirname (p : Str) : Str :=
  let head := (p.reverse.dropWhile (· ≠ '/')).reverse
  if head.all (· = '/') then head else (head.reverse.dropWhile (· = '/')).reverse

/-- `os.path.basename` -/
def basename (p : Str) : Str := (p.reverse.takeWhile (· ≠ '/')).reverse

/-- gridConvergenceFunctions.py:332-340 `getNoExtensionFilePath` -/
def noExtension (p : Str) : Str :=
  if '.' ∈ p then ((p.reverse.dropWhile (· ≠ '.')).drop 1).reverse else p

/-- gridConvergenceFunctions.py:324-362 `saveFigureAndPrintNotification`: the files written and those returned -/
def saveFigure (fs : FS) (fileName directory : Str) (overwrite png eps pdf : Bool) : List Str × List Str :=
  let base := noExtension (directory ++ '/' :: fileName)
  let all := (if png then [base ++ ".png".toList] else []) ++ (if eps then [base ++ ".eps".toList] else []) ++
    (if pdf then [base ++ ".pdf".toList] else [])
  (all.filter fun p => overwrite || !fs.there p, all)

/-- Batch.py:615-624: the directory the figure is saved to; one that is found nowhere is created -/
def saveDirectory (fs : FS) (install : PPath) (directory : Str) : Str :=
  if fs.there directory then directory
  else
    let other := install.under (PPath.ofStr directory)
    if fs.there other.str then other.str else directory

/-! ## a figure -/

section figure
variable {K : Type}

/-- a finished figure -/
structure Figure (K : Type) where
  settings : Settings K
  marks : List (Mark K)
  xLim : Option (K × K)
  legend : Bool
  warnings : Nat
  errors : List (Str × K)
  written : List Str
  returned : List Str

/-- a label that `get_legend_handles_labels` lists -/
def visible (m : Mark K) : Bool :=
  match m.label with
  | some (c :: _) => decide (c ≠ '_')
  | _ => false

/-- Batch.py:542-629 `_generatePlot`; `comps` are the sorted dictionaries inside the plot's dictionary -/
def generate [Field K] [LinearOrder K] (rx : Regex) (sheet : Files K) (fs : FS) (install : PPath) (known : Str → Bool)
    (reader : Str → Reader K) (plot : Str) (comps : List Str) (target : Option Str) (logs : List Str) : Except PyErr (Figure K) := do
  let s ← setUp known (reader plot)
  let acc ← plotLogs rx sheet s logs
  let st ← comps.foldlM (stepComp rx sheet fs install reader target acc) ⟨acc.marks, 0, []⟩
  let location ← (reader plot).text "saveLocation".toList
  let overwrite ← tryFlag (reader plot) "overwrite".toList true
  let saved := saveFigure fs (basename location) (saveDirectory fs install (dirname location)) overwrite true false true
  .ok ⟨s, st.marks, acc.lim, st.marks.any visible, st.warnings, st.errors, saved.1, saved.2⟩

end figure

end Mapleaf.Run.Fig
