import Verif.Base.Str
import Verif.Base.Dict
import Verif.Motion.VecModel
import Mathlib.Analysis.Real.Sqrt

/-!
# Console output, console logs and the Monte Carlo summary

Model of IO/Logging.py:14-190, of the console logging of a simulation (SingleSimulations.py:64-160, 180-203, 313-393), of the
summaries of a Monte Carlo run (IO/Plotting.py:671-751, MonteCarlo.py:147-173), of the rows skipped in an old simulation log
(IO/Plotting.py:163-193) and of the colour palette (IO/Plotting.py:754-770). Text is a list of characters; number formatting,
the pretty-printed default values and the texts printed by other parts are parameters. Plots are left out.
-/

namespace Mapleaf.Console

open Mapleaf Mapleaf.Motion

/-- Logging.py:13-59: a `Logger`: the list it copies to, the message being put together, and whether it writes to the
terminal. Every logger of the code has a list of its own. -/
structure Logger where
  log : List Str
  current : Str
  echo : Bool
  deriving DecidableEq

/-- What was written to the terminal (`sys.__stdout__`), all loggers made so far, and `sys.stdout`: the terminal, or the
logger with that number -/
structure World where
  term : List Str
  loggers : List Logger
  stdout : Option Nat
  deriving DecidableEq

/-- Logging.py:30-33 `write`, and 38-45 for the same lines of `writeLine` -/
def Logger.write (l : Logger) (term : List Str) (msg : Str) : Logger × List Str :=
  ({ l with log := l.log ++ [msg] }, if l.echo then term ++ [msg] else term)

/-- Logging.py:38-45 `writeLine`: without a message, the message put together and a line end -/
def Logger.writeLine (l : Logger) (term : List Str) (msg : Option Str) : Logger × List Str :=
  match msg with
  | none => ({ l with current := [] } : Logger).write term (l.current ++ "\n".toList)
  | some m => l.write term m

/-- Logging.py:47-48 `addToLine` -/
def Logger.addToLine (l : Logger) (msg : Str) : Logger := { l with current := l.current ++ msg }

/-- Logging.py:56-59 `writeLogToFile`: the contents of the file afterwards; `old`: its contents before, if it exists -/
def Logger.writeToFile (l : Logger) (overwrite : Bool) (old : Option Str) : Option Str :=
  if overwrite || old.isNone then some l.log.flatten else old

/-- Python's `sys.stdout.write(msg)` -/
def emit (w : World) (msg : Str) : World :=
  match w.stdout with
  | none => { w with term := w.term ++ [msg] }
  | some i =>
    match w.loggers[i]? with
    | none => w
    | some l =>
      let r := l.write w.term msg
      { w with loggers := w.loggers.set i r.1, term := r.2 }

/-- Python's `print(s)`: the text, then a line end -/
def print (w : World) (s : Str) : World := emit (emit w s) "\n".toList

/-- `print` of several texts in turn -/
def prints (w : World) (ss : List Str) : World := ss.foldl print w

/-- `sys.stdout = Logger([], echo)` (SingleSimulations.py:183-188, 200-203; Batch.py:221) -/
def install (w : World) (echo : Bool) : World :=
  { w with loggers := w.loggers ++ [⟨[], [], echo⟩], stdout := some w.loggers.length }

/-- Logging.py:91-92 `removeLogger` -/
def removeLogger (w : World) : World := { w with stdout := none }

/-- `sys.stdout.log += lines`: added to the list only -/
def addToLog (w : World) (lines : List Str) : World :=
  match w.stdout with
  | none => w
  | some i =>
    match w.loggers[i]? with
    | none => w
    | some l => { w with loggers := w.loggers.set i { l with log := l.log ++ lines } }

/-- `sys.stdout.continueWritingToTerminal = b`; without effect on the terminal itself -/
def setEcho (w : World) (b : Bool) : World :=
  match w.stdout with
  | none => w
  | some i =>
    match w.loggers[i]? with
    | none => w
    | some l => { w with loggers := w.loggers.set i { l with echo := b } }

/-- The text of the log of the current logger -/
def logText (w : World) : Str :=
  match w.stdout with
  | none => []
  | some i => ((w.loggers[i]?).map (fun l => l.log.flatten)).getD []

/-- The `lru_cache(maxsize=1)` of `getSystemInfo` (Logging.py:116): the argument and the result of the last call -/
abbrev InfoCache := Option (Bool × List Str)

/-- Logging.py:116-161 `getSystemInfo`: `info` is what would be found out now (version, commit, date, user, system). A call
with the argument of the last call returns that call's result without doing anything. -/
def getSystemInfo (w : World) (c : InfoCache) (printToConsole : Bool) (info : List Str) : World × InfoCache × List Str :=
  match c with
  | some (k, v) =>
    if k = printToConsole then (w, c, v)
    else (if printToConsole then prints w info else w, some (printToConsole, info), info)
  | none => (if printToConsole then prints w info else w, some (printToConsole, info), info)

/-- Logging.py:163-190 `getSimDefinitionAndDefaultValueDictsForOutput`. Adding a string to a list adds its characters one by
one. `file`: name of the definition file, `text`: the printed definition, `defaults`: the printed default values. -/
def definitionDump (w : World) (file text defaults : Str) (printToConsole : Bool) : World × List Str :=
  let w := print w ("# Using sim definition file: ".toList ++ file)
  let lines := ["\n---- Start Sim Definition File ----\n".toList] ++ text.map (fun c => [c])
    ++ ["\n---- End Sim Definition File ----\n\n".toList]
    ++ ["\n---- Start Default Value Dictionary ----\n".toList, defaults, "\n---- End Default Value Dictionary ----\n\n".toList]
  (if printToConsole then prints w lines else w, lines)

/-- What is printed in a simulation, and how it goes. `level`: logging level, `timed`: the end condition is a time,
`info`: system information, `during`: printed while stepping, `crash`: the stack trace if a step fails, `used`/`unused`: lists
of default values used and of unused keys, `writing`: printed while the log files are written, `path`: of the console log. -/
structure Session where
  level : Int
  silent : Bool
  timed : Bool
  info : List Str
  file : Str
  text : Str
  defaults : Str
  during : List Str
  crash : Option Str
  used : List Str
  writing : List Str
  path : Str
  unused : List Str

/-- SingleSimulations.py:180-203 `_setUpConsoleLogging` -/
def setUp (s : Session) (w : World) (c : InfoCache) : World × InfoCache :=
  if 0 < s.level then
    let w := install w (!s.silent)
    let r := getSystemInfo w c true s.info
    let d := definitionDump r.1 s.file s.text s.defaults false
    let w := addToLog d.1 d.2
    (prints w ["Starting Simulation:".toList, "Time(s) Altitude(m,ASL)".toList], r.2.1)
  else if s.silent then (install w false, c)
  else (w, c)

/-- SingleSimulations.py:330-393: printing of default values, then the log file, as much as concerns the console. The file
gets what is in the log when it is written. -/
def postProcess (s : Session) (w : World) : World × Option Str :=
  let w := prints w s.used
  if 0 < s.level then
    let w := prints w (s.writing ++ ["Writing log file: ".toList ++ s.path])
    (prints w s.unused, some (logText w))
  else (prints w s.unused, none)

/-- SingleSimulations.py:64-160 `Simulation.run` with 313-328 `_handleSimulationCrash`: the world afterwards, the console log
file, and the exit status if the program ends (`sys.exit()`: 0) -/
def session (s : Session) (w : World) (c : InfoCache) : World × InfoCache × Option Str × Option Nat :=
  let r := setUp s w c
  let w := r.1
  -- 71-80: only a simulation with a log has `self.logger`
  let w := if s.timed ∧ 0 < s.level then setEcho w false else w
  let w := prints w s.during
  -- 116-124, 147-153
  let w := if s.timed ∧ s.silent = false then setEcho w true else w
  match s.crash with
  | none =>
    let w := print w "Simulation Complete".toList
    let p := postProcess s w
    (p.1, r.2, p.2, none)
  | some trace =>
    let w := prints w ["ERROR: Simulation Crashed, Aborting".toList, "Attempting to save log files and show plots".toList]
    let p := postProcess s w
    let w := prints p.1 ["Attempting to show stack trace".toList, trace, "Exiting".toList]
    (w, r.2, p.2, some 0)

/-! ## Monte Carlo log and summaries -/

/-- Logging.py:84-87: an entry as written to the file -/
def withLineEnd (line : Str) : Str :=
  match line.getLast? with
  | none => line ++ "\n".toList
  | some c => if c ≠ '\n' then line ++ "\n".toList else line

/-- Logging.py:74-89 `MonteCarloLogger.writeToFile`: the text of the file -/
def mcFile (log : List Str) : Str := (log.map withLineEnd).flatten

/-- Formatting of numbers: `{}`, `{:>8.1f}`, and `{:>7.1f}` of a vector -/
structure Format where
  show_ : ℝ → Str
  fixed : ℝ → Str
  vec : V3 ℝ → Str

/-- `statistics.mean`: raises for an empty list -/
noncomputable def mean (l : List ℝ) : Except PyErr ℝ := if l.length = 0 then .error .valueError else .ok (l.sum / l.length)

/-- `statistics.stdev`: raises for fewer than two numbers -/
noncomputable def stdev (l : List ℝ) : Except PyErr ℝ :=
  if l.length < 2 then .error .valueError
  else .ok (Real.sqrt ((l.map (fun x => (x - l.sum / l.length) ^ 2)).sum / ((l.length : ℝ) - 1)))

/-- "Simulation #i: " lines -/
def numbered {α : Type} (sep : Str) (f : α → Str) (l : List α) : List Str :=
  (l.zipIdx 1).map (fun p => "Simulation #".toList ++ Nat.toDigits 10 p.2 ++ sep ++ f p.1)

/-- Plotting.py:723-742: the lines of `plotAndSummarizeScalarResult` -/
noncomputable def scalarLines (F : Format) (name : Str) (l : List ℝ) : Except PyErr (List Str) :=
  match mean l with
  | .error e => .error e
  | .ok m =>
    match stdev l with
    | .error e => .error e
    | .ok sd =>
      .ok ([name ++ "s:".toList] ++ numbered ": ".toList F.show_ l
        ++ [[], "Mean ".toList ++ name ++ ":        ".toList ++ F.fixed m, "Standard Deviation: ".toList ++ F.fixed sd, []])

/-- Plotting.py:671-699: the lines of `plotAndSummarizeVectorResult` -/
noncomputable def vectorLines (F : Format) (name : Str) (l : List (V3 ℝ)) : Except PyErr (List Str) := do
  let mx ← mean (l.map V3.x)
  let my ← mean (l.map V3.y)
  let mz ← mean (l.map V3.z)
  let sx ← stdev (l.map V3.x)
  let sy ← stdev (l.map V3.y)
  let sz ← stdev (l.map V3.z)
  .ok ([name ++ "s:   X       Y        Z".toList] ++ numbered ":   ".toList F.vec l
    ++ [[], "Mean ".toList ++ name ++ ": (".toList ++ F.fixed mx ++ " ".toList ++ F.fixed my ++ " ".toList ++ F.fixed mz ++ ")".toList,
        "Standard deviation:    (".toList ++ F.fixed sx ++ " ".toList ++ F.fixed sy ++ " ".toList ++ F.fixed sz ++ ")".toList, []])

/-- MonteCarlo.py:38-44: what was collected -/
structure Results where
  landing : List (V3 ℝ)
  apogees : List ℝ
  speeds : List ℝ
  times : List ℝ
  horizontal : List ℝ

/-- MonteCarlo.py:147-165: the lines of one requested quantity, none if it was not requested -/
def requested (output key : Str) (lines : Except PyErr (List Str)) : Except PyErr (List Str) :=
  if Str.isIn key output then lines else .ok []

/-- MonteCarlo.py:147-163: what is logged at the end -/
noncomputable def summary (F : Format) (output : Str) (r : Results) : Except PyErr (List Str) := do
  let a ← requested output "landingLocations".toList (vectorLines F "Landing location".toList r.landing)
  let b ← requested output "apogees".toList (scalarLines F "Apogee".toList r.apogees)
  let c ← requested output "maxSpeeds".toList (scalarLines F "Max speed".toList r.speeds)
  let d ← requested output "flightTimes".toList (scalarLines F "Flight time".toList r.times)
  let e ← requested output "maxHorizontalVels".toList (scalarLines F "Max horizontal speed".toList r.horizontal)
  .ok ([[], "Monte Carlo results:".toList] ++ a ++ b ++ c ++ d ++ e)

/-- MonteCarlo.py:147-173 `_showResults`: the Monte Carlo log file, if one is written; `log`: what was logged before -/
noncomputable def showResults (F : Format) (output : Str) (r : Results) (log : List Str) : Except PyErr (Option Str) :=
  match summary F output r with
  | .error e => .error e
  | .ok lines =>
    if output ≠ "None".toList ∧ 0 < output.length then .ok (some (mcFile (log ++ lines))) else .ok none

/-! ## Reading an old log, colours -/

/-- Plotting.py:169-171: the number of the first line that starts with "Time" -/
def headerLine : List Str → Except PyErr Nat
  | [] => .error .indexError
  | l :: ls =>
    if "Time".toList.isPrefixOf l then .ok 0
    else match headerLine ls with
      | .error e => .error e
      | .ok n => .ok (n + 1)

/-- Plotting.py:181-188: the numbers of the lines whose first word is not a number, and the last line starting with
"Computing" -/
def scanRows (isNum : Str → Bool) : Nat → List Str → List Nat × Option Nat
  | _, [] => ([], none)
  | i, l :: ls =>
    let r := scanRows isNum (i + 1) ls
    match Str.wsSplit l with
    | [] => r
    | t :: _ =>
      if isNum t then r
      else (i :: r.1, if r.2.isNone && decide (t = "Computing".toList) then some i else r.2)

/-- Plotting.py:163-193 `_getSkipRowsAndFooters_mainSimLog`: rows to skip, and number of lines to skip at the end -/
def skipRows (isNum : Str → Bool) (lines : List Str) : Except PyErr (List Nat × Nat) :=
  match headerLine lines with
  | .error e => .error e
  | .ok h =>
    if ¬ "Simulation Complete\n".toList ∈ lines then .error .valueError
    else if h = 0 then .error .indexError
    else
      let fin := lines.idxOf "Simulation Complete\n".toList
      let r := scanRows isNum (h + 1) ((lines.take fin).drop (h + 1))
      .ok (List.range h ++ r.1, lines.length - r.2.getD fin)

/-- `pandas.read_csv` with these parameters: the lines that are read, in order -/
def rowsRead (skip : List Nat × Nat) (lines : List Str) : List Str :=
  (((lines.zipIdx).take (lines.length - skip.2)).filter (fun p => p.2 ∉ skip.1)).map Prod.fst

/-- Plotting.py:754-770 `getColorPalette` -/
def colorPalette (n : Int) : Except PyErr (List String) :=
  if 8 < n then .error .valueError
  else if n < 3 then .error .valueError
  else match n with
    | 3 => .ok ["#003f5c", "#bc5090", "#ffa600"]
    | 4 => .ok ["#003f5c", "#7a5195", "#ef5675", "#ffa600"]
    | 5 => .ok ["#003f5c", "#58508d", "#bc5090", "#ff6361", "#ffa600"]
    | 6 => .ok ["#003f5c", "#444e86", "#955196", "#dd5182", "#ff6e54", "#ffa600"]
    | 7 => .ok ["#003f5c", "#374c80", "#7a5195", "#bc5090", "#ef5675", "#ff764a", "#ffa600"]
    | 8 => .ok ["#003f5c", "#2f4b7c", "#665191", "#a05195", "#d45087", "#f95d6a", "#ff7c43", "#ffa600"]
    | _ => .error .keyError

end Mapleaf.Console
