import Verif.Base.Dict
import Verif.Base.Str

/-!
# Numbered file names and results folders

Model of `findNextAvailableNumberedFileName` (IO/Logging.py:94-107) and of the creation of results folders
by several processes at once (`_logSimulationResults`, SimulationRunners/SingleSimulations.py:351-381).

`os.path.exists` and `os.mkdir` are atomic: `mkdir` fails with `FileExistsError` exactly when the name
exists.  Other operating-system errors (missing parent directory, permissions) are not modelled.
-/

namespace Mapleaf.Run

/-- Logging.py:99, 104: `fileBaseName + str(fileNumber) + extension` -/
def numberedName (base ext : Str) (n : Nat) : Str := base ++ Nat.toDigits 10 n ++ ext

/-- The loop of Logging.py:101-105 from number `n`; unbounded in the program, hence the fuel -/
def findFrom (files : List Str) (base ext : Str) : Nat → Nat → Except PyErr Str
  | 0, _ => .error .outOfFuel
  | fuel + 1, n =>
    if numberedName base ext n ∈ files then findFrom files base ext fuel (n + 1)
    else .ok (numberedName base ext n)

/-- Logging.py:94-107 `findNextAvailableNumberedFileName` -/
def findNext (files : List Str) (base ext : Str) (fuel : Nat) : Except PyErr Str :=
  findFrom files base ext fuel 1

/-! ## several processes -/

/-- Where a process is in `_logSimulationResults`: looking at number `k`, about to create number `k`,
holding folder `k`, or stopped with the ValueError (SingleSimulations.py:362-381) -/
inductive PC where
  | search (k : Nat)
  | make (k : Nat)
  | got (k : Nat)
  | gaveUp
deriving DecidableEq, Repr

/-- A process: its position and the number of attempts already failed -/
structure Proc where
  pc : PC
  failed : Nat
deriving DecidableEq, Repr

/-- All processes and the names that exist in the directory; names are anything numbered by `name` -/
structure Cfg (ι N : Type) where
  files : List N
  procs : ι → Proc

variable {ι N : Type} [DecidableEq ι] [DecidableEq N]

/-- SingleSimulations.py:376-381: what happens after attempt number `failed + 1` has failed.  `iterations`
equals the number of attempts after the first. -/
def afterFail (failed : Nat) : Proc :=
  if failed < 50 then { pc := .search 1, failed := failed + 1 } else { pc := .gaveUp, failed := failed + 1 }

/-- SingleSimulations.py:376-381: what happens after an attempt has created folder `k`, `failed` attempts
having failed before: with 50 failures `iterations == 50`, and the error is raised all the same -/
def afterMake (failed k : Nat) : Proc :=
  if failed = 50 then { pc := .gaveUp, failed := failed } else { pc := .got k, failed := failed }

/-- One atomic action of one process: one `os.path.exists` or one `os.mkdir` -/
def actFiles (name : Nat → N) (files : List N) (p : Proc) : List N × Proc :=
  match p.pc with
  | .search k =>
    if name k ∈ files then (files, { p with pc := .search (k + 1) }) else (files, { p with pc := .make k })
  | .make k =>
    if name k ∈ files then (files, afterFail p.failed) else (name k :: files, afterMake p.failed k)
  | .got _ => (files, p)
  | .gaveUp => (files, p)

/-- Process `i` performs one atomic action -/
def act (name : Nat → N) (c : Cfg ι N) (i : ι) : Cfg ι N :=
  let r := actFiles name c.files (c.procs i)
  { files := r.1, procs := Function.update c.procs i r.2 }

/-- Every process starts its first attempt -/
def start (files : List N) : Cfg ι N := { files := files, procs := fun _ => { pc := .search 1, failed := 0 } }

/-- An execution: any interleaving of actions of the processes and of other programs creating files -/
inductive Event (ι N : Type) where
  | proc (i : ι)
  | foreign (f : N)

/-- The effect of one event -/
def Cfg.event (name : Nat → N) (c : Cfg ι N) : Event ι N → Cfg ι N
  | .proc i => act name c i
  | .foreign f => { c with files := f :: c.files }

/-- The effect of a whole interleaving -/
def exec (name : Nat → N) (files : List N) (es : List (Event ι N)) : Cfg ι N :=
  es.foldl (Cfg.event name) (start files)

end Mapleaf.Run
