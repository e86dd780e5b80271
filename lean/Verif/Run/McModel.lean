import Verif.Base.Dict
import Verif.Base.Str

/-!
# Monte Carlo runs

Model of SimulationRunners/MonteCarlo.py.  A *flight* is what a simulation returns for the top stage; a
simulation is a function of the sampled definition.  The random number generators are arbitrary: `seed i`
is the `i`-th seed drawn from `rng` (MonteCarlo.py:114, 133) and `sample` is what
`resampleProbabilisticValues` makes of a definition with a generator seeded that way (134-136).

`ray.wait` is an arbitrary scheduler: at its `c`-th call, given the list of running jobs, it returns some
of them as finished and the others.  Its documented contract is `Scheduler.Ok`.
-/

namespace Mapleaf.Run

/-- `ray.wait` (MonteCarlo.py:127): call number → running jobs → (completed, still running) -/
abbrev Scheduler (J : Type) := Nat → List J → List J × List J

/-- The contract of `ray.wait` with its default `num_returns = 1`: one job is returned as completed, the
others are still running -/
def Scheduler.Ok {J : Type} (w : Scheduler J) : Prop :=
  ∀ c l, l ≠ [] → (w c l).1.length = 1 ∧ ((w c l).1 ++ (w c l).2).Perm l

/-- The state of the loop of MonteCarlo.py:123-140: jobs running, jobs whose results have been saved (in
order), and the largest number of jobs that ran at once -/
structure McState (J : Type) where
  running : List J
  saved : List J
  peak : Nat

variable {J : Type}

/-- One pass through MonteCarlo.py:124-140 for run `i`, which starts job `j` -/
def mcStart (nProc : Nat) (w : Scheduler J) (st : McState J) (ij : Nat × J) : McState J :=
  let st1 := if nProc ≤ ij.1 then
      { st with running := (w ij.1 st.running).2, saved := st.saved ++ (w ij.1 st.running).1 }
    else st
  { running := st1.running ++ [ij.2], saved := st1.saved, peak := max st1.peak (st1.running.length + 1) }

/-- MonteCarlo.py:123-144: all runs, then the jobs still running -/
def mcParallel (nProc : Nat) (w : Scheduler J) (jobs : List J) : McState J :=
  let st := (jobs.zipIdx.map Prod.swap).foldl (mcStart nProc w) { running := [], saved := [], peak := 0 }
  { st with running := [], saved := st.saved ++ st.running }

/-- The definitions simulated by the parallel version (MonteCarlo.py:114, 124, 132-136): each run gets its
own copy, sampled with its own seed -/
def parallelDefs {D : Type} (seed : Nat → Nat) (sample : Nat → D → D) (d : D) (nRuns : Nat) : List D :=
  (List.range nRuns).map (fun i => sample (seed i) d)

/-- The sequential version (MonteCarlo.py:65-76): one definition, resampled in place before each run -/
def sequentialDefs {D : Type} (resample : D → D) (d : D) : Nat → List D
  | 0 => []
  | n + 1 => resample d :: sequentialDefs resample (resample d) n

/-- The output lists (MonteCarlo.py:38-44, 52-62, 90-106) -/
structure Outputs (V K F : Type) where
  landingLocations : List V
  apogees : List K
  maxSpeeds : List K
  flightTimes : List K
  maxHorizontalVels : List K
  flights : List F
deriving DecidableEq

/-- What is computed of one flight (MonteCarlo.py:54-62, 98-106) -/
structure Summary (V K F : Type) where
  landing : F → V
  apogee : F → K
  maxSpeed : F → K
  flightTime : F → K
  maxHorizontalVel : F → K
  thin : F → F

/-- `postProcess` (MonteCarlo.py:52-62, 90-106); `keep` is `"flightPaths" in resultsToOutput` -/
def postProcess {V K F : Type} (sm : Summary V K F) (keep : Bool) (o : Outputs V K F) (f : F) : Outputs V K F :=
  { landingLocations := o.landingLocations ++ [sm.landing f]
    apogees := o.apogees ++ [sm.apogee f]
    maxSpeeds := o.maxSpeeds ++ [sm.maxSpeed f]
    flightTimes := o.flightTimes ++ [sm.flightTime f]
    maxHorizontalVels := o.maxHorizontalVels ++ [sm.maxHorizontalVel f]
    flights := if keep then o.flights ++ [sm.thin f] else o.flights }

def Outputs.empty {V K F : Type} : Outputs V K F := ⟨[], [], [], [], [], []⟩

/-- A whole parallel Monte Carlo: the results saved in the order in which the runs finish -/
def parallelOutputs {D V K F : Type} (sm : Summary V K F) (keep : Bool) (simulate : D → F) (nProc : Nat)
    (w : Scheduler D) (defs : List D) : Outputs V K F :=
  ((mcParallel nProc w defs).saved.map simulate).foldl (postProcess sm keep) Outputs.empty

/-- A sequential Monte Carlo over the same definitions -/
def sequentialOutputs {D V K F : Type} (sm : Summary V K F) (keep : Bool) (simulate : D → F) (defs : List D) :
    Outputs V K F :=
  (defs.map simulate).foldl (postProcess sm keep) Outputs.empty

end Mapleaf.Run
