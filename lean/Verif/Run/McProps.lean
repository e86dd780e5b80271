import Verif.Run.McModel
import Mathlib.Data.List.Perm.Basic
import Mathlib.Data.List.Range
import Mathlib.Tactic.Linarith

/-!
# Monte Carlo runs in parallel (C48)
-/

namespace Mapleaf.Run

variable {J : Type}

/-- What holds before run `i`: no job is lost or duplicated, and the number running is `min i nProc` -/
structure McInv (nProc : Nat) (done : List J) (st : McState J) : Prop where
  perm : (st.saved ++ st.running).Perm done
  count : st.running.length = min done.length nProc
  peak : st.peak ≤ nProc

theorem mcStart_inv {nProc : Nat} (hn : 0 < nProc) {w : Scheduler J} (hw : w.Ok) {done : List J}
    {st : McState J} (h : McInv nProc done st) (j : J) :
    McInv nProc (done ++ [j]) (mcStart nProc w st (done.length, j)) := by
  have hc := h.count
  unfold mcStart
  by_cases hle : nProc ≤ done.length
  · have hne : st.running ≠ [] := by
      intro he; rw [he] at hc; simp at hc; omega
    obtain ⟨h1, h2⟩ := hw done.length st.running hne
    have hlen := h2.length_eq
    simp only [List.length_append] at hlen
    simp only [hle, if_true]
    refine ⟨?_, ?_, ?_⟩
    · simp only [← List.append_assoc]
      refine List.Perm.append_right [j] ?_
      refine List.Perm.trans ?_ h.perm
      rw [List.append_assoc]
      exact List.Perm.append_left _ h2
    · simp only [List.length_append, List.length_singleton]; omega
    · simp only [max_le_iff]; exact ⟨h.peak, by omega⟩
  · simp only [hle, if_false]
    refine ⟨?_, ?_, ?_⟩
    · simp only [← List.append_assoc]
      exact List.Perm.append_right [j] h.perm
    · simp only [List.length_append, List.length_singleton]; omega
    · simp only [max_le_iff]; exact ⟨h.peak, by omega⟩

theorem mcLoop_inv {nProc : Nat} (hn : 0 < nProc) {w : Scheduler J} (hw : w.Ok) (jobs : List J) :
    ∀ (done : List J) (st : McState J), McInv nProc done st →
      McInv nProc (done ++ jobs)
        (((jobs.zipIdx done.length).map Prod.swap).foldl (mcStart nProc w) st) := by
  induction jobs with
  | nil => intro done st h; simpa using h
  | cons j jobs ih =>
    intro done st h
    have := ih (done ++ [j]) _ (mcStart_inv hn hw h j)
    simpa using this

/-- **Every run exactly once.**  Whatever order the runs finish in, the results saved are those of every
started run, each once: none lost, none counted twice. -/
theorem each_run_once {nProc : Nat} (hn : 0 < nProc) {w : Scheduler J} (hw : w.Ok) (jobs : List J) :
    (mcParallel nProc w jobs).saved.Perm jobs := by
  have := (mcLoop_inv hn hw jobs [] { running := [], saved := [], peak := 0 }
    ⟨by simp, by simp, by simp⟩).perm
  simpa [mcParallel] using this

/-- **Bounded parallelism.**  Never more than `nProcesses` simulations run at the same time. -/
theorem at_most_nProc {nProc : Nat} (hn : 0 < nProc) {w : Scheduler J} (hw : w.Ok) (jobs : List J) :
    (mcParallel nProc w jobs).peak ≤ nProc := by
  have := (mcLoop_inv hn hw jobs [] { running := [], saved := [], peak := 0 }
    ⟨by simp, by simp, by simp⟩).peak
  simpa [mcParallel] using this

/-- **Full use.**  When there are at least `nProcesses` runs, exactly `nProcesses` run once the loop has
started them all: the program does not wait when a process is free. -/
theorem uses_nProc {nProc : Nat} (hn : 0 < nProc) {w : Scheduler J} (hw : w.Ok) (jobs : List J) :
    (((jobs.zipIdx 0).map Prod.swap).foldl (mcStart nProc w)
      { running := [], saved := [], peak := 0 }).running.length = min jobs.length nProc := by
  have := (mcLoop_inv hn hw jobs [] { running := [], saved := [], peak := 0 }
    ⟨by simp, by simp, by simp⟩).count
  simpa using this

/-- The largest number of simulations running at the same time is the number of processes (or of runs, if there are
fewer). -/
theorem peak_spec {nProc : Nat} (hn : 0 < nProc) {w : Scheduler J} (hw : w.Ok) (jobs : List J) :
    (mcParallel nProc w jobs).peak = min jobs.length nProc := by
  have key : ∀ (jobs done : List J) (st : McState J), McInv nProc done st → st.peak = min done.length nProc →
      (((jobs.zipIdx done.length).map Prod.swap).foldl (mcStart nProc w) st).peak
        = min (done ++ jobs).length nProc := by
    intro jobs
    induction jobs with
    | nil => intro done st _ h; simpa using h
    | cons j jobs ih =>
      intro done st h hp
      have hi := mcStart_inv hn hw h j
      have hlen : (mcStart nProc w st (done.length, j)).peak =
          max st.peak (mcStart nProc w st (done.length, j)).running.length := by
        unfold mcStart
        by_cases hle : nProc ≤ done.length <;> simp [hle]
      have := ih (done ++ [j]) _ hi (by rw [hlen, hi.count, hp]; simp)
      simpa using this
  have := key jobs [] { running := [], saved := [], peak := 0 } ⟨by simp, by simp, by simp⟩ (by simp)
  simpa [mcParallel] using this

/-- The output lists after post-processing a list of flights -/
theorem outputs_spec {V K F : Type} (sm : Summary V K F) (keep : Bool) (fs : List F) (o : Outputs V K F) :
    fs.foldl (postProcess sm keep) o =
      { landingLocations := o.landingLocations ++ fs.map sm.landing
        apogees := o.apogees ++ fs.map sm.apogee
        maxSpeeds := o.maxSpeeds ++ fs.map sm.maxSpeed
        flightTimes := o.flightTimes ++ fs.map sm.flightTime
        maxHorizontalVels := o.maxHorizontalVels ++ fs.map sm.maxHorizontalVel
        flights := o.flights ++ (if keep then fs.map sm.thin else []) } := by
  induction fs generalizing o with
  | nil => cases keep <;> simp
  | cons f fs ih =>
    rw [List.foldl_cons, ih]
    cases keep <;> simp [postProcess]

/-- **Same results as one after the other.**  For every schedule, every output list of the parallel Monte
Carlo is a rearrangement of the list a sequential run over the same sampled definitions gives, and entries
at the same position of different lists belong to the same run: there is one order of the runs that gives
all of them. -/
theorem parallel_matches {D V K F : Type} (sm : Summary V K F) (keep : Bool) (simulate : D → F)
    {nProc : Nat} (hn : 0 < nProc) {w : Scheduler D} (hw : w.Ok) (defs : List D) :
    ∃ order : List D, order.Perm defs ∧
      parallelOutputs sm keep simulate nProc w defs = sequentialOutputs sm keep simulate order :=
  ⟨_, each_run_once hn hw defs, rfl⟩

theorem parallel_matches_lists {D V K F : Type} (sm : Summary V K F) (keep : Bool) (simulate : D → F)
    {nProc : Nat} (hn : 0 < nProc) {w : Scheduler D} (hw : w.Ok) (defs : List D) :
    let p := parallelOutputs sm keep simulate nProc w defs
    let q := sequentialOutputs sm keep simulate defs
    p.landingLocations.Perm q.landingLocations ∧ p.apogees.Perm q.apogees ∧ p.maxSpeeds.Perm q.maxSpeeds ∧
      p.flightTimes.Perm q.flightTimes ∧ p.maxHorizontalVels.Perm q.maxHorizontalVels ∧
      p.flights.Perm q.flights := by
  have h := (each_run_once hn hw defs).map simulate
  simp only [parallelOutputs, sequentialOutputs, outputs_spec, Outputs.empty, List.nil_append]
  refine ⟨h.map _, h.map _, h.map _, h.map _, h.map _, ?_⟩
  cases keep
  · simp
  · simpa using h.map sm.thin

/-- **Repeatable.**  The definitions simulated do not depend on the schedule, on the number of processes,
or on how many runs are asked for: run `i` is always sampled with the `i`-th seed from the user's own
definition. -/
theorem parallelDefs_spec {D : Type} (seed : Nat → Nat) (sample : Nat → D → D) (d : D) (n i : Nat)
    (hi : i < n) : (parallelDefs seed sample d n)[i]? = some (sample (seed i) d) ∧
      (parallelDefs seed sample d n).length = n ∧
      parallelDefs seed sample d n <+: parallelDefs seed sample d (n + 1) := by
  refine ⟨by simp [parallelDefs, hi], by simp [parallelDefs], ?_⟩
  rw [parallelDefs, parallelDefs, List.range_succ, List.map_append]
  exact List.prefix_append _ _

/-- The sequential version runs the definition resampled 1, 2, … times -/
theorem sequentialDefs_spec {D : Type} (resample : D → D) (d : D) (n : Nat) :
    sequentialDefs resample d n = (List.range n).map (fun i => resample^[i + 1] d) := by
  induction n generalizing d with
  | zero => rfl
  | succ n ih =>
    rw [sequentialDefs, ih, List.range_succ_eq_map]
    simp [Function.comp_def]

/-- a scheduler that always returns the last job started -/
def lifo : Scheduler Nat := fun _ l => (l.drop (l.length - 1), l.take (l.length - 1))

example : lifo.Ok := by
  intro c l hl
  have := List.length_pos_iff.2 hl
  refine ⟨by simp [lifo]; omega, ?_⟩
  exact List.perm_append_comm.trans (by simp [lifo])

/-- five runs on two processes: all saved, in another order, never more than two at once -/
example : (mcParallel 2 lifo [0, 1, 2, 3, 4]).saved = [1, 2, 3, 0, 4] ∧
    (mcParallel 2 lifo [0, 1, 2, 3, 4]).peak = 2 := by decide

end Mapleaf.Run
