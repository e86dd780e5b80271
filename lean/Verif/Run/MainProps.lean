import Verif.Run.MainModel
import Verif.SimDef.KeysProps
import Verif.SimDef.StoreProps
import Mathlib.Algebra.Order.Field.Rat

/-!
# Properties of the command line program (C79)

The value of a key means `Lookup` of C04: the definition, the defaults, the defaults of the class.
-/

namespace Mapleaf.MainM
open Mapleaf Mapleaf.Str Mapleaf.SimDef Mapleaf.Path

variable {K : Type} [Field K] [LinearOrder K]

/-- the definition, with its defaults, has a value for the key -/
def HasValue (s : Store) (key : Str) : Prop := ∃ v, Lookup s.dict s.defaults key v

theorem strip_cost : strip "Optimization.costFunction".toList = "Optimization.costFunction".toList := by decide +kernel
theorem strip_runs : strip "MonteCarlo.numberRuns".toList = "MonteCarlo.numberRuns".toList := by decide +kernel

/-- **C79.** An optimisation is a definition with a cost function. -/
theorem optimization_iff (s : Store) : isOptimizationProblem s = true ↔ HasValue s "Optimization.costFunction".toList := by
  have h := getValue_ok_iff s "Optimization.costFunction".toList
  rw [strip_cost] at h
  unfold isOptimizationProblem HasValue
  simp only [← h]
  cases (getValue s "Optimization.costFunction".toList).1 <;> simp

/-- **C79.** A Monte Carlo study is a definition with a number of runs above one. -/
theorem monteCarlo_iff (num : Str → Option K) (s : Store) :
    isMonteCarloSimulation num s = true ↔
      ∃ v n, Lookup s.dict s.defaults "MonteCarlo.numberRuns".toList v ∧ num v = some n ∧ 1 < n := by
  have h := getValue_ok_iff s "MonteCarlo.numberRuns".toList
  rw [strip_runs] at h
  unfold isMonteCarloSimulation
  simp only [← h]
  cases (getValue s "MonteCarlo.numberRuns".toList).1 with
  | error e => simp
  | ok v =>
    simp only [Except.ok.injEq]
    cases hn : num v with
    | none =>
      simp only [Bool.false_eq_true, false_iff]
      rintro ⟨w, n, rfl, h2, -⟩
      rw [hn] at h2
      cases h2
    | some n =>
      simp only [gt_iff_lt, decide_eq_true_eq]
      constructor
      · intro hlt
        exact ⟨v, n, rfl, hn, hlt⟩
      · rintro ⟨w, m, rfl, h2, h3⟩
        rw [hn] at h2
        cases h2
        exact h3

/-- the definition has an entry in the dictionary `Rocket` -/
def DescribesRocket (s : Store) : Prop := ∃ k ∈ Dict.keys s.dict, ∃ rest, rest ≠ [] ∧ splitC '.' k = "Rocket".toList :: rest

/-- **C79.** A batch is a definition without rocket, or with a case named `Rocket`. -/
theorem batch_iff (s : Store) :
    isBatchSim s = true ↔ ¬ DescribesRocket s ∨ "Rocket.simDefinitionFile".toList ∈ Dict.keys s.dict := by
  have hm : "Rocket".toList ∈ getImmediateSubDicts s.dict [] ↔ DescribesRocket s := by
    rw [mem_getImmediateSubDicts_iff]
    have e1 : splitC '.' "Rocket".toList = ["Rocket".toList] := by decide +kernel
    have e2 : dictPath [] = [] := by decide +kernel
    rw [e1, e2]
    constructor
    · rintro ⟨-, k, hk, rest, hr, he⟩
      exact ⟨k, hk, rest, hr, he⟩
    · rintro ⟨k, hk, rest, hr, he⟩
      exact ⟨⟨_, rfl⟩, k, hk, rest, hr, he⟩
  have hc : contains s "Rocket.simDefinitionFile".toList = true ↔ "Rocket.simDefinitionFile".toList ∈ Dict.keys s.dict :=
    Dict.has_iff _ _
  rw [← hm, ← hc]
  unfold isBatchSim
  generalize "Rocket".toList = r
  generalize getImmediateSubDicts s.dict [] = ds
  cases contains s "Rocket.simDefinitionFile".toList
  · simp only [Bool.not_false, Bool.and_true, Bool.not_eq_eq_eq_not, Bool.not_true, List.any_eq_false, decide_eq_true_eq,
      Bool.false_eq_true, or_false]
    exact ⟨fun h hr => h r hr rfl, fun h x hx e => h (e ▸ hx)⟩
  · simp

/-! ### The job -/

/-- **C79.** The definition decides first: an optimisation is run as such whatever the options, … -/
theorem job_optimization (num : Str → Option K) (cpus : Nat) (a : Args) (path : Str) (s : Store)
    (h : HasValue s "Optimization.costFunction".toList) :
    chooseJob num cpus a path s = .ok (.optimization a.silent a.parallel) := by
  unfold chooseJob
  rw [if_pos ((optimization_iff s).2 h)]

/-- **C79.** … then a Monte Carlo study, on one core or on all, … -/
theorem job_monteCarlo (num : Str → Option K) (cpus : Nat) (a : Args) (path : Str) (s : Store)
    (h : ¬ HasValue s "Optimization.costFunction".toList) {v : Str} {n : K}
    (hv : Lookup s.dict s.defaults "MonteCarlo.numberRuns".toList v) (hn : num v = some n) (h1 : 1 < n) :
    (a.parallel = false → chooseJob num cpus a path s = .ok (.monteCarlo a.silent 1)) ∧
    (a.parallel = true → chooseJob num cpus a path s = .ok (.monteCarlo a.silent cpus)) := by
  unfold chooseJob
  rw [← optimization_iff] at h
  rw [if_neg h, if_pos ((monteCarlo_iff num s).2 ⟨v, n, hv, hn, h1⟩)]
  constructor <;> intro hp <;> simp [hp]

/-- the definition describes flights, each to be run by itself -/
def Plainly (num : Str → Option K) (s : Store) : Prop :=
  ¬ HasValue s "Optimization.costFunction".toList ∧
    ¬ ∃ v n, Lookup s.dict s.defaults "MonteCarlo.numberRuns".toList v ∧ num v = some n ∧ 1 < n

/-- **C79.** … nothing else runs in parallel, … -/
theorem job_parallel (num : Str → Option K) (cpus : Nat) (a : Args) (path : Str) (s : Store) (h : Plainly num s)
    (hp : a.parallel = true) : chooseJob num cpus a path s = .error .valueError := by
  unfold chooseJob
  rw [if_neg (by rw [optimization_iff]; exact h.1), if_neg (by rw [monteCarlo_iff]; exact h.2), if_pos hp]

/-- **C79.** … and without `--parallel`: a batch, the convergence study that was asked for, or one simulation. -/
theorem job_plain (num : Str → Option K) (cpus : Nat) (a : Args) (path : Str) (s : Store) (h : Plainly num s)
    (hp : a.parallel = false) :
    ((¬ DescribesRocket s ∨ "Rocket.simDefinitionFile".toList ∈ Dict.keys s.dict) →
      chooseJob num cpus a path s = .ok (.batch path)) ∧
    (DescribesRocket s → "Rocket.simDefinitionFile".toList ∉ Dict.keys s.dict →
      (a.converge = true → chooseJob num cpus a path s = .ok (.study a.silent .endPosition)) ∧
      (a.converge = false → a.compareClassical = true → chooseJob num cpus a path s = .ok (.study a.silent .classical)) ∧
      (a.converge = false → a.compareClassical = false → a.compareAdaptive = true →
        chooseJob num cpus a path s = .ok (.study a.silent .adaptive)) ∧
      (a.converge = false → a.compareClassical = false → a.compareAdaptive = false →
        chooseJob num cpus a path s = .ok (.single a.silent))) := by
  unfold chooseJob
  rw [if_neg (by rw [optimization_iff]; exact h.1), if_neg (by rw [monteCarlo_iff]; exact h.2), if_neg (by simp [hp])]
  refine ⟨fun hb => if_pos ((batch_iff s).2 hb), fun h1 h2 => ?_⟩
  rw [if_neg (by
    rw [batch_iff]
    rintro (hb | hb)
    · exact hb h1
    · exact h2 hb)]
  refine ⟨fun c => by simp [c], fun c d => by simp [c, d], fun c d e => by simp [c, d, e], fun c d e => by simp [c, d, e]⟩

/-- **C79.** Exactly the definitions and options that end in an error before anything is run. -/
theorem job_error_iff (num : Str → Option K) (cpus : Nat) (a : Args) (path : Str) (s : Store) (e : PyErr) :
    chooseJob num cpus a path s = .error e ↔ e = .valueError ∧ a.parallel = true ∧ Plainly num s := by
  constructor
  · intro h
    unfold chooseJob at h
    split at h
    · cases h
    · next h1 =>
      split at h
      · cases h
      · next h2 =>
        split at h
        · next h3 =>
          cases h
          exact ⟨rfl, h3, by rw [← optimization_iff]; exact h1, by rw [← monteCarlo_iff]; exact h2⟩
        · split at h
          · cases h
          · split at h <;> cases h
  · rintro ⟨rfl, hp, h⟩
    exact job_parallel num cpus a path s h hp

/-- **C79.** `--plotFromLog` only plots: no definition is looked for, none is read. -/
theorem main_plot (fs : FS) (install : PPath) (num : Str → Option K) (cpus : Nat) (load : Str → Except PyErr Store)
    (perform : Job → Except PyErr Nat) (a : Args) {d f : Str} (h : a.plotFromLog = some (d, f)) :
    (∀ n, perform (.plot d f) = .ok n → main fs install num cpus load perform a = .ok 0) ∧
    (∀ e, perform (.plot d f) = .error e → main fs install num cpus load perform a = .error e) := by
  unfold main
  rw [h]
  constructor
  · intro n hn
    show (perform (.plot d f) >>= fun _ => Except.ok 0) = _
    rw [hn]
    rfl
  · intro e he
    show (perform (.plot d f) >>= fun _ => Except.ok 0) = _
    rw [he]
    rfl

/-- **C79.** Otherwise one job is done, that of the definition found; an error while reading, choosing or running it is the error of
the program. -/
theorem main_error_iff (fs : FS) (install : PPath) (num : Str → Option K) (cpus : Nat) (load : Str → Except PyErr Store)
    (perform : Job → Except PyErr Nat) (a : Args) (h : a.plotFromLog = none) (e : PyErr) :
    main fs install num cpus load perform a = .error e ↔
      ∃ path, findSimDefinitionFile fs install a.file = some path ∧
        (load path = .error e ∨ ∃ s, load path = .ok s ∧
          (chooseJob num cpus a path s = .error e ∨
            ∃ j, chooseJob num cpus a path s = .ok j ∧ perform j = .error e)) := by
  unfold main
  rw [h]
  cases findSimDefinitionFile fs install a.file with
  | none => simp
  | some path =>
    show (load path >>= fun s => chooseJob num cpus a path s >>= fun j => perform j >>= fun _ => Except.ok 0) = _ ↔ _
    simp only [Option.some.injEq, exists_eq_left']
    cases load path with
    | error x =>
      show Except.error x = Except.error e ↔ _
      simp
    | ok s =>
      show (chooseJob num cpus a path s >>= fun j => perform j >>= fun _ => Except.ok 0) = _ ↔ _
      simp only [reduceCtorEq, Except.ok.injEq, exists_eq_left', false_or]
      cases chooseJob num cpus a path s with
      | error x =>
        show Except.error x = Except.error e ↔ _
        simp
      | ok j =>
        show (perform j >>= fun _ => Except.ok 0) = _ ↔ _
        simp only [reduceCtorEq, Except.ok.injEq, exists_eq_left', false_or]
        cases perform j with
        | error x =>
          show Except.error x = Except.error e ↔ _
          simp
        | ok n =>
          show Except.ok 0 = Except.error e ↔ _
          simp

/-- **C79, false in general.** The exit status tells whether the cases of a batch passed — never: without exception it is 0. -/
theorem status_violated (fs : FS) (install : PPath) (num : Str → Option K) (cpus : Nat) (load : Str → Except PyErr Store)
    (perform : Job → Except PyErr Nat) (a : Args) {n : Nat} (h : main fs install num cpus load perform a = .ok n) : n = 0 := by
  unfold main at h
  split at h
  · rename_i d f _
    change (perform (.plot d f) >>= fun _ => Except.ok 0) = _ at h
    cases hp : perform (.plot d f) with
    | error e => rw [hp] at h; cases h
    | ok m => rw [hp] at h; cases h; rfl
  · split at h
    · cases h; rfl
    · rename_i path _
      change (load path >>= fun s => chooseJob num cpus a path s >>= fun j => perform j >>= fun _ => Except.ok 0) = _ at h
      cases hl : load path with
      | error e => rw [hl] at h; cases h
      | ok s =>
        rw [hl] at h
        change (chooseJob num cpus a path s >>= fun j => perform j >>= fun _ => Except.ok 0) = _ at h
        cases hj : chooseJob num cpus a path s with
        | error e => rw [hj] at h; cases h
        | ok j =>
          rw [hj] at h
          change (perform j >>= fun _ => Except.ok 0) = _ at h
          cases hp : perform j with
          | error e => rw [hp] at h; cases h
          | ok m => rw [hp] at h; cases h; rfl

/-- **C79, false in general.** A definition file that is not found is an error — the program ends with status 0. -/
theorem missing_violated (fs : FS) (install : PPath) (num : Str → Option K) (cpus : Nat) (load : Str → Except PyErr Store)
    (perform : Job → Except PyErr Nat) (a : Args) (h : a.plotFromLog = none) (hf : findSimDefinitionFile fs install a.file = none) :
    main fs install num cpus load perform a = .ok 0 := by
  unfold main
  rw [h, hf]

def store (d : Dict Str Str) : Store := newStore d []

def options (file : Str) : Args := ⟨none, false, false, false, false, false, file⟩

/-- reads the texts used below -/
def sampleNum (t : Str) : Option ℚ :=
  if t = "2.5".toList then some (5 / 2) else if t = "10".toList then some 10 else if t = "1".toList then some 1 else none

def sampleInt (t : Str) : Option Int := if t = "10".toList then some 10 else if t = "1".toList then some 1 else none

/-- **C79, false in general.** `--converge` runs a convergence study — it is dropped without a word for Monte Carlo studies,
optimisations and batches. -/
theorem converge_violated :
    let a : Args := { options [] with converge := true }
    chooseJob sampleNum 8 a [] (store [("MonteCarlo.numberRuns".toList, "10".toList), ("Rocket.name".toList, "r".toList)]) =
      .ok (.monteCarlo false 1) ∧
    chooseJob sampleNum 8 a [] (store [("Optimization.costFunction".toList, "apogee".toList), ("Rocket.name".toList, "r".toList)]) =
      .ok (.optimization false false) ∧
    chooseJob sampleNum 8 a [] (store [("a.simDefinitionFile".toList, "a.mapleaf".toList)]) = .ok (.batch []) := by
  decide +kernel

/-- **C79, false in general.** A batch has cases: an empty definition, or one whose rocket is misspelt, counts as batch. -/
theorem empty_violated :
    chooseJob sampleNum 8 (options []) [] (store []) = .ok (.batch []) ∧
    chooseJob sampleNum 8 (options []) [] (store [("rocket.name".toList, "r".toList)]) = .ok (.batch []) := by
  decide +kernel

/-- **C79, false in general.** A number of runs above one gives a Monte Carlo study — `2.5` chooses it, and then it cannot be
read. -/
theorem runs_violated :
    let s := store [("MonteCarlo.numberRuns".toList, "2.5".toList), ("Rocket.name".toList, "r".toList)]
    chooseJob sampleNum 8 (options []) [] s = .ok (.monteCarlo false 1) ∧
    numberOfRuns sampleInt s = .error .valueError := by
  decide +kernel

/-- **C79.** Whenever the number of runs is written as a whole number, the study that was chosen has that many runs, more than one. -/
theorem runs_partial (num : Str → Option K) (int : Str → Option Int) (s : Store) [IsStrictOrderedRing K]
    (hint : ∀ v n, num v = some n → ∃ m : Int, int v = some m ∧ n = m) (h : isMonteCarloSimulation num s = true) :
    ∃ m : Int, numberOfRuns int s = .ok m ∧ 1 < m := by
  obtain ⟨v, n, h1, h2, h3⟩ := (monteCarlo_iff num s).1 h
  obtain ⟨m, hm, rfl⟩ := hint v n h2
  refine ⟨m, ?_, by exact_mod_cast h3⟩
  have hg := (getValue_ok_iff s "MonteCarlo.numberRuns".toList v).2 (by rw [strip_runs]; exact h1)
  unfold numberOfRuns
  rw [hg]
  simp only [hm]

/-! ### The optimiser -/

/-- **C79.** The optimiser: particle swarm unless the key `method` of the dictionary (or, without one, of the definition) says
otherwise; unknown methods are an error. -/
theorem method_spec (s : Store) (path : Str) :
    (¬ Found s path "method".toList → chooseMethod s path = .ok .swarm) ∧
    (∀ m, (getString s path "method".toList).1 = .ok m →
      (m = "PSO".toList → chooseMethod s path = .ok .swarm) ∧
      ("scipy.optimize.minimize".toList <:+: m → chooseMethod s path = .ok .scipy) ∧
      (m ≠ "PSO".toList → ¬ "scipy.optimize.minimize".toList <:+: m → chooseMethod s path = .error .valueError)) := by
  obtain ⟨t1, t2, -⟩ := tryGet_spec (Except.ok : Str → Except PyErr Str) (by intro t; simp) s path "method".toList "PSO".toList
  unfold chooseMethod
  constructor
  · intro h
    rw [t1 h]
    simp only [if_true]
  · intro m hm
    rw [t2 m hm]
    simp only
    refine ⟨fun h => if_pos h, fun h => ?_, fun h1 h2 => ?_⟩
    · have hne : m ≠ "PSO".toList := by
        rintro rfl
        have := h.length_le
        revert this
        decide +kernel
      rw [if_neg hne, if_pos ((isIn_iff _ _).2 h)]
    · rw [if_neg h1, if_neg (by rw [isIn_iff]; exact h2)]

/-- **C79.** An optimisation draws nothing; all other values of the definition stay. -/
theorem quiet_spec (s : Store) :
    Lookup (quietDefinition s).dict (quietDefinition s).defaults "SimControl.plot".toList "None".toList ∧
    Lookup (quietDefinition s).dict (quietDefinition s).defaults "SimControl.RocketPlot".toList "Off".toList ∧
    ∀ k, k ≠ "SimControl.plot".toList → k ≠ "SimControl.RocketPlot".toList →
      Dict.get? (quietDefinition s).dict k = Dict.get? s.dict k := by
  have e1 : strip "SimControl.plot".toList = "SimControl.plot".toList := by decide +kernel
  have e2 : strip "SimControl.RocketPlot".toList = "SimControl.RocketPlot".toList := by decide +kernel
  have hne : "SimControl.RocketPlot".toList ≠ "SimControl.plot".toList := by decide +kernel
  unfold quietDefinition setValue
  simp only [e1, e2]
  refine ⟨Or.inl ?_, Or.inl (Dict.get?_set_self _ _ _), fun k h1 h2 => ?_⟩
  · rw [Dict.get?_set_ne _ _ hne, Dict.get?_set_self]
  · rw [Dict.get?_set_ne _ _ (Ne.symm h2), Dict.get?_set_ne _ _ (Ne.symm h1)]

/-! ### The hypotheses can be met -/

example : HasValue (store [("Optimization.costFunction".toList, "apogee".toList)]) "Optimization.costFunction".toList :=
  ⟨"apogee".toList, Or.inl (by decide +kernel)⟩

example : Lookup (store [("MonteCarlo.numberRuns".toList, "10".toList)]).dict [] "MonteCarlo.numberRuns".toList "10".toList ∧
    sampleNum "10".toList = some 10 ∧ (1 : ℚ) < 10 := ⟨Or.inl (by decide +kernel), by decide +kernel, by norm_num⟩

example : Plainly sampleNum (store [("Rocket.name".toList, "r".toList)]) := by
  constructor
  · rw [← optimization_iff]
    decide +kernel
  · rw [← monteCarlo_iff]
    decide +kernel

example : DescribesRocket (store [("Rocket.name".toList, "r".toList)]) ∧
    chooseJob sampleNum 8 (options []) [] (store [("Rocket.name".toList, "r".toList)]) = .ok (.single false) :=
  ⟨⟨"Rocket.name".toList, by decide +kernel, ["name".toList], by simp, by decide +kernel⟩, by decide +kernel⟩

example : ∃ (int : Str → Option Int) (num : Str → Option ℚ) (s : Store),
    (∀ v n, num v = some n → ∃ m : Int, int v = some m ∧ n = m) ∧ isMonteCarloSimulation num s = true :=
  ⟨sampleInt, fun t => (sampleInt t).map (fun m : Int => (m : ℚ)), store [("MonteCarlo.numberRuns".toList, "10".toList)],
    by
      intro v n h
      simp only [Option.map_eq_some_iff] at h
      obtain ⟨m, h1, h2⟩ := h
      exact ⟨m, h1, h2.symm⟩,
    by decide +kernel⟩

example : chooseMethod (store [("Optimization.method".toList, "scipy.optimize.minimize-BFGS".toList)]) "Optimization".toList = .ok .scipy := by
  decide +kernel

end Mapleaf.MainM
