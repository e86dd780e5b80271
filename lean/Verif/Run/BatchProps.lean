import Verif.Run.BatchModel
import Verif.GNC.GncProps
import Mathlib.Tactic.Linarith
import Mathlib.Tactic.FieldSimp
import Mathlib.Tactic.Module
import Mathlib.Algebra.Order.Floor.Ring

/-!
# Batch verdicts (C49) and sweep refinement (C50)
-/

namespace Mapleaf.Run

variable {K : Type} [Field K] [LinearOrder K] [IsStrictOrderedRing K]

/-! ## one comparison -/

/-- **Comparison of numbers.**  With a percentage tolerance below 100 and an absolute tolerance that is not
negative, a comparison of two numbers passes exactly when the difference is within the absolute tolerance
or within the percentage of the expected value. -/
theorem passes_numbers {pctTol absTol : K} (hp : pctTol < 100) (ha : 0 ≤ absTol) (o e : K) :
    passes pctTol absTol (some (.fin o)) (.fin e) = true ↔
      |e - o| ≤ absTol ∨ |e - o| * 100 ≤ pctTol * |e| := by
  unfold passes errorPercent
  by_cases he : e = 0
  · subst he
    by_cases ho : o = 0
    · subst ho
      simp [Fl.beq, Fl.sub, Fl.abs, Fl.gt, Fl.isNaN, ha]
    · have h1 : ¬ (0 : K) = o := fun h => ho h.symm
      have h2 : 0 < |0 - o| := by simpa using ho
      simp only [Fl.beq, decide_true, if_true, h1, decide_false, Bool.false_eq_true, if_false, Fl.gt, Fl.sub,
        Fl.abs, Fl.isNaN, Bool.or_false, Bool.not_eq_true', Bool.and_eq_false_iff, decide_eq_false_iff_not,
        not_lt, abs_zero, mul_zero]
      constructor
      · rintro (h | h)
        · linarith
        · exact Or.inl h
      · rintro (h | h)
        · exact Or.inr h
        · nlinarith
  · have hpos : 0 < |e| := abs_pos.2 he
    simp only [Fl.beq, he, decide_false, Bool.false_eq_true, if_false, Fl.gt, Fl.sub, Fl.abs, Fl.isNaN, Fl.mul100,
      Fl.div, Bool.or_false, Bool.not_eq_true', Bool.and_eq_false_iff, decide_eq_false_iff_not, not_lt]
    rw [abs_div, abs_mul, abs_abs, div_le_iff₀ hpos, abs_of_pos (by norm_num : (0 : K) < 100), or_comm]

/-- A missing column never passes -/
theorem passes_missing (pctTol absTol : K) (e : Fl K) : passes pctTol absTol none e = false := rfl

/-- An expected value that is not a number never passes, whatever was observed -/
theorem passes_nan_expected (pctTol absTol : K) (o : Option (Fl K)) :
    passes pctTol absTol o .nan = false := by
  cases o with
  | none => rfl
  | some o => cases o <;> simp [passes, errorPercent, Fl.beq, Fl.sub, Fl.abs, Fl.mul100, Fl.div, Fl.isNaN]

/-- An observed value that is not a number does not pass against a nonzero expected value -/
theorem passes_nan_observed (pctTol absTol : K) {e : K} (he : e ≠ 0) :
    passes pctTol absTol (some .nan) (.fin e) = false := by
  simp [passes, errorPercent, Fl.beq, he, Fl.sub, Fl.abs, Fl.mul100, Fl.div, Fl.isNaN]

/-- An infinite observed value does not pass against any number -/
theorem passes_inf_observed {pctTol : K} (hp : pctTol < 100) (absTol : K) (s : Bool) (e : K) :
    passes pctTol absTol (some (.inf s)) (.fin e) = false := by
  by_cases he : e = 0
  · subst he
    simp [passes, errorPercent, Fl.beq, Fl.sub, Fl.abs, Fl.gt, hp]
  · simp [passes, errorPercent, Fl.beq, he, Fl.sub, Fl.abs, Fl.mul100, Fl.div, Fl.isNaN, Fl.gt]

/-- An infinite expected value never passes, whatever was observed (not even against itself) -/
theorem passes_inf_expected (pctTol absTol : K) (s : Bool) (o : Option (Fl K)) :
    passes pctTol absTol o (.inf s) = false := by
  cases o with
  | none => rfl
  | some o =>
    cases o with
    | nan => simp [passes, errorPercent, Fl.beq, Fl.sub, Fl.abs, Fl.mul100, Fl.div, Fl.isNaN]
    | fin x => simp [passes, errorPercent, Fl.beq, Fl.sub, Fl.abs, Fl.mul100, Fl.div, Fl.isNaN]
    | inf t =>
      by_cases h : s = t <;>
        simp [passes, errorPercent, Fl.beq, Fl.sub, Fl.abs, Fl.mul100, Fl.div, Fl.isNaN, h]

/-- **Violation.**  When the expected value is 0, an observed value that is *not a number* passes. -/
theorem nan_violated (pctTol absTol : K) : passes pctTol absTol (some .nan) (.fin 0) = true := by
  simp [passes, errorPercent, Fl.beq, Fl.sub, Fl.abs, Fl.gt, Fl.isNaN]

/-- Every comparison moves exactly one counter -/
theorem checkResult_counts (pctTol absTol : K) (c : Counts) (o : Option (Fl K)) (e : Fl K) :
    checkResult pctTol absTol c o e =
      ⟨c.passed + (if passes pctTol absTol o e then 1 else 0),
       c.failed + (if passes pctTol absTol o e then 0 else 1), c.errors⟩ := by
  unfold checkResult; split_ifs <;> rfl

/-! ## the verdict -/

/-- **Exit code.**  The exit code is 0 exactly when no case has a failed comparison or an error; otherwise
it is 1. -/
theorem exitCode_zero (cases : List Counts) :
    (exitCode cases = 0 ↔ ∀ c ∈ cases, c.failed = 0 ∧ c.errors = 0) ∧ (exitCode cases = 0 ∨ exitCode cases = 1) := by
  unfold exitCode
  constructor
  · constructor
    · intro h c hc
      split_ifs at h with h0
      have := List.eq_nil_of_length_eq_zero h0
      rw [List.filter_eq_nil_iff] at this
      have := this c hc
      simp at this
      omega
    · intro h
      rw [if_pos]
      rw [List.length_eq_zero_iff, List.filter_eq_nil_iff]
      intro c hc
      have := h c hc
      simp [this.1, this.2]
  · split_ifs <;> simp

/-- A batch ends with 0 exactly when every case ran without an exception and no case failed: one crash or
one failed comparison anywhere is enough to prevent it -/
theorem runBatch_zero (cases : List (Except PyErr Counts)) :
    runBatch cases = .ok 0 ↔ ∀ c ∈ cases, ∃ k, c = .ok k ∧ k.failed = 0 ∧ k.errors = 0 := by
  have key : ∀ (l : List (Except PyErr Counts)) (cs : List Counts),
      l.mapM id = .ok cs ↔ l = cs.map .ok := by
    intro l
    induction l with
    | nil => intro cs; cases cs <;> simp [pure, Except.pure]
    | cons a l ih =>
      intro cs
      rw [List.mapM_cons]
      cases a with
      | error e =>
        simp [bind, Except.bind]
        cases cs <;> simp
      | ok k =>
        simp only [id, bind, Except.bind, pure, Except.pure]
        cases hl : l.mapM (m := Except PyErr) id with
        | error e =>
          simp only [reduceCtorEq, false_iff]
          intro hcon
          cases cs with
          | nil => simp at hcon
          | cons b cs =>
            simp at hcon
            rw [(ih cs).2 hcon.2] at hl
            simp at hl
        | ok ks =>
          simp only [Except.ok.injEq]
          rw [(ih ks).1 hl]
          constructor
          · rintro rfl; simp
          · intro h
            cases cs with
            | nil => simp at h
            | cons b cs =>
              simp at h
              rw [h.1]
              congr 1
              exact List.map_injective_iff.2 (fun x y hxy => by simpa using hxy) h.2
  unfold runBatch
  constructor
  · intro h
    cases hm : cases.mapM (m := Except PyErr) id with
    | error e => rw [hm] at h; simp [bind, Except.bind] at h
    | ok cs =>
      rw [hm] at h
      simp only [bind, Except.bind, Except.ok.injEq] at h
      have h2 := (exitCode_zero cs).1.1 h
      rw [(key cases cs).1 hm]
      intro c hc
      obtain ⟨k, hk, rfl⟩ := List.mem_map.1 hc
      exact ⟨k, rfl, h2 k hk⟩
  · intro h
    have : ∃ cs : List Counts, cases = cs.map .ok ∧ ∀ k ∈ cs, k.failed = 0 ∧ k.errors = 0 := by
      induction cases with
      | nil => exact ⟨[], rfl, by simp⟩
      | cons a l ih =>
        obtain ⟨k, rfl, hk⟩ := h a (by simp)
        obtain ⟨cs, rfl, hcs⟩ := ih (fun c hc => h c (by simp [hc]))
        exact ⟨k :: cs, rfl, by simpa using ⟨hk, hcs⟩⟩
    obtain ⟨cs, rfl, hcs⟩ := this
    rw [(key _ cs).2 rfl]
    simp only [bind, Except.bind, Except.ok.injEq]
    exact (exitCode_zero cs).1.2 hcs

/-- A crashed simulation counts as one failure and one error -/
theorem crashed_counts : crashed = { passed := 0, failed := 1, errors := 1 } := rfl

/-- a crashed simulation makes the batch fail -/
theorem crash_fails (l r : List Counts) : exitCode (l ++ crashed :: r) = 1 := by
  rcases (exitCode_zero (l ++ crashed :: r)).2 with h | h
  · have := (exitCode_zero _).1.1 h crashed (by simp)
    simp [crashed] at this
  · exact h

/-- Which cases are run: those containing the `include` text and not containing the `exclude` text -/
theorem casesToRun_mem (i x : Option Str) (all : List Str) (c : Str) :
    c ∈ casesToRun i x all ↔ c ∈ all ∧ (∀ s, i = some s → s <:+: c) ∧ (∀ s, x = some s → ¬ s <:+: c) := by
  unfold casesToRun
  cases i <;> cases x <;> simp [← Str.isIn_iff]

/-- What a full-flight case reports: each expected value that is a number is compared once with the last
value of its column; failed and passed comparisons add up to their number -/
theorem checkCase_counts (pctTol absTol : K) (es : List (Expected K × List (Matches K))) {st : CaseState K}
    (h : checkCase pctTol absTol es = .ok st) :
    st.counts.errors = 0 ∧
    st.counts.passed + st.counts.failed = (es.filter (fun e => match e.1 with | .num _ => true | _ => false)).length ∧
    (st.counts.failed = 0 ↔ ∀ e ∈ es, ∀ x, e.1 = .num x →
      ∃ o w, singleResult e.2 = .ok (o, w) ∧ passes pctTol absTol o x = true) := by
  have key : ∀ (es : List (Expected K × List (Matches K))) (s0 st : CaseState K),
      es.foldlM (checkKey pctTol absTol) s0 = .ok st →
      st.counts.errors = s0.counts.errors ∧
      st.counts.passed + st.counts.failed = s0.counts.passed + s0.counts.failed +
        (es.filter (fun e => match e.1 with | .num _ => true | _ => false)).length ∧
      (st.counts.failed = s0.counts.failed ↔ ∀ e ∈ es, ∀ x, e.1 = .num x →
        ∃ o w, singleResult e.2 = .ok (o, w) ∧ passes pctTol absTol o x = true) ∧
      s0.counts.failed ≤ st.counts.failed := by
    intro es
    induction es with
    | nil =>
      intro s0 st h
      simp [pure, Except.pure] at h
      subst h
      simp
    | cons e es ih =>
      intro s0 st h
      rw [List.foldlM_cons] at h
      simp only [bind, Except.bind] at h
      cases hk : checkKey pctTol absTol s0 e with
      | error er => rw [hk] at h; simp at h
      | ok s1 =>
        rw [hk] at h
        obtain ⟨g1, g2, g3, g4⟩ := ih s1 st h
        obtain ⟨ex, logs⟩ := e
        cases ex with
        | bad =>
          simp only [checkKey, Except.ok.injEq] at hk
          subst hk
          simp only at g1 g2 g3 g4
          exact ⟨g1, by simpa using g2, by simpa using g3, g4⟩
        | record =>
          simp only [checkKey, bind, Except.bind] at hk
          split at hk
          · simp at hk
          · split at hk
            · simp only [Except.ok.injEq] at hk
              subst hk
              simp only at g1 g2 g3 g4
              exact ⟨g1, by simpa using g2, by simpa using g3, g4⟩
            · simp at hk
        | num x =>
          simp only [checkKey, bind, Except.bind] at hk
          split at hk
          · simp at hk
          · rename_i r hr
            simp only [Except.ok.injEq] at hk
            subst hk
            simp only [checkResult_counts] at g1 g2 g3 g4
            refine ⟨g1, ?_, ?_, by omega⟩
            · rw [g2]
              simp only [List.filter_cons, if_true, List.length_cons]
              split_ifs <;> omega
            · by_cases hpass : passes pctTol absTol r.1 x = true
              · simp only [hpass, if_true, Nat.add_zero] at g3
                rw [g3]
                simp only [List.mem_cons, forall_eq_or_imp]
                constructor
                · intro hh
                  refine ⟨fun y hy => ?_, hh⟩
                  simp only [Expected.num.injEq] at hy
                  subst hy
                  exact ⟨r.1, r.2, hr, hpass⟩
                · intro hh; exact hh.2
              · simp only [hpass] at g4
                constructor
                · intro hh; simp at g4; omega
                · intro hh
                  obtain ⟨o, w, h1, h2⟩ := hh _ (List.mem_cons_self) x rfl
                  simp only at h1
                  rw [hr] at h1
                  simp only [Except.ok.injEq] at h1
                  subst h1
                  exact absurd h2 hpass
  obtain ⟨h1, h2, h3, -⟩ := key es _ st h
  exact ⟨h1, by simpa using h2, by simpa using h3⟩

/-- **Violation.**  An expected value that is not a number nor "record" is skipped with a warning: the case
passes although nothing was compared. -/
theorem bad_expected_violated (pctTol absTol : K) (logs : List (Matches K)) :
    ∃ st, checkCase pctTol absTol [(.bad, logs)] = .ok st ∧ st.warnings = 1 ∧ exitCode [st.counts] = 0 :=
  ⟨_, rfl, rfl, rfl⟩

/-- The error printed for two numbers: percent of the expected value, and 0 or 100 when that is zero -/
theorem errorPercent_numbers (e o : K) :
    errorPercent (.fin e) (.fin o) =
      .fin (if e = 0 then (if o = 0 then 0 else 100) else 100 * |e - o| / |e|) := by
  by_cases he : e = 0
  · subst he
    by_cases ho : o = 0
    · subst ho; simp [errorPercent, Fl.beq]
    · have h' : ¬ (0 : K) = o := fun h => ho h.symm
      simp [errorPercent, Fl.beq, ho, h']
  · simp [errorPercent, Fl.beq, he, Fl.sub, Fl.abs, Fl.mul100, Fl.div, abs_div, abs_mul, mul_comm]

/-- **Where the observed value comes from.**  Log files without the column are skipped; the first one that has
it decides.  Exactly one matching column gives its last value; several, or none in any file, give no value and
a warning. -/
theorem singleResult_spec (pre rest : List (Matches K)) (hpre : ∀ m ∈ pre, m = []) :
    singleResult pre = .ok (none, true) ∧
    (∀ (col : List (Fl K)) (v : Fl K), singleResult (pre ++ [col ++ [v]] :: rest) = .ok (some v, false)) ∧
    (∀ a b t, singleResult (pre ++ (a :: b :: t) :: rest) = .ok (none, true)) ∧
    singleResult (pre ++ [[]] :: rest) = .error .indexError := by
  induction pre with
  | nil => simp [singleResult]
  | cons m t ih =>
    have hm := hpre m (by simp)
    subst hm
    simpa [singleResult] using ih (fun m hm => hpre m (by simp [hm]))

example : singleResult (K := ℚ) [[], [[.fin 7, .fin 3]], [[.fin 1], [.fin 2]]] = .ok (some (.fin 3), false) := by
  decide +kernel

/-- Warnings and recorded values of a case: one warning for every number without an observed value and for every
unusable entry, one recorded value for every "record" entry. -/
theorem checkCase_reports (pctTol absTol : K) (es : List (Expected K × List (Matches K))) {st : CaseState K}
    (h : checkCase pctTol absTol es = .ok st) :
    st.warnings = es.countP (fun e => match e.1 with
      | .num _ => (match singleResult e.2 with | .ok (_, w) => w | .error _ => false)
      | .record => false
      | .bad => true) ∧
    st.recorded = es.countP (fun e => match e.1 with | .record => true | _ => false) := by
  have key : ∀ (es : List (Expected K × List (Matches K))) (s0 : CaseState K),
      es.foldlM (checkKey pctTol absTol) s0 = .ok st →
      st.warnings = s0.warnings + es.countP (fun e => match e.1 with
        | .num _ => (match singleResult e.2 with | .ok (_, w) => w | .error _ => false)
        | .record => false
        | .bad => true) ∧
      st.recorded = s0.recorded + es.countP (fun e => match e.1 with | .record => true | _ => false) := by
    intro es
    induction es with
    | nil => intro s0 h; cases h; simp
    | cons e es ih =>
      intro s0 h
      rw [List.foldlM_cons] at h
      obtain ⟨x, logs⟩ := e
      cases x with
      | num x =>
        cases hr : singleResult logs with
        | error e => simp [checkKey, hr, bind, Except.bind] at h
        | ok r =>
          obtain ⟨o, w⟩ := r
          simp only [checkKey, hr, bind, Except.bind] at h
          obtain ⟨h1, h2⟩ := ih _ h
          rw [h1, h2]
          cases w <;> simp [List.countP_cons, hr, Nat.add_assoc, Nat.add_comm, Nat.add_left_comm]
      | record =>
        cases hr : singleResult logs with
        | error e => simp [checkKey, hr, bind, Except.bind] at h
        | ok r =>
          obtain ⟨o, w⟩ := r
          cases o with
          | none => simp [checkKey, hr, bind, Except.bind] at h
          | some o =>
            simp only [checkKey, hr, bind, Except.bind] at h
            obtain ⟨h1, h2⟩ := ih _ h
            rw [h1, h2]
            simp [List.countP_cons, Nat.add_assoc, Nat.add_comm, Nat.add_left_comm]
      | bad =>
        simp only [checkKey, bind, Except.bind] at h
        obtain ⟨h1, h2⟩ := ih _ h
        rw [h1, h2]
        simp [List.countP_cons, Nat.add_assoc, Nat.add_comm, Nat.add_left_comm]
  simpa using key es _ h

/-- **Violation.**  Recording a value whose column is not in the log ends the whole batch with an exception. -/
theorem record_missing_violated (pctTol absTol : K) :
    checkCase pctTol absTol [(.record, [[]])] = .error .typeError := rfl

/-- an example with a pass, a fail and a missing column -/
example : (checkCase (K := ℚ) (1 / 5) (1 / 10 ^ 9)
    [(.num (.fin 100), [[], [[.fin 7, .fin (1001 / 10)]]]), (.num (.fin 100), [[[.fin 101]]]),
     (.num (.fin 3), [[], []])]).map (fun st => (st.counts, st.warnings)) = .ok (⟨1, 2, 0⟩, 1) := by
  decide +kernel

/-! ## sweep refinement -/

variable {V : Type} [AddCommGroup V] [Module K V]

/-- the points from `a` towards `b`, `m` to the interval, without `b` -/
def segment (K : Type) [Field K] {V : Type} [AddCommGroup V] [Module K V] (m : Nat) (a b : V) : List V :=
  (List.range m).map (fun p : ℕ => ((p : K) / (m : K)) • (b - a) + a)

/-- the specification: every interval divided into `m` equal parts -/
def refined (K : Type) [Field K] {V : Type} [AddCommGroup V] [Module K V] (m : Nat) : List V → List V
  | a :: b :: rest => segment K m a b ++ refined K m (b :: rest)
  | l => l

theorem addPoint_ok {m i p : Nat} {pre rest : List V} {first second : V} {mid : List V}
    (hpre : pre.length = m * i) (hmid : (first :: mid).length = p) (vals : List V)
    (hv : vals = pre ++ first :: mid ++ second :: rest) :
    addPoint (K := K) m i p vals =
      .ok (pre ++ first :: mid ++ (((p : K) / (m : K)) • (second - first) + first) :: second :: rest) := by
  subst hv
  unfold addPoint
  have h1 : (pre ++ first :: mid ++ second :: rest)[m * i]? = some first := by
    rw [List.append_assoc, List.getElem?_append_right (by omega)]
    simp [hpre]
  have h2 : (pre ++ first :: mid ++ second :: rest)[m * i + p]? = some second := by
    rw [List.getElem?_append_right (by simp at hmid ⊢; omega)]
    have : m * i + p - (pre ++ first :: mid).length = 0 := by simp at hmid ⊢; omega
    rw [this]; rfl
  rw [h1, h2]
  simp only [Except.ok.injEq]
  have hlen : m * i + p = (pre ++ first :: mid).length := by simp at hmid ⊢; omega
  rw [hlen]
  clear h1 h2 hmid hpre hlen
  generalize pre ++ first :: mid = l
  induction l with
  | nil => rfl
  | cons a l ih => simp [List.insertIdx_succ_cons, ih]

/-- the inner loop of `_addPoints` fills one interval -/
theorem fill_interval {m i : Nat} (hm : 1 ≤ m) {pre rest : List V} {a b : V} (hpre : pre.length = m * i) :
    (List.range (m - 1)).foldlM (fun l p => addPoint (K := K) m i (p + 1) l) (pre ++ a :: b :: rest)
      = .ok (pre ++ segment K m a b ++ b :: rest) := by
  have key : ∀ k ≤ m - 1, (List.range k).foldlM (fun l p => addPoint (K := K) m i (p + 1) l) (pre ++ a :: b :: rest)
      = .ok (pre ++ (List.range (k + 1)).map (fun p : ℕ => ((p : K) / (m : K)) • (b - a) + a) ++ b :: rest) := by
    intro k
    induction k with
    | zero => intro _; simp [pure, Except.pure]
    | succ k ih =>
      intro hk
      rw [List.range_succ, List.foldlM_append, ih (by omega)]
      simp only [bind, Except.bind, List.foldlM_cons, List.foldlM_nil]
      rw [addPoint_ok (K := K) (i := i) (p := k + 1) (pre := pre) (rest := rest) (first := a) (second := b)
        (mid := (List.range k).map (fun p : ℕ => (((p + 1 : ℕ) : K) / (m : K)) • (b - a) + a)) hpre (by simp)
        _ (by rw [List.range_succ_eq_map]; simp [Function.comp_def])]
      simp only [pure, Except.pure, Except.ok.injEq]
      conv_rhs => rw [List.range_succ_eq_map, List.range_succ]
      simp [Function.comp_def]
  have := key (m - 1) (le_refl _)
  rw [this, segment, show m - 1 + 1 = m by omega]

theorem addPoints_aux {m : Nat} (hm : 1 ≤ m) (vals : List V) : ∀ (i : Nat) (pre : List V), pre.length = m * i →
    ((List.range (vals.length - 1)).map (· + i)).foldlM (fun l i =>
      (List.range (m - 1)).foldlM (fun l p => addPoint (K := K) m i (p + 1) l) l) (pre ++ vals)
      = .ok (pre ++ refined K m vals) := by
  induction vals with
  | nil => intro i pre _; simp [refined, pure, Except.pure]
  | cons a t ih =>
    intro i pre hpre
    cases t with
    | nil => simp [refined, pure, Except.pure]
    | cons b rest =>
      have e : (List.range ((a :: b :: rest).length - 1)).map (· + i)
          = i :: (List.range ((b :: rest).length - 1)).map (· + (i + 1)) := by
        simp only [List.length_cons, Nat.add_sub_cancel]
        rw [List.range_succ_eq_map]
        simp only [List.map_cons, Nat.zero_add, List.map_map, List.cons.injEq, true_and]
        apply List.map_congr_left
        intro x _
        simp; omega
      rw [e, List.foldlM_cons, fill_interval hm hpre]
      simp only [bind, Except.bind]
      have := ih (i + 1) (pre ++ segment K m a b) (by simp [segment, hpre]; ring)
      rw [this]
      simp [refined]

/-- **Sweep refinement.**  For every list of sweep values and every multiple `m ≥ 1`, adding points divides
every interval between neighbouring values into `m` equal parts and changes nothing else. -/
theorem addPoints_spec {m : Nat} (hm : 1 ≤ m) (vals : List V) :
    addPoints (K := K) m vals = .ok (refined K m vals) := by
  have := addPoints_aux (K := K) hm vals 0 [] (by simp)
  simpa [addPoints] using this

theorem refined_length {m : Nat} (vals : List V) :
    (refined K m vals).length = m * (vals.length - 1) + (if vals = [] then 0 else 1) := by
  induction vals with
  | nil => simp [refined]
  | cons a t ih =>
    cases t with
    | nil => simp [refined]
    | cons b rest =>
      simp only [refined, List.length_append, ih, segment, List.length_map, List.length_range, List.length_cons]
      simp only [Nat.add_sub_cancel, reduceCtorEq, if_false]
      ring

/-- **Requested points stay, at known places.**  The value at position `m·i` of the refined sweep is the
`i`-th requested value; the value at position `m·i + p` is `p/m` of the way to the next. -/
theorem refined_get {m : Nat} (hm : 1 ≤ m) (vals : List V) (i : Nat) :
    (refined K m vals)[m * i]? = vals[i]? ∧
    ∀ p < m, ∀ a b, vals[i]? = some a → vals[i + 1]? = some b →
      (refined K m vals)[m * i + p]? = some (((p : K) / (m : K)) • (b - a) + a) := by
  induction vals generalizing i with
  | nil => simp [refined]
  | cons a t ih =>
    cases t with
    | nil =>
      cases i with
      | zero => simp [refined]
      | succ i =>
        refine ⟨?_, by simp⟩
        have : 1 ≤ m * (i + 1) := Nat.le_trans hm (Nat.le_mul_of_pos_right m (by omega))
        simp [refined, this]; omega
    | cons b rest =>
      cases i with
      | zero =>
        simp only [refined, Nat.mul_zero]
        refine ⟨?_, ?_⟩
        · rw [List.getElem?_append_left (by simp [segment]; omega)]
          simp [segment, hm]
          rw [List.getElem?_range (by omega)]; simp
        · intro p hp x y hx hy
          simp at hx hy
          subst hx; subst hy
          rw [Nat.zero_add, List.getElem?_append_left (by simp [segment]; omega)]
          simp [segment, hp]
      | succ i =>
        obtain ⟨h1, h2⟩ := ih i
        simp only [refined]
        have hs : (segment K m a b).length = m := by simp [segment]
        refine ⟨?_, ?_⟩
        · rw [List.getElem?_append_right (by rw [hs]; exact Nat.le_mul_of_pos_right m (by omega)), hs,
            show m * (i + 1) - m = m * i by rw [Nat.mul_succ]; omega, h1]
          simp
        · intro p hp x y hx hy
          rw [List.getElem?_append_right (by rw [hs]; exact Nat.le_trans (Nat.le_mul_of_pos_right m (by omega)) (Nat.le_add_right _ _)),
            hs, show m * (i + 1) + p - m = m * i + p by rw [Nat.mul_succ]; omega]
          exact h2 p hp x y (by simpa using hx) (by simpa using hy)

example : addPoints (K := ℚ) (V := ℚ) 4 [0, 4, 5] = .ok [0, 1, 2, 3, 4, 17 / 4, 9 / 2, 19 / 4, 5] := by
  decide +kernel

/-! ## expected values of a sweep -/

/-- **Each expected value is compared at its own sweep point.**  With at least two expected values, and the
results of a refined or unrefined sweep over as many requested points, the `i`-th expected value is compared
with the result for the `i`-th requested point, and with nothing else. -/
theorem sweep_compared [FloorRing K] (pctTol absTol : K) (smooth : Bool) (c : Counts)
    {es : List (Fl K)} (hn : 2 ≤ es.length) (f : Nat → Fl K) {data : List (Fl K)}
    (hdata : ∀ i < es.length, data[i * (if smooth then 10 else 1)]? = some (f i)) :
    sweepCheck pctTol absTol smooth c es data =
      .ok (es.zipIdx.foldl (fun c ei => checkResult pctTol absTol c (some (f ei.2)) ei.1) c) := by
  obtain ⟨a, b, rest, rfl⟩ : ∃ a b rest, es = a :: b :: rest := by
    match es, hn with
    | a :: b :: rest, _ => exact ⟨a, b, rest, rfl⟩
  simp only [sweepCheck]
  have key : ∀ (l : List (Fl K × Nat)) (c : Counts), (∀ x ∈ l, x.2 < (a :: b :: rest).length) →
      l.foldlM (fun c (ei : Fl K × Nat) => (match data[ei.2 * (if smooth then 10 else 1)]? with
        | none => Except.error PyErr.indexError
        | some v => Except.ok (checkResult pctTol absTol c (some v) ei.1))) c
      = .ok (l.foldl (fun c ei => checkResult pctTol absTol c (some (f ei.2)) ei.1) c) := by
    intro l
    induction l with
    | nil => intro c _; rfl
    | cons x l ih =>
      intro c hx
      rw [List.foldlM_cons]
      rw [hdata x.2 (hx x (by simp))]
      simp only [bind, Except.bind, List.foldl_cons]
      exact ih _ (fun y hy => hx y (by simp [hy]))
  apply key
  intro x hx
  have := List.mem_zipIdx' hx
  exact this.1

/-- A sweep with more expected values than sweep points ends with an exception rather than a verdict -/
theorem sweep_too_many [FloorRing K] (pctTol absTol : K) (c : Counts) {a b : Fl K}
    (x : Fl K) : sweepCheck pctTol absTol true c [a, b] [x] = .error .indexError := by
  simp [sweepCheck, bind, Except.bind]

/-- how many points are checked when a single expected value is given for a refined sweep of `n + 1` points -/
theorem single_expected_count [FloorRing K] (n : Nat) :
    (GNC.pyRound (((10 * n + 1 : ℕ) : K) / ((10 : ℕ) : K))).toNat = n := by
  have h := GNC.pyRound_close (((10 * n + 1 : ℕ) : K) / ((10 : ℕ) : K))
  generalize GNC.pyRound (((10 * n + 1 : ℕ) : K) / ((10 : ℕ) : K)) = z at h
  have e : (((10 * n + 1 : ℕ) : K) / ((10 : ℕ) : K)) = n + 1 / 10 := by push_cast; field_simp
  rw [e, abs_le] at h
  have h1 : (z : K) < ((n : ℤ) + 1 : ℤ) := by push_cast; linarith [h.1]
  have h2 : (((n : ℤ) - 1 : ℤ) : K) < z := by push_cast; linarith [h.2]
  have h3 := Int.cast_lt.1 h1
  have h4 := Int.cast_lt.1 h2
  omega

/-- **Violation.**  With a single expected value for a refined sweep, the last point is never checked: here
the result is wrong there, and the sweep passes with one comparison. -/
theorem last_point_violated :
    sweepCheck (K := ℚ) (1 / 5) (1 / 10 ^ 9) true ⟨0, 0, 0⟩ [.fin 1]
      ([.fin 1, .fin 1, .fin 1, .fin 1, .fin 1, .fin 1, .fin 1, .fin 1, .fin 1, .fin 1, .fin 7]) = .ok ⟨1, 0, 0⟩ := by
  decide +kernel

/-- **Violation.**  A refined sweep with one point and one expected value is not checked at all. -/
theorem one_point_violated :
    sweepCheck (K := ℚ) (1 / 5) (1 / 10 ^ 9) true ⟨0, 0, 0⟩ [.fin 1] [.fin 7] = .ok ⟨0, 0, 0⟩ := by
  decide +kernel

/-- **Violation.**  Recorded results of a refined sweep cannot be checked afterwards: recording stores every
refined point, checking reads every tenth. -/
theorem record_then_check_violated [FloorRing K] (pctTol absTol : K) (c : Counts) {data : List (Fl K)}
    (hd : 2 ≤ data.length) : sweepCheck pctTol absTol true c data data = .error .indexError := by
  obtain ⟨a, b, rest, rfl⟩ : ∃ a b rest, data = a :: b :: rest := by
    match data, hd with
    | a :: b :: rest, _ => exact ⟨a, b, rest, rfl⟩
  simp only [sweepCheck, if_true]
  generalize hD : a :: b :: rest = D at hd
  have key : ∀ (l : List (Fl K × Nat)) (c : Counts) , (∃ x ∈ l, D.length ≤ x.2 * 10) →
      l.foldlM (fun c (ei : Fl K × Nat) => (match D[ei.2 * 10]? with
        | none => Except.error PyErr.indexError
        | some v => Except.ok (checkResult pctTol absTol c (some v) ei.1))) c = .error .indexError := by
    intro l
    induction l with
    | nil => intro c ⟨x, hx, _⟩; simp at hx
    | cons y l ih =>
      intro c ⟨x, hx, hlen⟩
      rw [List.foldlM_cons]
      cases hy : D[y.2 * 10]? with
      | none => rfl
      | some v =>
        simp only [bind, Except.bind]
        apply ih
        rcases List.mem_cons.1 hx with rfl | hx
        · rw [List.getElem?_eq_none (by omega)] at hy; simp at hy
        · exact ⟨x, hx, hlen⟩
  apply key
  refine ⟨(D[D.length - 1], D.length - 1), ?_, by simp; omega⟩
  rw [List.mem_zipIdx_iff_getElem?]
  simp

end Mapleaf.Run
