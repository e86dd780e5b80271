import Verif.Run.RecordModel
import Verif.Run.BatchProps
import Verif.Run.CaseProps
import Verif.Run.FigSaveProps
import Verif.SimDef.WriterProps
import Verif.Log.PostProps

/-!
# C89: a batch reports on the selected cases and can be run against its own recorded results (1)

Exact outcome of every entry, case and batch; the summary and the file written.
-/

namespace Mapleaf.Rec
open Str SimDef Run

variable {K : Type} [Field K] [LinearOrder K] [IsStrictOrderedRing K]

theorem bind_ok_iff {α β : Type} (x : Except PyErr α) (f : α → Except PyErr β) (b : β) :
    (x >>= f) = .ok b ↔ ∃ a, x = .ok a ∧ f a = .ok b := by
  cases x with
  | error e => simp [bind, Except.bind]
  | ok a => simp [bind, Except.bind]

/-! ## the entries of a full flight -/

/-- **C89** One entry of `ExpectedFinalValues`, exactly: a text that reads as a number is compared with the last value of the one
column its last name hits; "record", or any text when all is recorded, is replaced by that value; any other text gives a warning. -/
theorem checkEntry_ok_iff (W : World K) (S : Settings K) (case : Str) (logs : Logs K) (acc acc' : St K × Counts) (key : Str) :
    checkEntry W S case logs acc key = .ok acc' ↔ ∃ text, (getString acc.1.batch case key).1 = .ok text ∧
      ((∃ x o w, S.recordAll = false ∧ W.float text = some x ∧
          singleResult (logs.map (fun f => f (getDictName key))) = .ok (o, w) ∧
          acc' = ({ acc.1 with warnings := acc.1.warnings + (if w then 1 else 0) },
            { passed := acc.2.passed + (if passes S.pctTol S.absTol o x then 1 else 0)
              failed := acc.2.failed + (if passes S.pctTol S.absTol o x then 0 else 1)
              errors := acc.2.errors })) ∨
       (∃ v w, (S.recordAll = true ∨ W.float text = none ∧ text.map Char.toLower = "record".toList) ∧
          singleResult (logs.map (fun f => f (getDictName key))) = .ok (some v, w) ∧
          acc' = ({ acc.1 with batch := setValue acc.1.batch key (W.showF v), recorded := setAdd acc.1.recorded case }, acc.2)) ∨
       (S.recordAll = false ∧ W.float text = none ∧ text.map Char.toLower ≠ "record".toList ∧
          acc' = ({ acc.1 with warnings := acc.1.warnings + 1 }, acc.2))) := by
  unfold checkEntry
  rw [bind_ok_iff]
  refine exists_congr fun text => and_congr_right fun _ => ?_
  have hrec : ∀ (P : Prop), saysRecord text = true ↔ text.map Char.toLower = "record".toList := by
    intro _; simp [saysRecord]
  cases hr : S.recordAll with
  | true =>
    simp only [if_true, Bool.or_true, bind_ok_iff, reduceCtorEq, false_and, exists_false, false_or, true_or, true_and, or_false]
    constructor
    · rintro ⟨⟨o, w⟩, h1, h2⟩
      cases o with
      | none => simp at h2
      | some v => simp only [Except.ok.injEq] at h2; exact ⟨v, w, h1, h2.symm⟩
    · rintro ⟨v, w, h1, h2⟩
      exact ⟨(some v, w), h1, by simp [h2]⟩
  | false =>
    simp only [Bool.false_eq_true, if_false, Bool.or_false]
    cases hf : W.float text with
    | some x =>
      simp only [bind_ok_iff, true_and, Option.some.injEq, reduceCtorEq, false_and, and_false, exists_false, or_false]
      have hc : ∀ o : Option (Fl K), checkResult S.pctTol S.absTol acc.2 o x =
          { passed := acc.2.passed + (if passes S.pctTol S.absTol o x then 1 else 0)
            failed := acc.2.failed + (if passes S.pctTol S.absTol o x then 0 else 1)
            errors := acc.2.errors } := by
        intro o; unfold checkResult; split <;> simp
      constructor
      · rintro ⟨⟨o, w⟩, h1, h2⟩
        rw [hc] at h2
        simp only [Except.ok.injEq] at h2
        exact ⟨x, o, w, rfl, h1, h2.symm⟩
      · rintro ⟨y, o, w, rfl, h1, h2⟩
        refine ⟨(o, w), h1, ?_⟩
        rw [hc, h2]
    | none =>
      simp only [reduceCtorEq, false_and, and_false, exists_false, false_or, true_and]
      by_cases ht : text.map Char.toLower = "record".toList
      · rw [if_pos ((hrec True).2 ht)]
        simp only [bind_ok_iff]
        generalize "record".toList = R at ht ⊢
        simp only [ht, not_true_eq_false, ne_eq, false_and, or_false, true_and]
        constructor
        · rintro ⟨⟨o, w⟩, h1, h2⟩
          cases o with
          | none => simp at h2
          | some v => simp only [Except.ok.injEq] at h2; exact ⟨v, w, h1, h2.symm⟩
        · rintro ⟨v, w, h1, h2⟩
          exact ⟨(some v, w), h1, by simp [h2]⟩
      · rw [if_neg (fun h => ht ((hrec True).1 h))]
        generalize "record".toList = R at ht ⊢
        simp only [ht, false_and, exists_false, false_or, ne_eq, not_false_eq_true, true_and, Except.ok.injEq]
        exact ⟨fun h => h.symm, fun h => h.symm⟩

/-- **C89** A full flight, exactly: a simulation that raises counts one failure and one error and records nothing; otherwise all
entries are gone through in the order of the definition, the first one with counters at zero. -/
theorem fullFlight_ok_iff (W : World K) (S : Settings K) (case : Str) (sim : Store) (st : St K) (r : St K × Counts × Logs K) :
    fullFlight W S case sim st = .ok r ↔
      ((∃ e, W.fly sim = .error e) ∧ r = (st, ⟨0, 1, 1⟩, [])) ∨
      ∃ logs, W.fly sim = .ok logs ∧ r.2.2 = logs ∧
        ((CaseM.expectedKeys case st.batch).2 = [] ∧
          r.1 = { st with batch := (CaseM.expectedKeys case st.batch).1, warnings := st.warnings + 1 } ∧ r.2.1 = ⟨0, 0, 0⟩ ∨
         (CaseM.expectedKeys case st.batch).2 ≠ [] ∧
          (CaseM.expectedKeys case st.batch).2.foldlM (checkEntry W S case logs)
            ({ st with batch := (CaseM.expectedKeys case st.batch).1 }, ⟨0, 0, 0⟩) = .ok (r.1, r.2.1)) := by
  obtain ⟨r1, r2, r3⟩ := r
  unfold fullFlight
  cases hf : W.fly sim with
  | error e =>
    simp only [Except.ok.injEq, Prod.mk.injEq, Except.error.injEq, exists_eq', true_and, reduceCtorEq, false_and, exists_false,
      or_false, crashed]
    exact ⟨fun ⟨a, b, c⟩ => ⟨a.symm, b.symm, c.symm⟩, fun ⟨a, b, c⟩ => ⟨a.symm, b.symm, c.symm⟩⟩
  | ok logs =>
    simp only [bind_ok_iff, reduceCtorEq, exists_false, false_and, false_or, Except.ok.injEq, exists_eq_left']
    by_cases hk : (CaseM.expectedKeys case st.batch).2 = []
    · simp only [hk, List.length_nil, if_true, List.foldlM_nil, pure, Except.pure, Except.ok.injEq, exists_eq_left',
        Prod.mk.injEq, ne_eq, not_true_eq_false, false_and, or_false, true_and]
      exact ⟨fun ⟨a, b, c⟩ => ⟨c.symm, a.symm, b.symm⟩, fun ⟨a, b, c⟩ => ⟨b.symm, c.symm, a.symm⟩⟩
    · have hl : ¬ (CaseM.expectedKeys case st.batch).2.length = 0 := fun h => hk (List.eq_nil_of_length_eq_zero h)
      simp only [hk, hl, if_false, Nat.add_zero, ne_eq, not_false_eq_true, true_and, false_and, false_or, Prod.mk.injEq]
      constructor
      · rintro ⟨⟨a, b⟩, h1, h2, h3, h4⟩
        dsimp only at h2 h3
        exact ⟨h4.symm, by rw [h1, h2, h3]⟩
      · rintro ⟨h1, h2⟩
        exact ⟨(r1, r2), h2, rfl, rfl, h1.symm⟩

/-! ## the entries of a sweep -/

/-- **C89** One dictionary of expected results of a sweep, exactly. -/
theorem sweepEntry_ok_iff [FloorRing K] (W : World K) (S : Settings K) (case smooth : Str) (logs : Logs K)
    (acc acc' : St K × Counts) (d : Str) :
    sweepEntry W S case smooth logs acc d = .ok acc' ↔ ∃ spec text data,
      (getString acc.1.batch case (d ++ ".column".toList)).1 = .ok spec ∧
      (getString acc.1.batch case (d ++ ".expectedValues".toList)).1 = .ok text ∧
      CaseM.sweepColumn (logs.map (fun f => f spec)) = .ok data ∧
      ((S.recordAll = true ∨ W.float text = none ∧ text.map Char.toLower = "record".toList) ∧
          acc' = ({ acc.1 with
            batch := setValue acc.1.batch (d ++ ".expectedValues".toList) (join ", ".toList (data.map W.showF))
            recorded := setAdd acc.1.recorded case }, acc.2) ∨
       (¬ (S.recordAll = true ∨ W.float text = none ∧ text.map Char.toLower = "record".toList) ∧
          ∃ b, Fig.strtobool smooth = .ok b ∧ acc'.1 = acc.1 ∧
           ((∃ es, (splitC ',' text).mapM W.float = some es ∧ sweepCheck S.pctTol S.absTol b acc.2 es data = .ok acc'.2) ∨
            ((splitC ',' text).mapM W.float = none ∧ ',' ∉ text ∧
              GNC.pyRound ((data.length : K) / ((if b then 10 else 1 : ℕ) : K)) ≤ 0 ∧ acc'.2 = acc.2)))) := by
  have hsplit : ∀ text : Str, ',' ∉ text → splitC ',' text = [text] := by
    intro text h
    have := splitC_join ',' (l := [text]) (by simp) (by simpa using h)
    simpa [join] using this
  have hsingle : ∀ text p : Str, splitC ',' text = [p] → p = text ∧ ',' ∉ text := by
    intro text p h
    have h1 := join_splitC ',' text
    rw [h] at h1
    have h2 : p = text := h1
    exact ⟨h2, by rw [← h2]; exact splitC_no_sep (s := text) p (by rw [h]; simp)⟩
  have hcomma : ∀ text : Str, text.map Char.toLower = "record".toList → ',' ∉ text := by
    intro text h hm
    have : Char.toLower ',' ∈ text.map Char.toLower := List.mem_map_of_mem hm
    rw [h] at this
    revert this; decide +kernel
  have hrec : ∀ text : Str, asksRecord ((splitC ',' text).mapM W.float) (splitC ',' text) = true ↔
      W.float text = none ∧ text.map Char.toLower = "record".toList := by
    intro text
    unfold asksRecord
    constructor
    · intro h
      split at h
      · rename_i p h1 h2
        obtain ⟨rfl, _⟩ := hsingle _ _ h2
        rw [h2] at h1
        refine ⟨?_, by simpa [saysRecord] using h⟩
        cases hf : W.float p with
        | none => rfl
        | some x => simp [hf] at h1
      · cases h
    · rintro ⟨h1, h2⟩
      rw [hsplit _ (hcomma _ h2)]
      simp only [List.mapM_cons, h1]
      simpa [saysRecord] using h2
  obtain ⟨a1, a2⟩ := acc'
  unfold sweepEntry
  rw [bind_ok_iff]
  refine exists_congr fun spec => ?_
  simp only [bind_ok_iff]
  constructor
  · rintro ⟨h1, text, h2, data, h3, h4⟩
    refine ⟨text, data, h1, h2, h3, ?_⟩
    by_cases hc : (asksRecord ((splitC ',' text).mapM W.float) (splitC ',' text) || S.recordAll) = true
    · rw [if_pos hc] at h4
      rw [Bool.or_eq_true, hrec] at hc
      simp only [Except.ok.injEq] at h4
      exact Or.inl ⟨hc.symm, h4.symm⟩
    · rw [if_neg hc] at h4
      rw [Bool.or_eq_true, hrec] at hc
      refine Or.inr ⟨fun h => hc h.symm, ?_⟩
      rw [bind_ok_iff] at h4
      obtain ⟨b, hb, h4⟩ := h4
      refine ⟨b, hb, ?_⟩
      cases hm : (splitC ',' text).mapM W.float with
      | some es =>
        rw [hm] at h4
        simp only [bind_ok_iff, Except.ok.injEq, Prod.mk.injEq] at h4
        obtain ⟨c, h5, h6, h7⟩ := h4
        subst h7
        exact ⟨h6.symm, Or.inl ⟨es, rfl, h5⟩⟩
      | none =>
        rw [hm] at h4
        simp only [bind_ok_iff, Except.ok.injEq, Prod.mk.injEq] at h4
        obtain ⟨c, h5, h6, h7⟩ := h4
        subst h7
        unfold textCheck at h5
        split at h5
        · rename_i p hp
          obtain ⟨_, hn⟩ := hsingle _ _ hp
          by_cases hle : GNC.pyRound ((data.length : K) / ((if b then 10 else 1 : ℕ) : K)) ≤ 0
          · rw [if_pos hle] at h5
            exact ⟨h6.symm, Or.inr ⟨rfl, hn, hle, (Except.ok.inj h5).symm⟩⟩
          · rw [if_neg hle] at h5; cases h5
        · split at h5 <;> cases h5
  · rintro ⟨text, data, h1, h2, h3, h4⟩
    refine ⟨h1, text, h2, data, h3, ?_⟩
    rcases h4 with ⟨hc, h4⟩ | ⟨hc, b, hb, h5, h6⟩
    · rw [if_pos (by rw [Bool.or_eq_true, hrec]; exact hc.symm), h4]
    · rw [if_neg (by rw [Bool.or_eq_true, hrec]; exact fun h => hc h.symm), bind_ok_iff]
      refine ⟨b, hb, ?_⟩
      subst h5
      rcases h6 with ⟨es, he, hs⟩ | ⟨hn, hcm, hle, h6⟩
      · rw [he]
        simp only [bind_ok_iff]
        exact ⟨a2, hs, rfl⟩
      · rw [hn]
        simp only [bind_ok_iff]
        refine ⟨a2, ?_, rfl⟩
        rw [hsplit _ hcm]
        unfold textCheck
        dsimp only
        rw [if_pos hle, h6]

/-- **C89** Several expected values of which one is not a number: nothing is recorded, and the comparison raises, an `IndexError` if the
column is empty, a `TypeError` if not. -/
theorem sweepEntry_several_texts [FloorRing K] (W : World K) (S : Settings K) (case smooth : Str) (logs : Logs K)
    (acc : St K × Counts) (d spec text : Str) (data : List (Fl K)) (b : Bool)
    (h1 : (getString acc.1.batch case (d ++ ".column".toList)).1 = .ok spec)
    (h2 : (getString acc.1.batch case (d ++ ".expectedValues".toList)).1 = .ok text)
    (h3 : CaseM.sweepColumn (logs.map (fun f => f spec)) = .ok data) (h4 : S.recordAll = false)
    (h5 : ',' ∈ text) (h6 : (splitC ',' text).mapM W.float = none) (h7 : Fig.strtobool smooth = .ok b) :
    sweepEntry W S case smooth logs acc d = .error (if data = [] then .indexError else .typeError) := by
  have hsingle : ∀ p : Str, splitC ',' text ≠ [p] := by
    intro p h
    have e1 := join_splitC ',' text
    rw [h] at e1
    have e2 : p = text := e1
    have e3 := splitC_no_sep (s := text) p (by rw [h]; simp)
    rw [e2] at e3
    exact e3 h5
  have ha : asksRecord (none : Option (List (Fl K))) (splitC ',' text) = false := by
    unfold asksRecord
    split
    · rename_i h; exact absurd h (hsingle _)
    · rfl
  have ht : textCheck b acc.2 (splitC ',' text) data = .error (if data = [] then .indexError else .typeError) := by
    unfold textCheck
    split
    · rename_i h; exact absurd h (hsingle _)
    · cases data <;> simp
  unfold sweepEntry
  simp only [h1, h2, h3, h4, h6, h7, ha, ht, bind, Except.bind, Bool.or_self, Bool.false_eq_true, if_false]

/-- **C89** A sweep, exactly: parameters, values and refinement are read from the definition; a sweep that raises counts one
failure and one error; otherwise all dictionaries of expected results are gone through. -/
theorem sweepCase_ok_iff [FloorRing K] (W : World K) (S : Settings K) (case : Str) (sim : Store) (st : St K)
    (r : St K × Counts × Logs K) :
    sweepCase W S case sim st = .ok r ↔ ∃ params values smooth, CaseM.readSweeps W.text st.batch case = .ok (params, values) ∧
      CaseM.smoothLine st.batch case values = .ok smooth ∧
      (((∃ e, W.tunnel params values smooth sim = .error e) ∧ r = (st, ⟨0, 1, 1⟩, [])) ∨
       ∃ logs, W.tunnel params values smooth sim = .ok logs ∧ r.2.2 = logs ∧
        (CaseM.resultDicts st.batch case).foldlM (sweepEntry W S case smooth logs) (st, ⟨0, 0, 0⟩) = .ok (r.1, r.2.1)) := by
  obtain ⟨r1, r2, r3⟩ := r
  unfold sweepCase
  simp only [bind_ok_iff]
  constructor
  · rintro ⟨⟨params, values⟩, h1, smooth, h2, h3⟩
    refine ⟨params, values, smooth, h1, h2, ?_⟩
    dsimp only at h3
    split at h3
    · rename_i e he
      simp only [Except.ok.injEq] at h3
      exact Or.inl ⟨⟨e, he⟩, h3.symm⟩
    · rename_i logs hl
      simp only [bind_ok_iff, Except.ok.injEq, Prod.mk.injEq] at h3
      obtain ⟨⟨a, b⟩, h4, h5, h6, h7⟩ := h3
      dsimp only at h5 h6
      exact Or.inr ⟨logs, hl, h7.symm, by rw [h4, h5, h6]⟩
  · rintro ⟨params, values, smooth, h1, h2, h3⟩
    refine ⟨(params, values), h1, smooth, h2, ?_⟩
    dsimp only
    rcases h3 with ⟨⟨e, he⟩, h3⟩ | ⟨logs, hl, h4, h5⟩
    · rw [he, h3]; rfl
    · rw [hl]
      simp only [bind_ok_iff, Except.ok.injEq, Prod.mk.injEq]
      exact ⟨(r1, r2), h5, rfl, rfl, h4.symm⟩

/-! ## one case, all cases -/

/-- **C89** One case, exactly: prepared with its overrides, run as sweep or flight, and its figures drawn from the logs - none
after a crash.  Whatever `prepareCase`, the checks or a figure raise ends the batch. -/
theorem runCase_ok_iff [FloorRing K] (W : World K) (S : Settings K) (case : Str) (st : St K) (r : St K × Counts) :
    runCase W S case st = .ok r ↔ ∃ sim sweep st1 logs, CaseM.prepareCase W.parseInt W.load case st.batch = .ok (sim, sweep) ∧
      (sweep = true ∧ sweepCase W S case sim st = .ok (st1, r.2, logs) ∨
       sweep = false ∧ fullFlight W S case sim st = .ok (st1, r.2, logs)) ∧
      (logs = [] ∧ r.1 = st1 ∨
       logs ≠ [] ∧ (readerList (getImmediateSubDicts st1.batch.dict) case (some "PlotsToGenerate".toList)).foldlM
         (drawFigure W logs) st1 = .ok r.1) := by
  obtain ⟨r1, r2⟩ := r
  have hfig : ∀ (logs : Logs K) (s1 : St K), drawFigures W case logs s1 = .ok r1 ↔
      (logs = [] ∧ r1 = s1 ∨ logs ≠ [] ∧ (readerList (getImmediateSubDicts s1.batch.dict) case
        (some "PlotsToGenerate".toList)).foldlM (drawFigure W logs) s1 = .ok r1) := by
    intro logs s1
    unfold drawFigures
    by_cases hl : logs = []
    · subst hl
      simp [eq_comm]
    · rw [if_pos (List.length_pos_of_ne_nil hl)]
      simp only [hl, false_and, false_or, ne_eq, not_false_eq_true, true_and]
  have hsim : ∀ sim sweep x, simulate W S case (sim, sweep) st = .ok x ↔
      (sweep = true ∧ sweepCase W S case sim st = .ok x ∨ sweep = false ∧ fullFlight W S case sim st = .ok x) := by
    intro sim sweep x
    unfold simulate
    cases sweep <;> simp
  unfold runCase
  simp only [bind_ok_iff]
  constructor
  · rintro ⟨⟨sim, sweep⟩, h1, ⟨st1, c, logs⟩, h2, s2, h3, h4⟩
    simp only [Except.ok.injEq, Prod.mk.injEq] at h4
    obtain ⟨rfl, rfl⟩ := h4
    exact ⟨sim, sweep, st1, logs, h1, (hsim _ _ _).1 h2, (hfig _ _).1 h3⟩
  · rintro ⟨sim, sweep, st1, logs, h1, h2, h3⟩
    exact ⟨(sim, sweep), h1, (st1, r2, logs), (hsim _ _ _).2 h2, r1, (hfig _ _).2 h3, rfl⟩

/-- **C89** A figure adds its warnings and its validation percentages to those of the batch, and changes nothing else. -/
theorem drawFigure_ok_iff (W : World K) (logs : Logs K) (st st' : St K) (d : Str) :
    drawFigure W logs st d = .ok st' ↔ ∃ n l, W.figure st.batch d logs = .ok (n, l) ∧ st'.batch = st.batch ∧
      st'.recorded = st.recorded ∧ st'.warnings = st.warnings + n ∧ st'.validation = st.validation ++ l := by
  unfold drawFigure
  rw [bind_ok_iff]
  constructor
  · rintro ⟨⟨n, l⟩, h1, h2⟩
    simp only [Except.ok.injEq] at h2
    subst h2
    exact ⟨n, l, h1, rfl, rfl, rfl, rfl⟩
  · rintro ⟨n, l, h1, h2, h3, h4, h5⟩
    refine ⟨(n, l), h1, ?_⟩
    cases st'
    simp only at h2 h3 h4 h5
    subst h2 h3 h4 h5
    rfl

/-- A chain of cases: each one starts from the results of the one before -/
inductive Ran [FloorRing K] (W : World K) (S : Settings K) : St K → List (Str × Counts) → St K → Prop
  | none (st : St K) : Ran W S st [] st
  | case {st st1 st2 : St K} {c : Str} {n : Counts} {l : List (Str × Counts)} :
      runCase W S c st = .ok (st1, n) → Ran W S st1 l st2 → Ran W S st ((c, n) :: l) st2

theorem foldl_ran [FloorRing K] (W : World K) (S : Settings K) (cases : List Str) : ∀ (st st' : St K)
    (done out : List (Str × Counts)), cases.foldlM (runStep W S) (st, done) = .ok (st', out) ↔
      ∃ l, out = done ++ l ∧ l.map Prod.fst = cases ∧ Ran W S st l st' := by
  induction cases with
  | nil =>
    intro st st' done out
    simp only [List.foldlM_nil, pure, Except.pure, Except.ok.injEq, Prod.mk.injEq, List.map_eq_nil_iff]
    constructor
    · rintro ⟨rfl, rfl⟩; exact ⟨[], by simp, rfl, .none _⟩
    · rintro ⟨l, rfl, rfl, h⟩; cases h; simp
  | cons c cases ih =>
    intro st st' done out
    rw [List.foldlM_cons, bind_ok_iff]
    constructor
    · rintro ⟨⟨s1, d1⟩, h1, h2⟩
      unfold runStep at h1
      rw [bind_ok_iff] at h1
      obtain ⟨⟨s2, n⟩, h3, h4⟩ := h1
      simp only [Except.ok.injEq, Prod.mk.injEq] at h4
      obtain ⟨rfl, rfl⟩ := h4
      obtain ⟨l, rfl, h5, h6⟩ := (ih _ _ _ _).1 h2
      exact ⟨(c, n) :: l, by simp, by simp [h5], .case h3 h6⟩
    · rintro ⟨l, rfl, h1, h2⟩
      cases h2 with
      | none => simp at h1
      | case h3 h4 =>
        rename_i s1 c' n l
        simp only [List.map_cons, List.cons.injEq] at h1
        obtain ⟨rfl, h1⟩ := h1
        refine ⟨(s1, done ++ [(c', n)]), ?_, (ih _ _ _ _).2 ⟨l, by simp, h1, h4⟩⟩
        unfold runStep
        rw [bind_ok_iff]
        exact ⟨(s1, n), h3, rfl⟩

/-- **C89** A batch run, exactly: the selected top-level dictionaries are run in the order of the definition, and the summary is
drawn from their results. -/
theorem run_ok_iff [FloorRing K] (W : World K) (S : Settings K) (i x : Option Str) (validate : Bool) (fileName : Str)
    (batch : Store) (s : Summary) :
    run W S i x validate fileName batch = .ok s ↔ ∃ st l, l.map Prod.fst = casesToRun i x (getImmediateSubDicts batch.dict []) ∧
      Ran W S ⟨batch, 0, [], []⟩ l st ∧ s = report validate fileName st l := by
  unfold run
  rw [bind_ok_iff]
  constructor
  · rintro ⟨⟨st, l⟩, h1, h2⟩
    obtain ⟨l', h3, h4, h5⟩ := (foldl_ran W S _ _ _ _ _).1 h1
    rw [List.nil_append] at h3
    subst h3
    exact ⟨st, l, h4, h5, by simpa using h2.symm⟩
  · rintro ⟨st, l, h1, h2, rfl⟩
    exact ⟨(st, l), (foldl_ran W S _ _ _ _ _).2 ⟨l, by simp, h1, h2⟩, rfl⟩

/-! ## the summary -/

/-- **C89** The summary lists the failed cases in order, returns 0 exactly when there are none, says OK exactly when there are
neither failures nor warnings, and writes a file exactly when something was recorded.  Asking for a validation for which no data
was found is a warning. -/
theorem report_spec (validate : Bool) (fileName : Str) (st : St K) (cases : List (Str × Counts)) (s : Summary)
    (hs : s = report validate fileName st cases) :
    s.cases = cases ∧
    s.failed = (cases.filter (fun c => decide (c.2.failed ≠ 0 ∨ c.2.errors ≠ 0))).map Prod.fst ∧
    (s.exit = 0 ↔ ∀ c ∈ cases, c.2.failed = 0 ∧ c.2.errors = 0) ∧ (s.exit = 0 ∨ s.exit = 1) ∧
    (s.verdict = .fail ↔ s.exit = 1) ∧ (s.verdict = .ok ↔ s.exit = 0 ∧ s.warnings = 0) ∧
    (s.warnings = if validate = true ∧ st.validation = [] then st.warnings + 1 else st.warnings) ∧
    (∀ p D, s.written = some (p, D) ↔ st.recorded ≠ [] ∧ D = st.batch.dict ∧
      p = replace fileName ".mapleaf".toList "_newExpectedResultsRecorded.mapleaf".toList) := by
  have hfil : cases.filter (fun c => decide (0 < c.2.failed) || decide (c.2.errors ≠ 0)) =
      cases.filter (fun c => decide (c.2.failed ≠ 0 ∨ c.2.errors ≠ 0)) := by
    apply List.filter_congr
    intro c _
    by_cases h : c.2.failed = 0
    · simp [h]
    · simp [h, Nat.pos_of_ne_zero h]
  subst hs
  unfold report
  dsimp only
  rw [hfil]
  have hz : ((cases.filter (fun c => decide (c.2.failed ≠ 0 ∨ c.2.errors ≠ 0))).map Prod.fst).length = 0 ↔
      ∀ c ∈ cases, c.2.failed = 0 ∧ c.2.errors = 0 := by
    rw [List.length_map, List.length_eq_zero_iff, List.filter_eq_nil_iff]
    refine forall₂_congr fun c _ => ?_
    rw [decide_eq_true_iff]
    tauto
  generalize ((cases.filter (fun c => decide (c.2.failed ≠ 0 ∨ c.2.errors ≠ 0))).map Prod.fst).length = n at hz ⊢
  refine ⟨rfl, rfl, ?_, ?_, ?_, ?_, ?_, ?_⟩
  · rw [← hz]; split <;> simp_all
  · split <;> simp
  · by_cases hn : n = 0
    · rw [if_pos hn, if_pos hn]
      generalize (st.warnings + if (validate && decide (st.validation.length = 0)) = true then 1 else 0) = w
      by_cases hw : w = 0 <;> simp [hw]
    · simp [hn]
  · by_cases hn : n = 0
    · rw [if_pos hn, if_pos hn]
      generalize (st.warnings + if (validate && decide (st.validation.length = 0)) = true then 1 else 0) = w
      by_cases hw : w = 0 <;> simp [hw]
    · simp [hn]
  · cases validate <;> by_cases h : st.validation = [] <;> simp [h]
  · intro p D
    by_cases h : st.recorded = []
    · simp [h]
    · rw [if_pos (List.length_pos_of_ne_nil h)]
      simp only [Option.some.injEq, Prod.mk.injEq, ne_eq, h, not_false_eq_true, true_and, newFile]
      exact ⟨fun ⟨a, b⟩ => ⟨b.symm, a.symm⟩, fun ⟨a, b⟩ => ⟨b.symm, a.symm⟩⟩

/-- **C89 fails** for "passes only if its cases pass" in that a batch in which no case is selected (a misspelt `--include`, an empty
definition) passes with OK. -/
theorem nothing_selected_violated [FloorRing K] (W : World K) (S : Settings K) (i x : Option Str) (fileName : Str) (batch : Store)
    (h : casesToRun i x (getImmediateSubDicts batch.dict []) = []) :
    ∃ s, run W S i x false fileName batch = .ok s ∧ s.cases = [] ∧ s.exit = 0 ∧ s.verdict = .ok ∧ s.written = none :=
  ⟨_, (run_ok_iff W S i x false fileName batch _).2 ⟨_, [], by rw [h]; rfl, .none _, rfl⟩, rfl, rfl, rfl, rfl⟩

example : casesToRun (some "Nsk".toList) none
    (getImmediateSubDicts [("NASA.simDefinitionFile".toList, "a.mapleaf".toList)] []) = [] := by decide +kernel

/-! ## the file written -/

/-- **C89** The recorded results go to the definition's name with `_newExpectedResultsRecorded` before its ending, when the ending
`.mapleaf` occurs nowhere else in the path. -/
theorem newFile_partial (stem : Str) (h : ¬ ".mapleaf".toList <:+: stem) :
    newFile (stem ++ ".mapleaf".toList) = stem ++ "_newExpectedResultsRecorded.mapleaf".toList := by
  have key : ∀ (u : Str), '.' ∉ u → ¬ ('.' :: u) <:+: stem → ∀ r,
      replace (stem ++ '.' :: u) ('.' :: u) r = stem ++ r := by
    intro u hu hn r
    apply LogM.replace_tail (by simp)
    intro s hs hne ⟨z, hz⟩
    by_cases hl : ('.' :: u).length ≤ s.length
    · have := List.prefix_of_prefix_length_le ⟨z, hz⟩ (List.prefix_append s ('.' :: u)) hl
      exact hn (this.isInfix.trans hs.isInfix)
    · have hlen : s.length < ('.' :: u).length := by omega
      have h1 : (('.' :: u) ++ z)[s.length]? = ('.' :: u)[s.length]? := List.getElem?_append_left hlen
      have h2 : (s ++ '.' :: u)[s.length]? = some '.' := by
        rw [List.getElem?_append_right (le_refl _)]; simp
      rw [hz, h2] at h1
      cases s with
      | nil => exact hne rfl
      | cons a s =>
        rw [List.length_cons, List.getElem?_cons_succ] at h1
        exact hu (List.mem_of_getElem? h1.symm)
  unfold newFile
  rw [show ".mapleaf".toList = '.' :: "mapleaf".toList by decide +kernel] at h ⊢
  exact key _ (by decide +kernel) h _

example : ¬ ".mapleaf".toList <:+: "Examples/BatchSims/regressionTests".toList := by rw [← isIn_iff]; decide +kernel

/-- **C89 fails** for definitions that are called otherwise: the recorded results are written over the definition itself. -/
theorem overwrites_violated (fileName : Str) (h : ¬ ".mapleaf".toList <:+: fileName) : newFile fileName = fileName := by
  unfold newFile replace
  rw [if_neg (by decide +kernel), replaceAux_not_in h]

/-- **C89 fails** for a path in which `.mapleaf` occurs twice: the name of the folder is changed too. -/
theorem folder_violated : newFile "old.mapleaf.d/tests.mapleaf".toList =
    "old_newExpectedResultsRecorded.mapleaf.d/tests_newExpectedResultsRecorded.mapleaf".toList := by decide +kernel

end Mapleaf.Rec
