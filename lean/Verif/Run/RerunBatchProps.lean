import Verif.Run.RerunCaseProps

/-!
# C89: a batch reports on the selected cases and can be run against its own recorded results (4)
-/

namespace Mapleaf.Rec
open Str SimDef Run

variable {K : Type} [Field K] [LinearOrder K] [IsStrictOrderedRing K]

/-! ## one case -/

/-- What a case must fulfil for its recorded results to pass the next time: a flight has expected results (otherwise the ones
added by default would be recorded then), and what is recorded are numbers that read back, not from a refined sweep. -/
structure Fit [FloorRing K] (W : World K) (S : Settings K) (c : Str) (b : Store) : Prop where
  given : ∀ sim, CaseM.prepareCase W.parseInt W.load c b = .ok (sim, false) →
    getSubKeys b.dict (relKey c "ExpectedFinalValues".toList) ≠ []
  flight : ∀ sim logs, CaseM.prepareCase W.parseInt W.load c b = .ok (sim, false) → W.fly sim = .ok logs →
    ∀ k, Result c k → Asked W S b k → ∀ v w, singleResult (logs.map (fun f => f (getDictName k))) = .ok (some v, w) → Reads W v
  sweep : ∀ sim params values smooth logs, CaseM.prepareCase W.parseInt W.load c b = .ok (sim, true) →
    CaseM.readSweeps W.text b c = .ok (params, values) → CaseM.smoothLine b c values = .ok smooth →
    W.tunnel params values smooth sim = .ok logs →
    ∀ d ∈ CaseM.resultDicts b c, Asked W S b (d ++ ".expectedValues".toList) → Fig.strtobool smooth = .ok false ∧
      ∀ spec data, Dict.get? b.dict (d ++ ".column".toList) = some spec →
        CaseM.sweepColumn (logs.map (fun f => f spec)) = .ok data → ∀ v ∈ data, Reads W v

theorem values_result {c n : Str} (hn : '.' ∉ n) : Result c (c ++ ".ParameterSweep.".toList ++ n ++ ".expectedValues".toList) :=
  Or.inr ⟨n, hn, rfl⟩

theorem column_not_result {c n : Str} (hc : Named c) (hn : '.' ∉ n) :
    ¬ AnyResult (c ++ ".ParameterSweep.".toList ++ n ++ ".column".toList) := by
  have hseg : splitC '.' (c ++ ".ParameterSweep.".toList ++ n ++ ".column".toList) =
      [c, "ParameterSweep".toList, n, "column".toList] := by
    rw [show ".column".toList = '.' :: "column".toList by decide +kernel, splitC_append_dot, sweep_dots, seg_cons hc.dot,
      seg_cons (by decide +kernel), seg_one hn, seg_one (by decide +kernel)]; rfl
  apply not_result_of
  · intro d rest h
    rw [hseg] at h
    have := (List.cons.inj (List.cons.inj h).2).1
    revert this; decide +kernel
  · intro d m h
    rw [hseg] at h
    have := (List.cons.inj (List.cons.inj (List.cons.inj (List.cons.inj h).2).2).2).1
    revert this; decide +kernel

theorem resultDicts_same {b b' : Store} (hs : Same b b') (c : Str) : CaseM.resultDicts b' c = CaseM.resultDicts b c := by
  unfold CaseM.resultDicts; rw [sweepDicts_same hs]

theorem fit_same [FloorRing K] {W : World K} {S : Settings K} {c : Str} (hc : Named c) {b b' : Store} (hs : Same b b')
    (ha : Apart c (Dict.keys b.dict)) (he : ∀ k, Result c k → Dict.get? b'.dict k = Dict.get? b.dict k) (hf : Fit W S c b) :
    Fit W S c b' := by
  have hp := prepareCase_same W.parseInt W.load hc hs ha.clean
  refine ⟨?_, ?_, ?_⟩
  · intro sim h
    rw [hp] at h
    have := hf.given sim h
    unfold getSubKeys at this ⊢
    rw [hs.keys]; exact this
  · intro sim logs h h2 k hk hask
    rw [hp] at h
    refine hf.flight sim logs h h2 k hk ?_
    unfold Asked at hask ⊢
    rw [← he k hk]; exact hask
  · intro sim params values smooth logs h h2 h3 h4 d hd hask
    rw [hp] at h
    rw [readSweeps_same W.text hc hs ha] at h2
    rw [smoothLine_same hc hs] at h3
    rw [resultDicts_same hs] at hd
    obtain ⟨n, hn, hdn⟩ := sweep_dict_form hc ha d (Or.inl hd)
    have := hf.sweep sim params values smooth logs h h2 h3 h4 d hd (by
      unfold Asked at hask ⊢
      rw [hdn] at hask ⊢
      rw [← he _ (values_result hn)]; exact hask)
    rw [hdn] at this ⊢
    rw [hs.get _ (column_not_result hc hn)]
    exact this

theorem resultDicts_nodup {b : Store} (hw : (Dict.keys b.dict).Nodup) (c : Str) : (CaseM.resultDicts b c).Nodup := by
  unfold CaseM.resultDicts CaseM.sweepDicts
  apply List.Nodup.filter
  unfold readerList
  split
  · exact getImmediateSubDicts_nodup _ _
  · dsimp only
    split <;> exact getImmediateSubDicts_nodup _ _

theorem figures_again (W : World K) (logs : Logs K) : ∀ (L : List Str) (st st' : St K),
    L.foldlM (drawFigure W logs) st = .ok st' →
    st'.batch = st.batch ∧ st'.recorded = st.recorded ∧ ∃ m l, st'.warnings = st.warnings + m ∧ st'.validation = st.validation ++ l ∧
      ∀ st2 : St K, (∀ d, W.figure st2.batch d logs = W.figure st.batch d logs) →
        L.foldlM (drawFigure W logs) st2 =
          .ok { st2 with warnings := st2.warnings + m, validation := st2.validation ++ l } := by
  intro L
  induction L with
  | nil =>
    intro st st' h
    cases h
    exact ⟨rfl, rfl, 0, [], rfl, by simp, fun st2 _ => by simp [pure, Except.pure]⟩
  | cons d L ih =>
    intro st st' h
    rw [List.foldlM_cons, bind_ok_iff] at h
    obtain ⟨s1, h1, h2⟩ := h
    obtain ⟨n, l, f1, f2, f3, f4, f5⟩ := (drawFigure_ok_iff W logs st s1 d).1 h1
    obtain ⟨g1, g2, m, l', g3, g4, g5⟩ := ih s1 st' h2
    refine ⟨g1.trans f2, g2.trans f3, n + m, l ++ l', by omega, by rw [g4, f5, List.append_assoc], ?_⟩
    intro st2 hst
    rw [List.foldlM_cons, bind_ok_iff]
    refine ⟨{ st2 with warnings := st2.warnings + n, validation := st2.validation ++ l },
      (drawFigure_ok_iff W logs st2 _ d).2 ⟨n, l, by rw [hst]; exact f1, rfl, rfl, rfl, rfl⟩, ?_⟩
    rw [g5 _ (by intro d; rw [f2]; exact hst d)]
    simp [Nat.add_assoc, List.append_assoc]

/-- **C89** One case changes no entry but its own expected results; and a case without failures, run again on the results it
recorded, again has none, records nothing and prints as many warnings. -/
theorem case_again [FloorRing K] (W : World K) (S : Settings K) (htol : 0 ≤ S.pctTol ∨ 0 ≤ S.absTol)
    (hfig : ∀ b b' : Store, Same b b' → ∀ d logs, W.figure b' d logs = W.figure b d logs)
    {c : Str} (hc : Named c) (st st1 : St K) (n : Counts) (hw : (Dict.keys st.batch.dict).Nodup) (hd : st.batch.defaults = [])
    (ha : Apart c (Dict.keys st.batch.dict)) (hfit : Fit W S c st.batch) (h : runCase W S c st = .ok (st1, n)) :
    (Dict.keys st1.batch.dict = Dict.keys st.batch.dict ∧ st1.batch.defaults = [] ∧
      ∀ k, ¬ Result c k → Dict.get? st1.batch.dict k = Dict.get? st.batch.dict k) ∧
    ∃ m l, st1.warnings = st.warnings + m ∧ st1.validation = st.validation ++ l ∧
      (n.failed = 0 → ∀ st2 : St K, Same st.batch st2.batch →
        (∀ k, Result c k → Dict.get? st2.batch.dict k = Dict.get? st1.batch.dict k) →
        ∃ n2, runCase W { S with recordAll := false } c st2 =
          .ok ({ st2 with warnings := st2.warnings + m, validation := st2.validation ++ l }, n2) ∧
          n2.failed = 0 ∧ n2.errors = 0) := by
  obtain ⟨sim, sweep, s1, logs, h1, h2, h3⟩ := (runCase_ok_iff W S c st (st1, n)).1 h
  dsimp only at h2 h3
  -- the simulation and its checks
  have hsim : (Dict.keys s1.batch.dict = Dict.keys st.batch.dict ∧ s1.batch.defaults = [] ∧
      ∀ k, ¬ Result c k → Dict.get? s1.batch.dict k = Dict.get? st.batch.dict k) ∧
    s1.validation = st.validation ∧ st.warnings ≤ s1.warnings ∧
      (n.failed = 0 → ∀ st2 : St K, Same st.batch st2.batch →
        (∀ k, Result c k → Dict.get? st2.batch.dict k = Dict.get? s1.batch.dict k) →
        ∃ n2, (sweep = true ∧ sweepCase W { S with recordAll := false } c sim st2 =
            .ok ({ st2 with warnings := st2.warnings + (s1.warnings - st.warnings) }, n2, logs) ∨
          sweep = false ∧ fullFlight W { S with recordAll := false } c sim st2 =
            .ok ({ st2 with warnings := st2.warnings + (s1.warnings - st.warnings) }, n2, logs)) ∧
          n2.failed = 0 ∧ n2.errors = 0) := by
    rcases h2 with ⟨rfl, h2⟩ | ⟨rfl, h2⟩
    · obtain ⟨params, values, smooth, r1, r2, r3⟩ := (sweepCase_ok_iff W S c sim st _).1 h2
      rcases r3 with ⟨_, r3⟩ | ⟨lg, r3, r4, r5⟩
      · simp only [Prod.mk.injEq] at r3
        obtain ⟨rfl, rfl, _⟩ := r3
        exact ⟨⟨rfl, hd, fun _ _ => rfl⟩, rfl, le_refl _, fun h => by cases h⟩
      · dsimp only at r4 r5
        subst r4
        obtain ⟨⟨b1, b2, b3, b4, b5, b6, b7⟩, hagain⟩ := sweep_fold W S htol hc logs smooth _ ha _ (resultDicts_nodup hw c)
          (fun d hd => sweep_dict_form hc ha d (Or.inl hd)) (st, ⟨0, 0, 0⟩) (s1, n)
          (fun d hdd hask => hfit.sweep sim params values smooth logs h1 r1 r2 r3 d hdd hask) rfl hd r5
        refine ⟨⟨b1, b2, fun k hk => b3 k (fun d hdd e => hk ?_)⟩, b4, le_of_eq b5.symm, ?_⟩
        · obtain ⟨m, hm, hdm⟩ := sweep_dict_form hc ha d (Or.inl hdd)
          rw [e, hdm]; exact values_result hm
        · intro hn st2 hs he
          obtain ⟨acc2', d0, d1, d2, d3⟩ := hagain hn (st2, ⟨0, 0, 0⟩) hs.keys hs.right (by
            intro d hdd
            obtain ⟨m, hm, hdm⟩ := sweep_dict_form hc ha d (Or.inl hdd)
            have hcol := column_not_result hc hm
            have hcol' : ¬ Result c (c ++ ".ParameterSweep.".toList ++ m ++ ".column".toList) :=
              fun h => hcol ⟨c, hc.dot, h⟩
            rw [hdm]
            refine ⟨he _ (values_result hm), ?_⟩
            rw [b3 _ (fun d' hd' e => ?_), hs.get _ hcol]
            obtain ⟨m', hm', hdm'⟩ := sweep_dict_form hc ha d' (Or.inl hd')
            apply hcol'
            rw [e, hdm']; exact values_result hm')
          refine ⟨acc2'.2, Or.inl ⟨rfl, ?_⟩, d2, d3⟩
          rw [sweepCase_ok_iff]
          refine ⟨params, values, smooth, by rw [readSweeps_same W.text hc hs ha]; exact r1,
            by rw [smoothLine_same hc hs]; exact r2, Or.inr ⟨logs, r3, rfl, ?_⟩⟩
          rw [resultDicts_same hs, d0]
          have e : s1.warnings - st.warnings = 0 := by
            have : s1.warnings = st.warnings := b5
            omega
          simp only [e, Nat.add_zero]
          obtain ⟨a, b⟩ := acc2'
          dsimp only at d1 ⊢
          rw [d1]
    · have hne := hfit.given sim h1
      have hks : ∀ k ∈ getSubKeys st.batch.dict (relKey c "ExpectedFinalValues".toList),
          k ∈ Dict.keys st.batch.dict ∧ ∃ s, k = c ++ ".ExpectedFinalValues.".toList ++ s := by
        intro k hk
        rw [mem_getSubKeys_iff] at hk
        obtain ⟨t, ht⟩ := subkey_form (by simp [relKey]) ((isSubKey_iff _ _).2 hk.2)
        refine ⟨hk.1, t, ?_⟩
        rw [efv_dots, ht, relKey]
        simp
      have hnd : (getSubKeys st.batch.dict (relKey c "ExpectedFinalValues".toList)).Nodup := by
        unfold getSubKeys
        exact hw.filter _
      rcases (fullFlight_ok_iff W S c sim st _).1 h2 with ⟨_, r3⟩ | ⟨lg, r3, r4, r5⟩
      · simp only [Prod.mk.injEq] at r3
        obtain ⟨rfl, rfl, _⟩ := r3
        exact ⟨⟨rfl, hd, fun _ _ => rfl⟩, rfl, le_refl _, fun h => by cases h⟩
      · dsimp only at r4 r5
        subst r4
        rw [CaseM.expectedKeys_spec c st.batch hne] at r5
        rcases r5 with ⟨r5, _⟩ | ⟨_, r5⟩
        · exact absurd r5 hne
        · dsimp only at r5
          obtain ⟨⟨b1, b2, b3, b4, b0, b5, b6⟩, hagain⟩ := flight_fold W S htol hc logs _ ha _ hnd hks
            (st, ⟨0, 0, 0⟩) (s1, n)
            (fun k hk hask => hfit.flight sim logs h1 r3 k (Or.inl (hks k hk).2) hask) rfl hd r5
          refine ⟨⟨b1, b2, fun k hk => b3 k (fun hm => hk (Or.inl (hks k hm).2))⟩, b4, b0, ?_⟩
          intro hn st2 hs he
          obtain ⟨acc2', d0, d1, d2, d3, d4, d5, d6⟩ := hagain hn (st2, ⟨0, 0, 0⟩) hs.keys hs.right
            (fun k hk => he k (Or.inl (hks k hk).2))
          refine ⟨acc2'.2, Or.inr ⟨rfl, ?_⟩, d5, d6⟩
          have hk2 : getSubKeys st2.batch.dict (relKey c "ExpectedFinalValues".toList) =
              getSubKeys st.batch.dict (relKey c "ExpectedFinalValues".toList) := by
            unfold getSubKeys; rw [hs.keys]
          rw [fullFlight_ok_iff]
          refine Or.inr ⟨logs, r3, rfl, Or.inr ?_⟩
          rw [CaseM.expectedKeys_spec c st2.batch (by rw [hk2]; exact hne), hk2]
          refine ⟨hne, ?_⟩
          dsimp only
          rw [d0]
          obtain ⟨⟨x1, x2, x3, x4⟩, b⟩ := acc2'
          dsimp only at d1 d2 d3 d4 ⊢
          rw [d1, d2, d3, show x2 = st2.warnings + (s1.warnings - st.warnings) by
            have : st.warnings ≤ s1.warnings := b0
            have : x2 + st.warnings = st2.warnings + s1.warnings := d4
            omega]
  obtain ⟨⟨c1, c2, c3⟩, c4, c5, c6⟩ := hsim
  have hs1 : Same st.batch s1.batch := ⟨c1, hd, c2, fun k hk => c3 k (fun h => hk ⟨c, hc.dot, h⟩)⟩
  rcases h3 with ⟨rfl, rfl⟩ | ⟨hl, h3⟩
  · refine ⟨⟨c1, c2, c3⟩, st1.warnings - st.warnings, [], by omega, by rw [c4]; simp, ?_⟩
    intro hn st2 hs he
    obtain ⟨n2, q1, q2, q3⟩ := c6 hn st2 hs he
    refine ⟨n2, ?_, q2, q3⟩
    rw [runCase_ok_iff]
    refine ⟨sim, sweep, _, [], by rw [prepareCase_same W.parseInt W.load hc hs ha.clean]; exact h1, q1, Or.inl ⟨rfl, ?_⟩⟩
    simp
  · obtain ⟨g1, g2, m, l, g3, g4, g5⟩ := figures_again W logs _ s1 st1 h3
    rw [g1]
    refine ⟨⟨c1, c2, c3⟩, (s1.warnings - st.warnings) + m, l, by omega, by rw [g4, c4], ?_⟩
    intro hn st2 hs he
    obtain ⟨n2, q1, q2, q3⟩ := c6 hn st2 hs he
    refine ⟨n2, ?_, q2, q3⟩
    rw [runCase_ok_iff]
    refine ⟨sim, sweep, _, logs, by rw [prepareCase_same W.parseInt W.load hc hs ha.clean]; exact h1, q1, Or.inr ⟨hl, ?_⟩⟩
    have hs2 : Same s1.batch st2.batch := hs1.symm.trans hs
    have hrl : readerList (getImmediateSubDicts st2.batch.dict) c (some "PlotsToGenerate".toList) =
        readerList (getImmediateSubDicts s1.batch.dict) c (some "PlotsToGenerate".toList) := by
      unfold readerList
      simp only [dicts_same hs2]
    dsimp only
    rw [hrl, g5 { st2 with warnings := st2.warnings + (s1.warnings - st.warnings) } (fun d => hfig _ _ hs2 d logs)]
    simp [Nat.add_assoc]

/-- **C89** The entries of a flight, taken together: exactly those asked for are replaced, by the text of the last value of the one
column they name, exactly the others that read as numbers are compared, and nothing else changes. -/
theorem flight_outcome (W : World K) (S : Settings K) {c : Str} (hc : Named c) (logs : Logs K) (keys : List Str)
    (ha : Apart c keys) : ∀ (ks : List Str), ks.Nodup →
    (∀ k ∈ ks, k ∈ keys ∧ ∃ s, k = c ++ ".ExpectedFinalValues.".toList ++ s) →
    ∀ acc acc' : St K × Counts, Dict.keys acc.1.batch.dict = keys → acc.1.batch.defaults = [] →
    ks.foldlM (checkEntry W S c logs) acc = .ok acc' →
    (∀ k, k ∉ ks → Dict.get? acc'.1.batch.dict k = Dict.get? acc.1.batch.dict k) ∧
    (∀ k ∈ ks, Asked W S acc.1.batch k → ∃ v w, singleResult (logs.map (fun f => f (getDictName k))) = .ok (some v, w) ∧
      Dict.get? acc'.1.batch.dict k = some (W.showF v)) ∧
    (∀ k ∈ ks, ¬ Asked W S acc.1.batch k → Dict.get? acc'.1.batch.dict k = Dict.get? acc.1.batch.dict k) ∧
    acc'.2.passed + acc'.2.failed = acc.2.passed + acc.2.failed +
      ks.countP (fun k => !S.recordAll && ((Dict.get? acc.1.batch.dict k).bind W.float).isSome) ∧
    (c ∈ acc'.1.recorded ↔ c ∈ acc.1.recorded ∨ ∃ k ∈ ks, Asked W S acc.1.batch k) := by
  have hadd : ∀ (l : List Str) (x y : Str), x ∈ setAdd l y ↔ x ∈ l ∨ x = y := by
    intro l x y
    unfold setAdd
    split
    · rename_i h; constructor
      · exact Or.inl
      · rintro (h' | rfl)
        · exact h'
        · exact h
    · simp
  intro ks
  induction ks with
  | nil =>
    intro _ _ acc acc' _ _ h
    cases h
    refine ⟨fun _ _ => rfl, fun _ h => by simp at h, fun _ h => by simp at h, by simp, by simp⟩
  | cons k ks ih =>
    intro hnd hin acc acc' h1 h2 h
    rw [List.foldlM_cons, bind_ok_iff] at h
    obtain ⟨acc1, hstep, hrest⟩ := h
    rw [List.nodup_cons] at hnd
    obtain ⟨hkk, hform⟩ := hin k (by simp)
    obtain ⟨text, ht, hcase⟩ := (checkEntry_ok_iff W S c logs acc acc1 k).1 hstep
    rw [final_read hc h2 (by rw [h1]; exact ha) (by rw [h1]; exact hkk) hform] at ht
    have hget : Dict.get? acc.1.batch.dict k = some text := by
      cases hg : Dict.get? acc.1.batch.dict k with
      | none => rw [hg] at ht; cases ht
      | some v => rw [hg] at ht; cases ht; rfl
    have hclean := ha.clean k hkk
    have hask : Asked W S acc.1.batch k ↔ S.recordAll = true ∨ W.float text = none ∧ text.map Char.toLower = "record".toList := by
      unfold Asked
      rw [hget]
      simp only [Option.some.injEq, exists_eq_left']
    have hs1 : Dict.keys acc1.1.batch.dict = keys ∧ acc1.1.batch.defaults = [] ∧
        (∀ k', k' ≠ k → Dict.get? acc1.1.batch.dict k' = Dict.get? acc.1.batch.dict k') ∧
        (Asked W S acc.1.batch k → ∃ v w, singleResult (logs.map (fun f => f (getDictName k))) = .ok (some v, w) ∧
          Dict.get? acc1.1.batch.dict k = some (W.showF v)) ∧
        (¬ Asked W S acc.1.batch k → Dict.get? acc1.1.batch.dict k = Dict.get? acc.1.batch.dict k) ∧
        acc1.2.passed + acc1.2.failed = acc.2.passed + acc.2.failed +
          (if (!S.recordAll && ((Dict.get? acc.1.batch.dict k).bind W.float).isSome) = true then 1 else 0) ∧
        (c ∈ acc1.1.recorded ↔ c ∈ acc.1.recorded ∨ Asked W S acc.1.batch k) := by
      rw [hget, hask]
      rcases hcase with ⟨x, o, w, q1, q2, q3, rfl⟩ | ⟨v, w, q1, q2, rfl⟩ | ⟨q1, q2, q3, rfl⟩
      · have hno : ¬ (S.recordAll = true ∨ W.float text = none ∧ text.map Char.toLower = "record".toList) := by
          rw [q1, q2]; simp
        refine ⟨h1, h2, fun _ _ => rfl, fun h => absurd h hno, fun _ => hget, ?_, ?_⟩
        · simp only [q1, Bool.not_false, Bool.true_and, Option.bind_some, q2, Option.isSome_some, if_true]
          split <;> omega
        · simp only [hno, or_false]
      · refine ⟨?_, h2, ?_, fun _ => ⟨v, w, q2, ?_⟩, fun h => absurd q1 h, ?_, ?_⟩
        · show Dict.keys (Dict.set acc.1.batch.dict (strip k) (W.showF v)) = keys
          rw [hclean, Dict.keys_set_of_mem _ _ (by rw [h1]; exact hkk), h1]
        · intro k' hk'
          show Dict.get? (Dict.set acc.1.batch.dict (strip k) (W.showF v)) k' = _
          rw [hclean, Dict.get?_set_ne _ _ (Ne.symm hk')]
        · show Dict.get? (Dict.set acc.1.batch.dict (strip k) (W.showF v)) k = _
          rw [hclean, Dict.get?_set_self]
        · have : ¬ (!S.recordAll && ((some text).bind W.float).isSome) = true := by
            rcases q1 with q1 | ⟨q1, _⟩ <;> simp [q1]
          rw [if_neg this, Nat.add_zero]
        · simp only [hadd, q1, or_true]
      · have hno : ¬ (S.recordAll = true ∨ W.float text = none ∧ text.map Char.toLower = "record".toList) := by
          rintro (h | ⟨_, h⟩)
          · rw [q1] at h; cases h
          · exact q3 h
        refine ⟨h1, h2, fun _ _ => rfl, fun h => absurd h hno, fun _ => hget, ?_, ?_⟩
        · have : ¬ (!S.recordAll && ((some text).bind W.float).isSome) = true := by simp [q2]
          rw [if_neg this]
          rfl
        · simp only [hno, or_false]
    obtain ⟨a1, a2, a3, a4, a5, a6, a7⟩ := hs1
    obtain ⟨b1, b2, b3, b4, b5⟩ := ih hnd.2 (fun k hk => hin k (by simp [hk])) acc1 acc' a1 a2 hrest
    have hne : ∀ k' ∈ ks, k' ≠ k := fun k' hk' e => hnd.1 (e ▸ hk')
    have hsame : ∀ k' ∈ ks, (Asked W S acc1.1.batch k' ↔ Asked W S acc.1.batch k') := by
      intro k' hk'
      unfold Asked
      rw [a3 k' (hne k' hk')]
    refine ⟨?_, ?_, ?_, ?_, ?_⟩
    · intro k' hk'
      rw [List.mem_cons, not_or] at hk'
      rw [b1 k' hk'.2, a3 k' hk'.1]
    · intro k' hk' hq
      rcases List.mem_cons.1 hk' with rfl | hk'
      · obtain ⟨v, w, e1, e2⟩ := a4 hq
        exact ⟨v, w, e1, by rw [b1 _ hnd.1]; exact e2⟩
      · exact b2 k' hk' ((hsame k' hk').2 hq)
    · intro k' hk' hq
      rcases List.mem_cons.1 hk' with rfl | hk'
      · rw [b1 _ hnd.1, a5 hq]
      · rw [b3 k' hk' (fun h => hq ((hsame k' hk').1 h)), a3 k' (hne k' hk')]
    · have hcount : ks.countP (fun k => !S.recordAll && ((Dict.get? acc1.1.batch.dict k).bind W.float).isSome) =
          ks.countP (fun k => !S.recordAll && ((Dict.get? acc.1.batch.dict k).bind W.float).isSome) := by
        apply List.countP_congr
        intro k' hk'
        rw [a3 k' (hne k' hk')]
      rw [b4, hcount, a6, List.countP_cons]
      omega
    · rw [b5, a7]
      constructor
      · rintro ((h | h) | ⟨k', hk', h⟩)
        · exact Or.inl h
        · exact Or.inr ⟨k, by simp, h⟩
        · exact Or.inr ⟨k', by simp [hk'], (hsame k' hk').1 h⟩
      · rintro (h | ⟨k', hk', h⟩)
        · exact Or.inl (Or.inl h)
        · rcases List.mem_cons.1 hk' with rfl | hk'
          · exact Or.inl (Or.inr h)
          · exact Or.inr ⟨k', hk', (hsame k' hk').2 h⟩

/-- **C89** A flight that was simulated: every expected result asked for holds the text of the last value of the one column it
names, every other entry of the definition is as before, and as many results were compared as entries read as numbers. -/
theorem flight_recorded [FloorRing K] (W : World K) (S : Settings K) {c : Str} (hc : Named c) (st st1 : St K) (n : Counts)
    (hw : (Dict.keys st.batch.dict).Nodup) (hd : st.batch.defaults = []) (ha : Apart c (Dict.keys st.batch.dict))
    {sim : Store} {logs : Logs K} (hp : CaseM.prepareCase W.parseInt W.load c st.batch = .ok (sim, false))
    (hfly : W.fly sim = .ok logs) (hk : getSubKeys st.batch.dict (relKey c "ExpectedFinalValues".toList) ≠ [])
    (h : runCase W S c st = .ok (st1, n)) :
    (∀ s, (c ++ ".ExpectedFinalValues.".toList ++ s) ∈ Dict.keys st.batch.dict →
      Asked W S st.batch (c ++ ".ExpectedFinalValues.".toList ++ s) →
      ∃ v w, singleResult (logs.map (fun f => f (getDictName (c ++ ".ExpectedFinalValues.".toList ++ s)))) = .ok (some v, w) ∧
        Dict.get? st1.batch.dict (c ++ ".ExpectedFinalValues.".toList ++ s) = some (W.showF v)) ∧
    (∀ k, ¬ (Asked W S st.batch k ∧ ∃ s, k = c ++ ".ExpectedFinalValues.".toList ++ s) →
      Dict.get? st1.batch.dict k = Dict.get? st.batch.dict k) ∧
    n.passed + n.failed = (getSubKeys st.batch.dict (relKey c "ExpectedFinalValues".toList)).countP
      (fun k => !S.recordAll && ((Dict.get? st.batch.dict k).bind W.float).isSome) := by
  obtain ⟨sim', sweep, s1, logs', h1, h2, h3⟩ := (runCase_ok_iff W S c st (st1, n)).1 h
  rw [hp] at h1
  simp only [Except.ok.injEq, Prod.mk.injEq] at h1
  obtain ⟨rfl, rfl⟩ := h1
  have hb : st1.batch = s1.batch := by
    rcases h3 with ⟨_, h3⟩ | ⟨_, h3⟩
    · rw [← h3]
    · exact (figures_again W logs' _ s1 st1 h3).1
  have hform : ∀ k, (k ∈ getSubKeys st.batch.dict (relKey c "ExpectedFinalValues".toList) ↔
      k ∈ Dict.keys st.batch.dict ∧ ∃ s, k = c ++ ".ExpectedFinalValues.".toList ++ s) := by
    intro k
    rw [mem_getSubKeys_iff]
    refine and_congr_right fun _ => ?_
    constructor
    · intro hk
      obtain ⟨t, ht⟩ := subkey_form (by simp [relKey]) ((isSubKey_iff _ _).2 hk)
      exact ⟨t, by rw [efv_dots, ht, relKey]; simp⟩
    · rintro ⟨s, rfl⟩
      rw [← isSubKey_iff]
      have e : c ++ ".ExpectedFinalValues.".toList ++ s = relKey c "ExpectedFinalValues".toList ++ '.' :: s := by
        rw [efv_dots, relKey]; simp
      rw [e]
      exact isSubKey_form _ (by simp [relKey])
  have hnd : (getSubKeys st.batch.dict (relKey c "ExpectedFinalValues".toList)).Nodup := by
    unfold getSubKeys
    exact hw.filter _
  rcases h2 with ⟨h2, _⟩ | ⟨_, h2⟩
  · cases h2
  rcases (fullFlight_ok_iff W S c sim st _).1 h2 with ⟨⟨e, he⟩, _⟩ | ⟨lg, r3, r4, r5⟩
  · rw [hfly] at he; cases he
  · rw [hfly] at r3
    cases r3
    rw [CaseM.expectedKeys_spec c st.batch hk] at r5
    rcases r5 with ⟨r5, _⟩ | ⟨_, r5⟩
    · exact absurd r5 hk
    · dsimp only at r5
      obtain ⟨b1, b2, b3, b4, _⟩ := flight_outcome W S hc logs _ ha _ hnd (fun k hk => (hform k).1 hk) (st, ⟨0, 0, 0⟩) (s1, n) rfl hd r5
      rw [hb]
      refine ⟨fun s hs hq => b2 _ ((hform _).2 ⟨hs, s, rfl⟩) hq, fun k hq => ?_, by simpa using b4⟩
      by_cases hm : k ∈ getSubKeys st.batch.dict (relKey c "ExpectedFinalValues".toList)
      · exact b3 k hm (fun h => hq ⟨h, ((hform k).1 hm).2⟩)
      · exact b1 k hm

/-! ## the whole batch -/

theorem ran_again [FloorRing K] (W : World K) (S : Settings K) (htol : 0 ≤ S.pctTol ∨ 0 ≤ S.absTol)
    (hfig : ∀ b b' : Store, Same b b' → ∀ d logs, W.figure b' d logs = W.figure b d logs) {st st' : St K}
    {l : List (Str × Counts)} (hran : Ran W S st l st') : (l.map Prod.fst).Nodup →
    (∀ c ∈ l.map Prod.fst, Named c ∧ Apart c (Dict.keys st.batch.dict) ∧ Fit W S c st.batch) →
    (Dict.keys st.batch.dict).Nodup → st.batch.defaults = [] →
    (Dict.keys st'.batch.dict = Dict.keys st.batch.dict ∧ st'.batch.defaults = [] ∧
      ∀ k, (∀ c ∈ l.map Prod.fst, ¬ Result c k) → Dict.get? st'.batch.dict k = Dict.get? st.batch.dict k) ∧
    ∃ m v, st'.warnings = st.warnings + m ∧ st'.validation = st.validation ++ v ∧
      ((∀ x ∈ l, x.2.failed = 0) → ∀ st2 : St K, Same st.batch st2.batch →
        (∀ c ∈ l.map Prod.fst, ∀ k, Result c k → Dict.get? st2.batch.dict k = Dict.get? st'.batch.dict k) →
        ∃ l2, l2.map Prod.fst = l.map Prod.fst ∧ (∀ x ∈ l2, x.2.failed = 0 ∧ x.2.errors = 0) ∧
          Ran W { S with recordAll := false } st2 l2
            { st2 with warnings := st2.warnings + m, validation := st2.validation ++ v }) := by
  induction hran with
  | none st =>
    intro _ _ _ hd
    refine ⟨⟨rfl, hd, fun _ _ => rfl⟩, 0, [], rfl, by simp, fun _ st2 _ _ => ⟨[], rfl, by simp, ?_⟩⟩
    have : ({ st2 with warnings := st2.warnings + 0, validation := st2.validation ++ [] } : St K) = st2 := by simp
    rw [this]
    exact .none st2
  | @case st st1 st3 c n l hrun hrest ih =>
    intro hnd hall hw hd
    rw [List.map_cons, List.nodup_cons] at hnd
    obtain ⟨hc, ha, hfit⟩ := hall c (by simp)
    obtain ⟨⟨a1, a2, a3⟩, m, v, a4, a5, a6⟩ := case_again W S htol hfig hc st st1 n hw hd ha hfit hrun
    have hs1 : Same st.batch st1.batch := ⟨a1, hd, a2, fun k hk => a3 k (fun h => hk ⟨c, hc.dot, h⟩)⟩
    have hother : ∀ c' ∈ l.map Prod.fst, ∀ k, Result c' k → ¬ Result c k := by
      intro c' hc' k hk hk'
      have hnm := (hall c' (by rw [List.map_cons]; exact List.mem_cons_of_mem _ hc')).1
      exact hnd.1 ((result_case hc.dot hnm.dot hk' hk) ▸ hc')
    obtain ⟨⟨b1, b2, b3⟩, m', v', b4, b5, b6⟩ := ih hnd.2 (fun c' hc' => by
        obtain ⟨x1, x2, x3⟩ := hall c' (by rw [List.map_cons]; exact List.mem_cons_of_mem _ hc')
        exact ⟨x1, by rw [a1]; exact x2, fit_same x1 hs1 x2 (fun k hk => a3 k (hother c' hc' k hk)) x3⟩)
      (by rw [a1]; exact hw) a2
    refine ⟨⟨b1.trans a1, b2, fun k hk => ?_⟩, m + m', v ++ v', by omega, by rw [b5, a5, List.append_assoc], ?_⟩
    · rw [List.map_cons] at hk
      rw [b3 k (fun c' hc' => hk c' (List.mem_cons_of_mem _ hc')), a3 k (hk c (by simp))]
    · intro hzero st2 hs he
      obtain ⟨n2, q1, q2, q3⟩ := a6 (hzero (c, n) (by simp)) st2 hs (fun k hk => by
        rw [he c (by simp) k hk, b3 k (fun c' hc' hr => hother c' hc' k hr hk)])
      obtain ⟨l2, e1, e2, e3⟩ := b6 (fun x hx => hzero x (by simp [hx]))
        { st2 with warnings := st2.warnings + m, validation := st2.validation ++ v } (hs1.symm.trans hs)
        (fun c' hc' k hk => he c' (by rw [List.map_cons]; exact List.mem_cons_of_mem _ hc') k hk)
      refine ⟨(c, n2) :: l2, by simp [e1], ?_, ?_⟩
      · intro x hx
        rcases List.mem_cons.1 hx with rfl | hx
        · exact ⟨q2, q3⟩
        · exact e2 x hx
      · refine .case q1 ?_
        simpa [Nat.add_assoc, List.append_assoc] using e3

theorem casesToRun_nodup (i x : Option Str) {l : List Str} (h : l.Nodup) : (casesToRun i x l).Nodup := by
  unfold casesToRun
  split
  · exact h
  · exact h.filter _

/-- **C89** A batch changes nothing in its definition but the expected results of the selected cases: the file written has the
same entries in the same order. -/
theorem written_partial [FloorRing K] (W : World K) (S : Settings K) (htol : 0 ≤ S.pctTol ∨ 0 ≤ S.absTol)
    (hfig : ∀ b b' : Store, Same b b' → ∀ d logs, W.figure b' d logs = W.figure b d logs) (i x : Option Str) (validate : Bool)
    (fileName : Str) (batch : Store) (hw : (Dict.keys batch.dict).Nodup) (hd : batch.defaults = [])
    (hall : ∀ c ∈ casesToRun i x (getImmediateSubDicts batch.dict []), Named c ∧ Apart c (Dict.keys batch.dict) ∧ Fit W S c batch)
    (s : Summary) (hrun : run W S i x validate fileName batch = .ok s) {p : Str} {D : Dict Str Str}
    (hwr : s.written = some (p, D)) :
    Dict.keys D = Dict.keys batch.dict ∧
    ∀ k, (∀ c ∈ casesToRun i x (getImmediateSubDicts batch.dict []), ¬ Result c k) → Dict.get? D k = Dict.get? batch.dict k := by
  obtain ⟨st, l, h1, h2, rfl⟩ := (run_ok_iff W S i x validate fileName batch s).1 hrun
  obtain ⟨_, _, _, _, _, _, _, hw2⟩ := report_spec validate fileName st l _ rfl
  obtain ⟨_, rfl, _⟩ := (hw2 p D).1 hwr
  have hnd : (l.map Prod.fst).Nodup := by
    rw [h1]; exact casesToRun_nodup i x (getImmediateSubDicts_nodup _ _)
  obtain ⟨⟨a1, _, a3⟩, _⟩ := ran_again W S htol hfig h2 hnd (by rw [h1]; exact hall) hw hd
  refine ⟨a1, fun k hk => a3 k ?_⟩
  rw [h1]; exact hk

/-- **C89** A batch that passed while recording passes again, without recording, on the definition it wrote: the same cases, no
failures, as many warnings, the same verdict, and no file written. -/
theorem rerun_passes_partial [FloorRing K] (W : World K) (S : Settings K) (htol : 0 ≤ S.pctTol ∨ 0 ≤ S.absTol)
    (hfig : ∀ b b' : Store, Same b b' → ∀ d logs, W.figure b' d logs = W.figure b d logs) (i x : Option Str) (validate : Bool)
    (fileName fileName' : Str) (batch : Store) (hw : (Dict.keys batch.dict).Nodup) (hd : batch.defaults = [])
    (hall : ∀ c ∈ casesToRun i x (getImmediateSubDicts batch.dict []), Named c ∧ Apart c (Dict.keys batch.dict) ∧ Fit W S c batch)
    (s : Summary) (hrun : run W S i x validate fileName batch = .ok s) (hexit : s.exit = 0) {p : Str} {D : Dict Str Str}
    (hwr : s.written = some (p, D)) (b2 : Store) (hb2 : b2.dict = D) (hd2 : b2.defaults = []) :
    ∃ s2, run W { S with recordAll := false } i x validate fileName' b2 = .ok s2 ∧ s2.exit = 0 ∧ s2.failed = [] ∧
      s2.written = none ∧ s2.warnings = s.warnings ∧ s2.verdict = s.verdict ∧ s2.cases.map Prod.fst = s.cases.map Prod.fst := by
  obtain ⟨st, l, h1, h2, rfl⟩ := (run_ok_iff W S i x validate fileName batch s).1 hrun
  obtain ⟨_, _, hx1, _, hx2, hx3, hx4, hw2⟩ := report_spec validate fileName st l _ rfl
  obtain ⟨_, rfl, _⟩ := (hw2 p D).1 hwr
  have hnd : (l.map Prod.fst).Nodup := by
    rw [h1]; exact casesToRun_nodup i x (getImmediateSubDicts_nodup _ _)
  obtain ⟨⟨a1, a2, a3⟩, m, v, a4, a5, a6⟩ := ran_again W S htol hfig h2 hnd (by rw [h1]; exact hall) hw hd
  have hsame : Same batch b2 := ⟨by rw [hb2]; exact a1, hd, hd2, fun k hk => by
    rw [hb2]
    refine a3 k (fun c hc hr => hk ⟨c, ?_, hr⟩)
    rw [h1] at hc
    exact (hall c hc).1.dot⟩
  obtain ⟨l2, e1, e2, e3⟩ := a6 (fun y hy => (hx1.1 hexit y hy).1) ⟨b2, 0, [], []⟩ hsame (fun c _ k _ => by
    show Dict.get? b2.dict k = _
    rw [hb2])
  dsimp only at a4 a5 e3
  have hrun2 : run W { S with recordAll := false } i x validate fileName' b2 =
      .ok (report validate fileName' (⟨b2, 0 + m, [], [] ++ v⟩ : St K) l2) :=
    (run_ok_iff W _ i x validate fileName' b2 _).2 ⟨_, l2, by rw [e1, h1, dicts_same hsame], e3, rfl⟩
  obtain ⟨y1, y2, y3, _, y5, y6, y7, y8⟩ := report_spec validate fileName' (⟨b2, 0 + m, [], [] ++ v⟩ : St K) l2 _ rfl
  have hex2 := y3.2 e2
  have hwarn : (report validate fileName' (⟨b2, 0 + m, [], [] ++ v⟩ : St K) l2).warnings =
      (report validate fileName st l).warnings := by
    rw [y7, hx4]
    dsimp only
    rw [a4, a5]
  refine ⟨_, hrun2, hex2, ?_, ?_, hwarn, ?_, ?_⟩
  · rw [y2, List.map_eq_nil_iff, List.filter_eq_nil_iff]
    intro y hy
    simp [e2 y hy]
  · cases hq : (report validate fileName' (⟨b2, 0 + m, [], [] ++ v⟩ : St K) l2).written with
    | none => rfl
    | some q => exact absurd rfl ((y8 q.1 q.2).1 hq).1
  · by_cases hz : (report validate fileName st l).warnings = 0
    · rw [hx3.2 ⟨hexit, hz⟩, y6.2 ⟨hex2, by rw [hwarn]; exact hz⟩]
    · have g : ∀ w : Verdict, w ≠ .ok → w ≠ .fail → w = .warning := by intro w; cases w <;> simp
      have v1 := g (report validate fileName st l).verdict (fun h => hz (hx3.1 h).2) (fun h => by have := hx2.1 h; omega)
      have v2 := g (report validate fileName' (⟨b2, 0 + m, [], [] ++ v⟩ : St K) l2).verdict
        (fun h => hz (by rw [← hwarn]; exact (y6.1 h).2)) (fun h => by have := y5.1 h; omega)
      rw [v1, v2]
  · rw [y1]; exact e1

/-- **C89** The same from the file: for a definition in the order of the file format whose entries the format can express, the file
written by a batch that passed loads as the definition a second batch passes with. -/
theorem rerun_file_partial [FloorRing K] (W : World K) (S : Settings K) (htol : 0 ≤ S.pctTol ∨ 0 ≤ S.absTol)
    (hfig : ∀ b b' : Store, Same b b' → ∀ d logs, W.figure b' d logs = W.figure b d logs) (i x : Option Str) (validate : Bool)
    (fileName fileName' : Str) (batch : Store) (hw : (Dict.keys batch.dict).Nodup) (hd : batch.defaults = [])
    (hall : ∀ c ∈ casesToRun i x (getImmediateSubDicts batch.dict []), Named c ∧ Apart c (Dict.keys batch.dict) ∧ Fit W S c batch)
    (hsort : (Dict.keys batch.dict).Pairwise (fun a b => strLe a b = true))
    (s : Summary) (hrun : run W S i x validate fileName batch = .ok s) (hexit : s.exit = 0) {p : Str} {D : Dict Str Str}
    (hwr : s.written = some (p, D)) (load : Str → Except PyErr SDict) (date : Str) (header : Bool) (hp : '\n' ∉ p)
    (hda : '\n' ∉ date) (hok : ∀ e ∈ D, KeyOk e.1 ∧ ValOk e.2) (hal : AlignedFrom [] D) :
    ∃ D', parseText load (writeText D p date header) = .ok D' ∧
      ∃ s2, run W { S with recordAll := false } i x validate fileName' ⟨D', [], Dict.keys D', []⟩ = .ok s2 ∧ s2.exit = 0 ∧
        s2.failed = [] ∧ s2.written = none ∧ s2.warnings = s.warnings ∧ s2.verdict = s.verdict ∧
        s2.cases.map Prod.fst = s.cases.map Prod.fst := by
  obtain ⟨hkeys, _⟩ := written_partial W S htol hfig i x validate fileName batch hw hd hall s hrun hwr
  have hwf : Dict.WF D := by
    unfold Dict.WF
    rw [hkeys]; exact hw
  have hs : sortedItems D = D := by
    unfold sortedItems
    apply List.Pairwise.insertionSort_eq
    rw [← hkeys] at hsort
    unfold Dict.keys at hsort
    exact List.pairwise_map.1 hsort
  refine ⟨D, ?_, rerun_passes_partial W S htol hfig i x validate fileName fileName' batch hw hd hall s hrun hexit hwr _ rfl rfl⟩
  have hal' : AlignedFrom [] (sortedItems D) := by rw [hs]; exact hal
  unfold parseText
  rw [parseLines_eq_run, prepLines_writeText D p date header hp hda hok]
  have := run_writeItems load (sortedItems D) [] [] (by
    intro q hq; apply hok; unfold sortedItems at hq; simpa using hq) hal' (by simpa using sortedItems_WF hwf)
  rw [hs] at this
  simpa [stkR, hs] using this

/-! ## where it fails -/

/-- **C89 fails** for results that are not numbers: a recorded "nan" is never matched, not even by the same simulation. -/
theorem nan_violated (p a : K) : passes p a (some .nan) .nan = false := by
  simp [passes, errorPercent, Fl.beq, Fl.sub, Fl.abs, Fl.gt, Fl.isNaN, Fl.mul100, Fl.div]

/-- **C89 fails** likewise for a recorded infinity. -/
theorem inf_violated (p a : K) (s : Bool) : passes p a (some (.inf s)) (.inf s) = false := by
  simp [passes, errorPercent, Fl.beq, Fl.sub, Fl.abs, Fl.gt, Fl.isNaN, Fl.mul100, Fl.div]

/-- **C89 fails** for a result to be recorded whose column is missing or not unique: `str(None)` is not written, the warning is
called with too many arguments - the batch ends with `TypeError` and everything recorded before is lost. -/
theorem missing_column_violated (W : World K) (S : Settings K) (c : Str) (logs : Logs K) (acc : St K × Counts) (key text : Str)
    (hr : (getString acc.1.batch c key).1 = .ok text)
    (hask : S.recordAll = true ∨ W.float text = none ∧ text.map Char.toLower = "record".toList)
    (hm : ∀ f ∈ logs, f (getDictName key) = []) : checkEntry W S c logs acc key = .error .typeError := by
  have hs : singleResult (logs.map (fun f => f (getDictName key))) = .ok (none, true) := by
    induction logs with
    | nil => rfl
    | cons f logs ih =>
      rw [List.map_cons, hm f (by simp), singleResult]
      exact ih (fun g hg => hm g (by simp [hg]))
  have hrec : (saysRecord text || S.recordAll) = true := by
    rcases hask with h | ⟨_, h⟩
    · simp [h]
    · simp [saysRecord, h]
  have hn : (if S.recordAll = true then none else W.float text) = none := by
    rcases hask with h | ⟨h, _⟩ <;> simp [h]
  unfold checkEntry
  rw [hr]
  simp only [bind, Except.bind, hn, hrec, if_true, hs]

/-- **C89 fails** for a flight without expected results: the six results added by default are neither recorded nor written, and the
case passes without a comparison - with as many warnings as it has every time. -/
theorem default_results_violated (W : World K) (S : Settings K) (c : Str) (sim : Store) (st : St K) (logs : Logs K)
    (hf : W.fly sim = .ok logs) (hk : (CaseM.expectedKeys c st.batch).2 = []) :
    ∃ b, fullFlight W S c sim st = .ok ({ st with batch := b, warnings := st.warnings + 1 }, ⟨0, 0, 0⟩, logs) :=
  ⟨_, (fullFlight_ok_iff W S c sim st _).2 (Or.inr ⟨logs, hf, rfl, Or.inl ⟨hk, rfl, rfl⟩⟩)⟩

/-! ## an instance -/

section demo

/-- a world in which each flight ends at X = 3 -/
private def demoWorld : World ℚ where
  parseInt := fun _ => .ok 0
  text := ⟨fun _ => .ok 0, fun _ => none, fun _ => .error .valueError, fun _ => [], fun _ => []⟩
  float := fun s => if strip s = "3".toList then some (.fin 3) else none
  showF := fun _ => "3".toList
  load := fun _ => .ok ⟨[("SimControl.loggingLevel".toList, "2".toList)], [], [], []⟩
  fly := fun _ => .ok [fun s => if s = "X".toList then [[.fin 1, .fin 3]] else []]
  tunnel := fun _ _ _ _ => .error .runtimeError
  figure := fun _ _ _ => .ok (0, [])

private def demoBatch : Store :=
  ⟨[("A.ExpectedFinalValues.X".toList, "Record".toList), ("A.simDefinitionFile".toList, "a.mapleaf".toList)], [], [], []⟩

example : casesToRun none none (getImmediateSubDicts demoBatch.dict []) = ["A".toList] := by decide +kernel

example : Named "A".toList ∧ Apart "A".toList (Dict.keys demoBatch.dict) := by
  refine ⟨⟨by decide +kernel, by decide +kernel, ?_, by decide +kernel⟩, by decide +kernel, ?_⟩
  · intro x hx
    have : x = 'A' := by
      have h : "A".toList.head? = some 'A' := by decide +kernel
      rw [h] at hx
      exact (Option.some.inj hx).symm
    subst this; decide
  · intro s hs
    have h2 : ∀ k ∈ Dict.keys demoBatch.dict, k[2]? ≠ some 'A' := by decide +kernel
    apply h2 _ hs
    have : "A".toList = ['A'] := by decide +kernel
    rw [this]; rfl

example : Fit demoWorld ⟨false, 1, 1⟩ "A".toList demoBatch := by
  refine ⟨fun _ _ => by decide +kernel, ?_, ?_⟩
  · intro sim logs _ hl k _ _ v w hv
    simp only [demoWorld, Except.ok.injEq] at hl
    subst hl
    by_cases hk : getDictName k = "X".toList
    · rw [hk] at hv
      simp only [List.map_cons, List.map_nil, if_true] at hv
      have : v = .fin 3 := by
        have h := Except.ok.inj hv
        exact (Option.some.inj (Prod.mk.inj h).1).symm
      subst this
      exact ⟨⟨3, rfl⟩, by decide +kernel, by decide +kernel, by decide +kernel⟩
    · simp only [List.map_cons, List.map_nil, if_neg hk] at hv
      cases hv
  · intro sim _ _ _ _ _ _ _ ht
    simp [demoWorld] at ht

example : ∃ s, run demoWorld ⟨false, 1, 1⟩ none none false "t.mapleaf".toList demoBatch = .ok s ∧ s.exit = 0 ∧
    s.written = some ("t_newExpectedResultsRecorded.mapleaf".toList,
      [("A.ExpectedFinalValues.X".toList, "3".toList), ("A.simDefinitionFile".toList, "a.mapleaf".toList)]) := by
  cases h : run demoWorld ⟨false, 1, 1⟩ none none false "t.mapleaf".toList demoBatch with
  | error e =>
    have : (run demoWorld ⟨false, 1, 1⟩ none none false "t.mapleaf".toList demoBatch).toBool = true := by decide +kernel
    rw [h] at this; cases this
  | ok s =>
    refine ⟨s, rfl, ?_, ?_⟩
    · have : (run demoWorld ⟨false, 1, 1⟩ none none false "t.mapleaf".toList demoBatch).toOption.map Summary.exit = some 0 := by
        decide +kernel
      rw [h] at this
      exact Option.some.inj this
    · have : (run demoWorld ⟨false, 1, 1⟩ none none false "t.mapleaf".toList demoBatch).toOption.map Summary.written =
          some (some ("t_newExpectedResultsRecorded.mapleaf".toList,
            [("A.ExpectedFinalValues.X".toList, "3".toList), ("A.simDefinitionFile".toList, "a.mapleaf".toList)])) := by
        decide +kernel
      rw [h] at this
      exact Option.some.inj this

example : (Dict.keys demoBatch.dict).Pairwise (fun a b => strLe a b = true) := by decide +kernel

example : (∀ e ∈ [("A.ExpectedFinalValues.X".toList, "3".toList), ("A.simDefinitionFile".toList, "a.mapleaf".toList)],
    KeyOk e.1 ∧ ValOk e.2) ∧
    AlignedFrom [] [("A.ExpectedFinalValues.X".toList, "3".toList), ("A.simDefinitionFile".toList, "a.mapleaf".toList)] := by
  refine ⟨by decide +kernel, ?_⟩
  have h := (reload_iff_aligned (fun _ => .error .fileNotFound)
    [("A.ExpectedFinalValues.X".toList, "3".toList), ("A.simDefinitionFile".toList, "a.mapleaf".toList)] "f".toList "now".toList
    true (by decide) (by decide) (by show List.Nodup _; decide +kernel) (by decide +kernel)).1
    ⟨[("A.ExpectedFinalValues.X".toList, "3".toList), ("A.simDefinitionFile".toList, "a.mapleaf".toList)],
      by decide +kernel, fun k => rfl⟩
  have hs : sortedItems [("A.ExpectedFinalValues.X".toList, "3".toList), ("A.simDefinitionFile".toList, "a.mapleaf".toList)] =
      [("A.ExpectedFinalValues.X".toList, "3".toList), ("A.simDefinitionFile".toList, "a.mapleaf".toList)] := by decide +kernel
  rwa [hs] at h

example (b b' : Store) (_ : Same b b') (d : Str) (logs : Logs ℚ) : demoWorld.figure b' d logs = demoWorld.figure b d logs := rfl

end demo

end Mapleaf.Rec
