import Verif.Run.RerunProps

/-!
# C89: a batch reports on the selected cases and can be run against its own recorded results (3)
-/

namespace Mapleaf.Rec
open Str SimDef Run

variable {K : Type} [Field K] [LinearOrder K] [IsStrictOrderedRing K]

/-- A logged value is a number and its text reads back as that number, alone or after a comma and a space -/
structure Reads (W : World K) (v : Fl K) : Prop where
  fin : ∃ x, v = .fin x
  float : W.float (W.showF v) = some v
  space : W.float (' ' :: W.showF v) = some v
  comma : ',' ∉ W.showF v

/-- The expected result at `k` is to be recorded -/
def Asked (W : World K) (S : Settings K) (b : Store) (k : Str) : Prop :=
  S.recordAll = true ∨ ∃ text, Dict.get? b.dict k = some text ∧ W.float text = none ∧ text.map Char.toLower = "record".toList

/-- **C89** A number passes the comparison with itself. -/
theorem passes_self {p a : K} (h : 0 ≤ p ∨ 0 ≤ a) (x : K) : passes p a (some (.fin x)) (.fin x) = true := by
  unfold passes errorPercent
  by_cases hx : x = 0
  · subst hx
    rcases h with h | h <;> simp [Fl.beq, Fl.sub, Fl.abs, Fl.gt, Fl.isNaN, h, not_lt.2 h]
  · rcases h with h | h <;> simp [Fl.beq, Fl.sub, Fl.abs, Fl.gt, Fl.isNaN, Fl.mul100, Fl.div, hx, h, not_lt.2 h]

theorem strip_last {s : Str} (h : strip s = s) {x : Char} (hx : s.getLast? = some x) : isWs x = false := by
  rw [← h] at hx
  unfold strip rstrip at hx
  rw [List.getLast?_reverse] at hx
  have := List.head?_dropWhile_not isWs (lstrip s).reverse
  rw [hx] at this
  simpa using this

/-- the value of an entry of `ExpectedFinalValues` -/
theorem final_read {c k : Str} (hc : Named c) {b : Store} (hb : b.defaults = []) (ha : Apart c (Dict.keys b.dict))
    (hk : k ∈ Dict.keys b.dict) (hf : ∃ s, k = c ++ ".ExpectedFinalValues.".toList ++ s) :
    (getString b c k).1 = match Dict.get? b.dict k with | some v => .ok v | none => .error .keyError := by
  obtain ⟨s, hs⟩ := hf
  have hne : k ≠ [] := by rw [hs, efv_dots]; simp
  obtain ⟨x, hx⟩ : ∃ x, k.getLast? = some x := by
    cases h : k.getLast? with
    | none => exact absurd (List.getLast?_eq_none_iff.1 h) hne
    | some x => exact ⟨x, rfl⟩
  have hx2 := strip_last (ha.clean k hk) hx
  have e2 : Dict.get? b.dict (strip (relKey c k)) = none := by
    unfold relKey
    rw [strip_named hc (x := x) (by
      rw [show '.' :: k = ['.'] ++ k from rfl, List.getLast?_append, hx]; rfl) hx2, Dict.get?_eq_none_iff]
    intro h
    apply ha.apart ("ExpectedFinalValues".toList ++ '.' :: s)
    rw [hs, efv_dots] at h
    exact h
  rw [getString_plain hb, e2, ha.clean k hk]
  rfl

/-- The expected results of a full flight, gone through once, and then again with the recorded results in place -/
theorem flight_fold (W : World K) (S : Settings K) (htol : 0 ≤ S.pctTol ∨ 0 ≤ S.absTol) {c : Str} (hc : Named c) (logs : Logs K)
    (keys : List Str) (ha : Apart c keys) : ∀ (ks : List Str), ks.Nodup →
    (∀ k ∈ ks, k ∈ keys ∧ ∃ s, k = c ++ ".ExpectedFinalValues.".toList ++ s) →
    ∀ acc acc' : St K × Counts,
    (∀ k ∈ ks, Asked W S acc.1.batch k → ∀ v w, singleResult (logs.map (fun f => f (getDictName k))) = .ok (some v, w) →
      Reads W v) →
    Dict.keys acc.1.batch.dict = keys → acc.1.batch.defaults = [] →
    ks.foldlM (checkEntry W S c logs) acc = .ok acc' →
    (Dict.keys acc'.1.batch.dict = keys ∧ acc'.1.batch.defaults = [] ∧
      (∀ k, k ∉ ks → Dict.get? acc'.1.batch.dict k = Dict.get? acc.1.batch.dict k) ∧
      acc'.1.validation = acc.1.validation ∧ acc.1.warnings ≤ acc'.1.warnings ∧
      acc.2.failed ≤ acc'.2.failed ∧ acc'.2.errors = acc.2.errors) ∧
    (acc'.2.failed = acc.2.failed → ∀ acc2 : St K × Counts, Dict.keys acc2.1.batch.dict = keys → acc2.1.batch.defaults = [] →
      (∀ k ∈ ks, Dict.get? acc2.1.batch.dict k = Dict.get? acc'.1.batch.dict k) →
      ∃ acc2', ks.foldlM (checkEntry W { S with recordAll := false } c logs) acc2 = .ok acc2' ∧
        acc2'.1.batch = acc2.1.batch ∧ acc2'.1.recorded = acc2.1.recorded ∧ acc2'.1.validation = acc2.1.validation ∧
        acc2'.1.warnings + acc.1.warnings = acc2.1.warnings + acc'.1.warnings ∧
        acc2'.2.failed = acc2.2.failed ∧ acc2'.2.errors = acc2.2.errors) := by
  intro ks
  induction ks with
  | nil =>
    intro _ _ acc acc' _ h1 h2 h
    cases h
    refine ⟨⟨h1, h2, fun _ _ => rfl, rfl, le_refl _, le_refl _, rfl⟩, fun _ acc2 _ _ _ => ⟨acc2, rfl, rfl, rfl, rfl, rfl, rfl, rfl⟩⟩
  | cons k ks ih =>
    intro hnd hin acc acc' hread h1 h2 h
    rw [List.foldlM_cons, bind_ok_iff] at h
    obtain ⟨acc1, hstep, hrest⟩ := h
    rw [List.nodup_cons] at hnd
    obtain ⟨hkk, hform⟩ := hin k (by simp)
    obtain ⟨text, ht, hcase⟩ := (checkEntry_ok_iff W S c logs acc acc1 k).1 hstep
    rw [final_read hc h2 (by rw [h1]; exact ha) (by rw [h1]; exact hkk) hform] at ht
    have hget : Dict.get? acc.1.batch.dict k = some text := by
      cases hg : Dict.get? acc.1.batch.dict k with
      | none => rw [hg] at ht; cases ht
      | some v => rw [hg] at ht; cases ht; rfl
    have hclean := ha.clean k hkk
    -- the first step
    have hs1 : Dict.keys acc1.1.batch.dict = keys ∧ acc1.1.batch.defaults = [] ∧
        (∀ k', k' ≠ k → Dict.get? acc1.1.batch.dict k' = Dict.get? acc.1.batch.dict k') ∧
        acc1.1.validation = acc.1.validation ∧ acc.1.warnings ≤ acc1.1.warnings ∧ acc.2.failed ≤ acc1.2.failed ∧ acc1.2.errors = acc.2.errors := by
      rcases hcase with ⟨x, o, w, _, _, _, rfl⟩ | ⟨v, w, _, _, rfl⟩ | ⟨_, _, _, rfl⟩
      · exact ⟨h1, h2, fun _ _ => rfl, rfl, Nat.le_add_right _ _, Nat.le_add_right _ _, rfl⟩
      · refine ⟨?_, h2, ?_, rfl, le_refl _, le_refl _, rfl⟩
        · show Dict.keys (Dict.set acc.1.batch.dict (strip k) (W.showF v)) = keys
          rw [hclean, Dict.keys_set_of_mem _ _ (by rw [h1]; exact hkk), h1]
        · intro k' hk'
          show Dict.get? (Dict.set acc.1.batch.dict (strip k) (W.showF v)) k' = _
          rw [hclean, Dict.get?_set_ne _ _ (Ne.symm hk')]
      · exact ⟨h1, h2, fun _ _ => rfl, rfl, Nat.le_add_right _ _, le_refl _, rfl⟩
    obtain ⟨a1, a2, a3, a4, a0, a5, a6⟩ := hs1
    obtain ⟨⟨b1, b2, b3, b4, b0, b5, b6⟩, hagain⟩ := ih hnd.2 (fun k hk => hin k (by simp [hk])) acc1 acc'
      (fun k' hk' hask => hread k' (by simp [hk']) (by
        unfold Asked at hask ⊢
        rw [a3 k' (fun e => hnd.1 (e ▸ hk'))] at hask
        exact hask)) a1 a2 hrest
    refine ⟨⟨b1, b2, ?_, b4.trans a4, le_trans a0 b0, le_trans a5 b5, b6.trans a6⟩, ?_⟩
    · intro k' hk'
      rw [List.mem_cons, not_or] at hk'
      rw [b3 k' hk'.2, a3 k' hk'.1]
    · intro hfail acc2 g1 g2 g3
      have f1 : acc1.2.failed = acc.2.failed := by omega
      have f2 : acc'.2.failed = acc1.2.failed := by omega
      have hgk : Dict.get? acc2.1.batch.dict k = Dict.get? acc1.1.batch.dict k := by
        rw [g3 k (by simp), b3 k hnd.1]
      have hread2 : (getString acc2.1.batch c k).1 =
          match Dict.get? acc1.1.batch.dict k with | some v => .ok v | none => .error .keyError := by
        rw [final_read hc g2 (by rw [g1]; exact ha) (by rw [g1]; exact hkk) hform, hgk]
      have hst : ∃ s2 : St K × Counts, checkEntry W { S with recordAll := false } c logs acc2 k = .ok s2 ∧
          s2.1.batch = acc2.1.batch ∧ s2.1.recorded = acc2.1.recorded ∧ s2.1.validation = acc2.1.validation ∧
          s2.1.warnings + acc.1.warnings = acc2.1.warnings + acc1.1.warnings ∧
          s2.2.failed = acc2.2.failed ∧ s2.2.errors = acc2.2.errors := by
        rcases hcase with ⟨x, o, w, q1, q2, q3, rfl⟩ | ⟨v, w, q1, q2, rfl⟩ | ⟨q1, q2, q3, rfl⟩
        · have hp : passes S.pctTol S.absTol o x = true := by
            by_contra hp
            simp [hp] at f1
          refine ⟨_, (checkEntry_ok_iff W { S with recordAll := false } c logs acc2 _ k).2
            ⟨text, by rw [hread2, hget], Or.inl ⟨x, o, w, rfl, q2, q3, rfl⟩⟩, rfl, rfl, rfl, ?_, ?_, rfl⟩
          · dsimp only; omega
          · dsimp only; rw [hp]; rfl
        · have hr := hread k (by simp) (by
            rcases q1 with q1 | ⟨q3, q4⟩
            · exact Or.inl q1
            · exact Or.inr ⟨text, hget, q3, q4⟩) v w q2
          obtain ⟨x, rfl⟩ := hr.fin
          have hv : Dict.get? (setValue acc.1.batch k (W.showF (.fin x))).dict k = some (W.showF (.fin x)) := by
            show Dict.get? (Dict.set acc.1.batch.dict (strip k) _) k = _
            rw [hclean, Dict.get?_set_self]
          refine ⟨_, (checkEntry_ok_iff W { S with recordAll := false } c logs acc2 _ k).2
            ⟨W.showF (.fin x), by rw [hread2]; dsimp only; rw [hv], Or.inl ⟨.fin x, some (.fin x), w, rfl, hr.float, q2, rfl⟩⟩,
            rfl, rfl, rfl, ?_, ?_, rfl⟩
          · have hw : w = false := by
              have : ∀ (l : List (Matches K)) o w, singleResult l = .ok (some o, w) → w = false := by
                intro l
                induction l with
                | nil => intro o w h; cases h
                | cons m l ih =>
                  intro o w h
                  unfold singleResult at h
                  split at h
                  · exact ih o w h
                  · split at h
                    · cases h; rfl
                    · cases h
                  · cases h
              exact this _ _ _ q2
            dsimp only; rw [hw]; simp
          · dsimp only; rw [passes_self htol]; rfl
        · refine ⟨_, (checkEntry_ok_iff W { S with recordAll := false } c logs acc2 _ k).2
            ⟨text, by rw [hread2, hget], Or.inr (Or.inr ⟨rfl, q2, q3, rfl⟩)⟩, rfl, rfl, rfl, ?_, rfl, rfl⟩
          dsimp only; omega
      obtain ⟨s2, e0, e1, e2, e3, e4, e5, e6⟩ := hst
      obtain ⟨acc2', d0, d1, d2, d3, d4, d5, d6⟩ := hagain f2 s2 (by rw [e1]; exact g1) (by rw [e1]; exact g2)
        (fun k' hk' => by rw [e1]; exact g3 k' (by simp [hk']))
      refine ⟨acc2', ?_, d1.trans e1, d2.trans e2, d3.trans e3, by omega, d5.trans e5, d6.trans e6⟩
      rw [List.foldlM_cons, bind_ok_iff]
      exact ⟨s2, e0, d0⟩

/-! ## sweeps -/

/-- The comparisons of a sweep add to the counters, whatever these are. -/
theorem sweepCheck_shift [FloorRing K] (p a : K) (smooth : Bool) (es data : List (Fl K)) :
    (∃ i j, ∀ c, sweepCheck p a smooth c es data = .ok ⟨c.passed + i, c.failed + j, c.errors⟩) ∨
    ∃ e, ∀ c, sweepCheck p a smooth c es data = .error e := by
  have key : ∀ {α : Type} (at' : α → Option (Fl K)) (ex : α → Fl K) (l : List α),
      (∃ i j, ∀ c : Counts, l.foldlM (fun c x => match at' x with
        | none => Except.error PyErr.indexError
        | some v => Except.ok (checkResult p a c (some v) (ex x))) c = .ok ⟨c.passed + i, c.failed + j, c.errors⟩) ∨
      ∃ e, ∀ c : Counts, l.foldlM (fun c x => match at' x with
        | none => Except.error PyErr.indexError
        | some v => Except.ok (checkResult p a c (some v) (ex x))) c = .error e := by
    intro α at' ex l
    induction l with
    | nil => exact Or.inl ⟨0, 0, fun c => rfl⟩
    | cons x l ih =>
      cases hx : at' x with
      | none =>
        right
        refine ⟨.indexError, fun c => ?_⟩
        rw [List.foldlM_cons, hx]; rfl
      | some v =>
        rcases ih with ⟨i, j, h⟩ | ⟨e, h⟩
        · left
          by_cases hp : passes p a (some v) (ex x) = true
          · refine ⟨i + 1, j, fun c => ?_⟩
            rw [List.foldlM_cons, hx]
            simp only [bind, Except.bind, h]
            simp only [checkResult, if_pos hp, Except.ok.injEq, Counts.mk.injEq, and_true, true_and]
            omega
          · refine ⟨i, j + 1, fun c => ?_⟩
            rw [List.foldlM_cons, hx]
            simp only [bind, Except.bind, h]
            simp only [checkResult, if_neg hp, Except.ok.injEq, Counts.mk.injEq, and_true, true_and]
            omega
        · right
          refine ⟨e, fun c => ?_⟩
          rw [List.foldlM_cons, hx]
          simp only [bind, Except.bind, h]
  match es with
  | [] => exact Or.inr ⟨.indexError, fun c => rfl⟩
  | [e] => exact key _ _ _
  | e :: e' :: es => exact key _ _ _

theorem round_whole [FloorRing K] (n : ℤ) : GNC.pyRound ((n : K)) = n := by
  unfold GNC.pyRound
  simp

/-- What was recorded for a sweep without refinement, checked against the same data -/
theorem record_check_again [FloorRing K] (W : World K) (p a : K) (htol : 0 ≤ p ∨ 0 ≤ a) (c : Counts) {data : List (Fl K)}
    (hne : data ≠ []) (hr : ∀ v ∈ data, Reads W v) :
    (splitC ',' (join ", ".toList (data.map W.showF))).mapM W.float = some data ∧
    sweepCheck p a false c data data = .ok ⟨c.passed + data.length, c.failed, c.errors⟩ := by
  have hpass : ∀ v ∈ data, passes p a (some v) v = true := by
    intro v hv
    obtain ⟨x, rfl⟩ := (hr v hv).fin
    exact passes_self htol x
  constructor
  · have hj : ∀ (l : List (Fl K)) (v : Fl K), join ", ".toList ((v :: l).map W.showF) =
        join [','] (W.showF v :: l.map (fun u => ' ' :: W.showF u)) := by
      intro l
      induction l with
      | nil => intro v; rfl
      | cons u l ih =>
        intro v
        have := ih u
        simp only [List.map_cons] at this ⊢
        show W.showF v ++ ", ".toList ++ join ", ".toList (W.showF u :: l.map W.showF) = _
        rw [this]
        cases l with
        | nil => simp [join]
        | cons u' l => simp [join]
    cases data with
    | nil => exact absurd rfl hne
    | cons v l =>
      rw [hj, splitC_join ',' (by simp) (by
        intro s hs
        rw [List.mem_cons, List.mem_map] at hs
        rcases hs with rfl | ⟨u, hu, rfl⟩
        · exact (hr v (by simp)).comma
        · rw [List.mem_cons, not_or]
          exact ⟨by decide, (hr u (by simp [hu])).comma⟩)]
      rw [List.mapM_cons, (hr v (by simp)).float]
      have : ∀ l : List (Fl K), (∀ u ∈ l, Reads W u) → (l.map (fun u => ' ' :: W.showF u)).mapM W.float = some l := by
        intro l
        induction l with
        | nil => intro _; rfl
        | cons u l ih =>
          intro h
          rw [List.map_cons, List.mapM_cons, (h u (by simp)).space, ih (fun w hw => h w (by simp [hw]))]
          rfl
      rw [this l (fun u hu => hr u (by simp [hu]))]
      rfl
  · have fold : ∀ (l : List (Fl K × ℕ)) (c : Counts), (∀ x ∈ l, data[x.2]? = some x.1) →
        l.foldlM (fun c (x : Fl K × ℕ) => match data[x.2 * 1]? with
          | none => Except.error PyErr.indexError
          | some v => Except.ok (checkResult p a c (some v) x.1)) c = .ok ⟨c.passed + l.length, c.failed, c.errors⟩ := by
      intro l
      induction l with
      | nil => intro c _; rfl
      | cons x l ih =>
        intro c h
        rw [List.foldlM_cons, Nat.mul_one, h x (by simp)]
        simp only [bind, Except.bind]
        have hp := hpass x.1 (List.mem_of_getElem? (h x (by simp)))
        rw [ih _ (fun y hy => h y (by simp [hy])), checkResult, if_pos hp]
        simp only [List.length_cons, Except.ok.injEq, Counts.mk.injEq, and_self, and_true]
        omega
    match data, fold, hpass with
    | [v], _, hpass =>
      have h1 : (GNC.pyRound ((([v] : List (Fl K)).length : K) / ((1 : ℕ) : K))).toNat = 1 := by
        have : ((([v] : List (Fl K)).length : K) / ((1 : ℕ) : K)) = ((1 : ℤ) : K) := by simp
        rw [this, round_whole]; rfl
      show (List.range (GNC.pyRound ((([v] : List (Fl K)).length : K) / ((1 : ℕ) : K))).toNat).foldlM _ c = _
      rw [h1]
      simp [List.range_succ, checkResult, hpass v (by simp), bind, Except.bind, pure, Except.pure]
    | v :: v' :: l, fold, _ =>
      have := fold (v :: v' :: l).zipIdx c (by
        rintro ⟨x, i⟩ hx
        rw [List.mem_zipIdx_iff_getElem?] at hx
        exact hx)
      rw [List.length_zipIdx] at this
      exact this

/-- The expected results of a sweep, gone through once, and then again with the recorded results in place -/
theorem sweep_fold [FloorRing K] (W : World K) (S : Settings K) (htol : 0 ≤ S.pctTol ∨ 0 ≤ S.absTol) {c : Str} (hc : Named c)
    (logs : Logs K) (smooth : Str) (keys : List Str) (ha : Apart c keys) : ∀ (ds : List Str), ds.Nodup →
    (∀ d ∈ ds, ∃ n, '.' ∉ n ∧ d = c ++ ".ParameterSweep.".toList ++ n) →
    ∀ acc acc' : St K × Counts,
    (∀ d ∈ ds, Asked W S acc.1.batch (d ++ ".expectedValues".toList) → Fig.strtobool smooth = .ok false ∧
      ∀ spec data, Dict.get? acc.1.batch.dict (d ++ ".column".toList) = some spec →
        CaseM.sweepColumn (logs.map (fun f => f spec)) = .ok data → ∀ v ∈ data, Reads W v) →
    Dict.keys acc.1.batch.dict = keys → acc.1.batch.defaults = [] →
    ds.foldlM (sweepEntry W S c smooth logs) acc = .ok acc' →
    (Dict.keys acc'.1.batch.dict = keys ∧ acc'.1.batch.defaults = [] ∧
      (∀ k, (∀ d ∈ ds, k ≠ d ++ ".expectedValues".toList) → Dict.get? acc'.1.batch.dict k = Dict.get? acc.1.batch.dict k) ∧
      acc'.1.validation = acc.1.validation ∧ acc'.1.warnings = acc.1.warnings ∧
      acc.2.failed ≤ acc'.2.failed ∧ acc'.2.errors = acc.2.errors) ∧
    (acc'.2.failed = acc.2.failed → ∀ acc2 : St K × Counts, Dict.keys acc2.1.batch.dict = keys → acc2.1.batch.defaults = [] →
      (∀ d ∈ ds, Dict.get? acc2.1.batch.dict (d ++ ".expectedValues".toList) =
          Dict.get? acc'.1.batch.dict (d ++ ".expectedValues".toList) ∧
        Dict.get? acc2.1.batch.dict (d ++ ".column".toList) = Dict.get? acc'.1.batch.dict (d ++ ".column".toList)) →
      ∃ acc2', ds.foldlM (sweepEntry W { S with recordAll := false } c smooth logs) acc2 = .ok acc2' ∧
        acc2'.1 = acc2.1 ∧ acc2'.2.failed = acc2.2.failed ∧ acc2'.2.errors = acc2.2.errors) := by
  have hsuf : ∀ d d' : Str, (∃ n, '.' ∉ n ∧ d = c ++ ".ParameterSweep.".toList ++ n) →
      (∃ n, '.' ∉ n ∧ d' = c ++ ".ParameterSweep.".toList ++ n) → d ++ ".column".toList ≠ d' ++ ".expectedValues".toList := by
    intro d d' _ _ h
    have h1 : (d ++ ".column".toList).getLast? = some 'n' := by
      rw [List.getLast?_append]
      have : (".column".toList).getLast? = some 'n' := by decide +kernel
      rw [this]; rfl
    have h2 : (d' ++ ".expectedValues".toList).getLast? = some 's' := by
      rw [List.getLast?_append]
      have : (".expectedValues".toList).getLast? = some 's' := by decide +kernel
      rw [this]; rfl
    rw [h, h2] at h1
    revert h1; decide
  intro ds
  induction ds with
  | nil =>
    intro _ _ acc acc' _ h1 h2 h
    cases h
    exact ⟨⟨h1, h2, fun _ _ => rfl, rfl, rfl, le_refl _, rfl⟩, fun _ acc2 _ _ _ => ⟨acc2, rfl, rfl, rfl, rfl⟩⟩
  | cons d ds ih =>
    intro hnd hform acc acc' hread h1 h2 h
    rw [List.foldlM_cons, bind_ok_iff] at h
    obtain ⟨acc1, hstep, hrest⟩ := h
    rw [List.nodup_cons] at hnd
    obtain ⟨n, hn, hdn⟩ := hform d (by simp)
    -- reading the two entries
    have hval : ∀ b : Store, b.defaults = [] → Dict.keys b.dict = keys →
        (getString b c (d ++ ".expectedValues".toList)).1 =
          match Dict.get? b.dict (d ++ ".expectedValues".toList) with | some v => .ok v | none => .error .keyError := by
      intro b hb hk
      rw [hdn, show ".expectedValues".toList = '.' :: "expectedValues".toList by decide +kernel]
      exact sweep_read hc hb (by rw [hk]; exact ha) (x := 's') (by decide +kernel) (by decide +kernel)
    have hcol : ∀ b : Store, b.defaults = [] → Dict.keys b.dict = keys →
        (getString b c (d ++ ".column".toList)).1 =
          match Dict.get? b.dict (d ++ ".column".toList) with | some v => .ok v | none => .error .keyError := by
      intro b hb hk
      rw [hdn, show ".column".toList = '.' :: "column".toList by decide +kernel]
      exact sweep_read hc hb (by rw [hk]; exact ha) (x := 'n') (by decide +kernel) (by decide +kernel)
    have hsome : ∀ (o : Option Str) (v : Str), (match o with | some v => (.ok v : Except PyErr Str) | none => .error .keyError) =
        .ok v → o = some v := by
      intro o v h
      cases o with
      | none => cases h
      | some w => cases h; rfl
    obtain ⟨spec, text, data, r1, r2, r3, hcase⟩ := (sweepEntry_ok_iff W S c smooth logs acc acc1 d).1 hstep
    rw [hcol _ h2 h1] at r1
    rw [hval _ h2 h1] at r2
    have g1 := hsome _ _ r1
    have g2 := hsome _ _ r2
    have hmem : d ++ ".expectedValues".toList ∈ keys := by
      rw [← h1, ← Dict.get?_isSome_iff, g2]; rfl
    have hclean := ha.clean _ hmem
    have hs1 : Dict.keys acc1.1.batch.dict = keys ∧ acc1.1.batch.defaults = [] ∧
        (∀ k', k' ≠ d ++ ".expectedValues".toList → Dict.get? acc1.1.batch.dict k' = Dict.get? acc.1.batch.dict k') ∧
        acc1.1.validation = acc.1.validation ∧ acc1.1.warnings = acc.1.warnings ∧
        acc.2.failed ≤ acc1.2.failed ∧ acc1.2.errors = acc.2.errors := by
      rcases hcase with ⟨_, rfl⟩ | ⟨_, b, hb, e1, e2⟩
      · refine ⟨?_, h2, ?_, rfl, rfl, le_refl _, rfl⟩
        · show Dict.keys (Dict.set acc.1.batch.dict (strip (d ++ ".expectedValues".toList)) _) = keys
          rw [hclean, Dict.keys_set_of_mem _ _ (by rw [h1]; exact hmem), h1]
        · intro k' hk'
          show Dict.get? (Dict.set acc.1.batch.dict (strip (d ++ ".expectedValues".toList)) _) k' = _
          rw [hclean, Dict.get?_set_ne _ _ (Ne.symm hk')]
      · rw [e1]
        rcases e2 with ⟨es, _, hs⟩ | ⟨_, _, _, hs⟩
        · rcases sweepCheck_shift S.pctTol S.absTol b es data with ⟨i, j, hij⟩ | ⟨e, he⟩
          · rw [hij] at hs
            rw [← Except.ok.inj hs]
            exact ⟨h1, h2, fun _ _ => rfl, rfl, rfl, Nat.le_add_right _ _, rfl⟩
          · rw [he] at hs; cases hs
        · rw [hs]
          exact ⟨h1, h2, fun _ _ => rfl, rfl, rfl, le_refl _, rfl⟩
    obtain ⟨a1, a2, a3, a4, a5, a6, a7⟩ := hs1
    have hne' : ∀ d' ∈ ds, d' ++ ".expectedValues".toList ≠ d ++ ".expectedValues".toList :=
      fun d' hd' e => hnd.1 ((List.append_left_injective _ e) ▸ hd')
    obtain ⟨⟨b1, b2, b3, b4, b5, b6, b7⟩, hagain⟩ := ih hnd.2 (fun k hk => hform k (by simp [hk])) acc1 acc'
      (fun d' hd' hask => by
        have := hread d' (by simp [hd']) (by
          unfold Asked at hask ⊢
          rw [a3 _ (hne' d' hd')] at hask
          exact hask)
        rw [a3 _ (hsuf d' d (hform d' (by simp [hd'])) ⟨n, hn, hdn⟩)]
        exact this) a1 a2 hrest
    refine ⟨⟨b1, b2, ?_, b4.trans a4, b5.trans a5, le_trans a6 b6, b7.trans a7⟩, ?_⟩
    · intro k' hk'
      rw [b3 k' (fun d' hd' => hk' d' (by simp [hd'])), a3 k' (hk' d (by simp))]
    · intro hfail acc2 q1 q2 q3
      have f1 : acc1.2.failed = acc.2.failed := by omega
      have f2 : acc'.2.failed = acc1.2.failed := by omega
      have hgk : Dict.get? acc2.1.batch.dict (d ++ ".expectedValues".toList) =
          Dict.get? acc1.1.batch.dict (d ++ ".expectedValues".toList) := by
        rw [(q3 d (by simp)).1, b3 _ (fun d' hd' e => hne' d' hd' e.symm)]
      have hgc : Dict.get? acc2.1.batch.dict (d ++ ".column".toList) = some spec := by
        rw [(q3 d (by simp)).2, b3 _ (fun d' hd' => hsuf d d' ⟨n, hn, hdn⟩ (hform d' (by simp [hd']))),
          a3 _ (hsuf d d ⟨n, hn, hdn⟩ ⟨n, hn, hdn⟩), g1]
      have hreadc : (getString acc2.1.batch c (d ++ ".column".toList)).1 = .ok spec := by rw [hcol _ q2 q1, hgc]
      have hst : ∃ s2 : St K × Counts, sweepEntry W { S with recordAll := false } c smooth logs acc2 d = .ok s2 ∧
          s2.1 = acc2.1 ∧ s2.2.failed = acc2.2.failed ∧ s2.2.errors = acc2.2.errors := by
        rcases hcase with ⟨hask, rfl⟩ | ⟨hask, b, hb, e1, e2⟩
        · obtain ⟨hsm, hrd⟩ := hread d (by simp) (by
            rcases hask with hq | ⟨q4, q5⟩
            · exact Or.inl hq
            · exact Or.inr ⟨text, g2, q4, q5⟩)
          have hrd := hrd spec data g1 r3
          have hv : Dict.get? acc2.1.batch.dict (d ++ ".expectedValues".toList) =
              some (join ", ".toList (data.map W.showF)) := by
            rw [hgk]
            show Dict.get? (Dict.set acc.1.batch.dict (strip (d ++ ".expectedValues".toList)) _) _ = _
            rw [hclean, Dict.get?_set_self]
          have hreadv : (getString acc2.1.batch c (d ++ ".expectedValues".toList)).1 =
              .ok (join ", ".toList (data.map W.showF)) := by rw [hval _ q2 q1, hv]
          by_cases hd0 : data = []
          · subst hd0
            have htxt : join ", ".toList (([] : List (Fl K)).map W.showF) = [] := rfl
            rw [htxt] at hreadv
            have hnr : ¬ (({ S with recordAll := false } : Settings K).recordAll = true ∨
                W.float [] = none ∧ ([] : Str).map Char.toLower = "record".toList) := by
              rintro (h | ⟨_, h⟩)
              · cases h
              · revert h; decide +kernel
            cases hf : W.float [] with
            | none =>
              refine ⟨(acc2.1, acc2.2), (sweepEntry_ok_iff W { S with recordAll := false } c smooth logs acc2 _ d).2
                ⟨spec, [], [], hreadc, hreadv, r3, Or.inr ⟨hnr, false, hsm, rfl, Or.inr ⟨?_, by simp, ?_, rfl⟩⟩⟩, rfl, rfl, rfl⟩
              · rw [show splitC ',' ([] : Str) = [[]] by decide +kernel, List.mapM_cons, hf]; rfl
              · have : ((([] : List (Fl K)).length : K) / ((if false then 10 else 1 : ℕ) : K)) = ((0 : ℤ) : K) := by simp
                rw [this, round_whole]
            | some y =>
              refine ⟨(acc2.1, acc2.2), (sweepEntry_ok_iff W { S with recordAll := false } c smooth logs acc2 _ d).2
                ⟨spec, [], [], hreadc, hreadv, r3, Or.inr ⟨hnr, false, hsm, rfl, Or.inl ⟨[y], ?_, ?_⟩⟩⟩, rfl, rfl, rfl⟩
              · rw [show splitC ',' ([] : Str) = [[]] by decide +kernel, List.mapM_cons, hf]; rfl
              · show (List.range (GNC.pyRound ((([] : List (Fl K)).length : K) / ((1 : ℕ) : K))).toNat).foldlM _ _ = _
                have : ((([] : List (Fl K)).length : K) / ((1 : ℕ) : K)) = ((0 : ℤ) : K) := by simp
                rw [this, round_whole]
                rfl
          · obtain ⟨k1, k2⟩ := record_check_again W S.pctTol S.absTol htol acc2.2 hd0 hrd
            refine ⟨(acc2.1, ⟨acc2.2.passed + data.length, acc2.2.failed, acc2.2.errors⟩), (sweepEntry_ok_iff W { S with recordAll := false } c smooth logs acc2 _ d).2
              ⟨spec, _, data, hreadc, hreadv, r3, Or.inr ⟨?_, false, hsm, rfl, Or.inl ⟨data, k1, k2⟩⟩⟩, rfl, rfl, rfl⟩
            rintro (h | ⟨h5, h6⟩)
            · cases h
            · have hcm : ',' ∉ join ", ".toList (data.map W.showF) := by
                intro hm
                have : Char.toLower ',' ∈ (join ", ".toList (data.map W.showF)).map Char.toLower := List.mem_map_of_mem hm
                rw [h6] at this
                revert this; decide +kernel
              have hs1 := splitC_join ',' (l := [join ", ".toList (data.map W.showF)]) (by simp) (by simpa using hcm)
              have hs2 : splitC ',' (join ", ".toList (data.map W.showF)) = [join ", ".toList (data.map W.showF)] := by
                simpa [join] using hs1
              rw [hs2, List.mapM_cons, h5] at k1
              cases k1
        · have hreadv : (getString acc2.1.batch c (d ++ ".expectedValues".toList)).1 = .ok text := by
            rw [hval _ q2 q1, hgk, e1, g2]
          have hnr : ¬ (({ S with recordAll := false } : Settings K).recordAll = true ∨
              W.float text = none ∧ text.map Char.toLower = "record".toList) := by
            rintro (h | h)
            · cases h
            · exact hask (Or.inr h)
          rcases e2 with ⟨es, hes, hs⟩ | ⟨hes, hcm, hle, hs⟩
          · rcases sweepCheck_shift S.pctTol S.absTol b es data with ⟨i, j, hij⟩ | ⟨e, he⟩
            · have hs' := hs
              rw [hij] at hs'
              cases hs'' : acc1.2 with
              | mk x y z =>
                rw [hs''] at hs' f1
                cases hs'
                dsimp only at f1
                have hj : j = 0 := by omega
                subst hj
                exact ⟨(acc2.1, ⟨acc2.2.passed + i, acc2.2.failed + 0, acc2.2.errors⟩), (sweepEntry_ok_iff W { S with recordAll := false } c smooth logs acc2 _ d).2
                  ⟨spec, text, data, hreadc, hreadv, r3, Or.inr ⟨hnr, b, hb, rfl, Or.inl ⟨es, hes, hij acc2.2⟩⟩⟩, rfl, rfl, rfl⟩
            · rw [he] at hs; cases hs
          · exact ⟨(acc2.1, acc2.2), (sweepEntry_ok_iff W { S with recordAll := false } c smooth logs acc2 _ d).2
              ⟨spec, text, data, hreadc, hreadv, r3, Or.inr ⟨hnr, b, hb, rfl, Or.inr ⟨hes, hcm, hle, rfl⟩⟩⟩, rfl, rfl, rfl⟩
      obtain ⟨s2, e0, e1, e2, e3⟩ := hst
      obtain ⟨acc2', d0, d1, d2, d3⟩ := hagain f2 s2 (by rw [e1]; exact q1) (by rw [e1]; exact q2)
        (fun d' hd' => by rw [e1]; exact q3 d' (by simp [hd']))
      refine ⟨acc2', ?_, d1.trans e1, d2.trans e2, d3.trans e3⟩
      rw [List.foldlM_cons, bind_ok_iff]
      exact ⟨s2, e0, d0⟩

end Mapleaf.Rec
