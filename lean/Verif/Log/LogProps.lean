import Verif.Log.LogModel
import Mathlib.Data.List.Sort
import Mathlib.Tactic.Tauto

/-! # C10, C11, C12: the log -/

namespace Mapleaf.LogM

variable {τ α : Type}

/-! ## C10: the written table is rectangular -/

/-- Every column misses at most the value of the current row. -/
structure Inv (L : Log τ α) : Prop where
  wf : Dict.WF L.cols
  noTime : timeName ∉ Dict.keys L.cols
  len : ∀ c vals, (c, vals) ∈ L.cols → L.times.length ≤ vals.length + 1

theorem completeCols_ok (L : Log τ α) : ∀ (d d' : Dict Name (List α)),
    (∀ c vals, (c, vals) ∈ d → L.times.length ≤ vals.length + 1) → completeCols L d = .ok d' →
    Dict.keys d' = Dict.keys d ∧ (∀ c vals, (c, vals) ∈ d' → vals.length = L.times.length) ∧
    (∀ c, Dict.get? d' c = (Dict.get? d c).map (fun vals =>
      if vals.length = L.times.length then vals else vals ++ [fillOf L c])) ∧
    (∀ c vals, (c, vals) ∈ d → vals.length ≤ L.times.length) := by
  intro d
  induction d with
  | nil => intro d' _ h; cases h; simp
  | cons p d ih =>
    obtain ⟨c, vals⟩ := p
    intro d' hl h
    have h0 := hl c vals (by simp)
    unfold completeCols at h
    cases hc : completeCol L.times.length (fillOf L c) vals with
    | error e => rw [hc] at h; cases h
    | ok vals' =>
      rw [hc] at h
      simp only at h
      cases hr : completeCols L d with
      | error e => rw [hr] at h; cases h
      | ok rest' =>
        rw [hr] at h
        cases h
        obtain ⟨i1, i2, i3, i4⟩ := ih rest' (fun c v hm => hl c v (by simp [hm])) hr
        have hv : vals' = (if vals.length = L.times.length then vals else vals ++ [fillOf L c]) ∧
            vals'.length = L.times.length ∧ vals.length ≤ L.times.length := by
          unfold completeCol at hc
          split at hc
          · rename_i e; cases hc; simp [e]
          · split at hc
            · rename_i e1 e2
              cases hc
              rw [if_neg e1]
              simp
              omega
            · cases hc
        refine ⟨by simp [i1], ?_, ?_, ?_⟩
        · intro c' v hm
          rcases List.mem_cons.1 hm with e | hm
          · cases e; exact hv.2.1
          · exact i2 c' v hm
        · intro c'
          simp only [Dict.get?]
          split
          · rename_i e; subst e; simp [hv.1]
          · exact i3 c'
        · intro c' v hm
          rcases List.mem_cons.1 hm with e | hm
          · cases e; exact hv.2.2
          · exact i4 c' v hm

theorem completeCols_error (L : Log τ α) : ∀ (d : Dict Name (List α)) (e : PyErr),
    completeCols L d = .error e → e = .valueError ∧ ∃ c vals, (c, vals) ∈ d ∧ L.times.length < vals.length := by
  intro d
  induction d with
  | nil => intro e h; cases h
  | cons p d ih =>
    obtain ⟨c, vals⟩ := p
    intro e h
    unfold completeCols at h
    cases hc : completeCol L.times.length (fillOf L c) vals with
    | error e' =>
      rw [hc] at h
      cases h
      unfold completeCol at hc
      split at hc
      · cases hc
      · split at hc
        · cases hc
        · cases hc; exact ⟨rfl, c, vals, by simp, by omega⟩
    | ok vals' =>
      rw [hc] at h
      simp only at h
      cases hr : completeCols L d with
      | error e' =>
        rw [hr] at h; cases h
        obtain ⟨h1, c', v', hm, hlt⟩ := ih _ hr
        exact ⟨h1, c', v', by simp [hm], hlt⟩
      | ok r => rw [hr] at h; cases h

/-- Full description of `_completeLastLine` on a log with the invariant. -/
theorem complete_spec {L : Log τ α} (hi : Inv L) :
    (∀ L', complete L = .ok L' → Inv L' ∧ L'.times = L.times ∧ L'.fills = L.fills ∧ L'.dflt = L.dflt ∧
      Dict.keys L'.cols = Dict.keys L.cols ∧ (∀ c vals, (c, vals) ∈ L'.cols → vals.length = L.times.length) ∧
      (∀ c, Dict.get? L'.cols c = (Dict.get? L.cols c).map (fun vals =>
        if vals.length = L.times.length then vals else vals ++ [fillOf L c]))) ∧
    ((∃ L', complete L = .ok L') ↔ ∀ c vals, (c, vals) ∈ L.cols → vals.length ≤ L.times.length) ∧
    (∀ e, complete L = .error e → e = .valueError) := by
  unfold complete
  cases h : completeCols L L.cols with
  | error e =>
    obtain ⟨h1, c, v, hm, hlt⟩ := completeCols_error L _ e h
    refine ⟨fun _ h => (by cases h), ⟨fun ⟨_, h⟩ => (by cases h), fun hh => ?_⟩, fun e' h' => by cases h'; exact h1⟩
    have := hh c v hm; omega
  | ok d =>
    obtain ⟨h1, h2, h3, h4⟩ := completeCols_ok L _ d hi.len h
    refine ⟨?_, ⟨fun _ => h4, fun _ => ⟨_, rfl⟩⟩, fun e h => by cases h⟩
    intro L' hL
    cases hL
    refine ⟨⟨?_, ?_, ?_⟩, rfl, rfl, rfl, h1, h2, h3⟩
    · unfold Dict.WF; rw [h1]; exact hi.wf
    · simp only [h1]; exact hi.noTime
    · intro c v hm; simp only [h2 c v hm]; omega

theorem new_inv {names : List Name} {dflt : α} {L : Log τ α} (h : new names dflt = .ok L) : Inv L := by
  unfold new at h
  split at h
  · cases h
  · cases h
    have : ∀ (names : List Name) (d : Dict Name (List α)), Dict.WF d → timeName ∉ Dict.keys d →
        Dict.WF (names.foldl (fun d c => if c = timeName then d else Dict.set d c []) d) ∧
        timeName ∉ Dict.keys (names.foldl (fun d c => if c = timeName then d else Dict.set d c []) d) := by
      intro names
      induction names with
      | nil => intro d h1 h2; exact ⟨h1, h2⟩
      | cons c cs ih =>
        intro d h1 h2
        rw [List.foldl_cons]
        split
        · exact ih d h1 h2
        · rename_i hc
          apply ih _ (Dict.WF_set h1 _ _)
          rw [Dict.mem_keys_set]
          rintro (e | e)
          · exact hc e.symm
          · exact h2 e
    obtain ⟨a, b⟩ := this names [] Dict.WF_nil (by simp)
    exact ⟨a, b, fun c v _ => by simp⟩

theorem mem_set_dict {d : Dict Name (List α)} {c : Name} {v : List α} {p : Name × List α}
    (h : p ∈ Dict.set d c v) : p = (c, v) ∨ p ∈ d := by
  induction d with
  | nil => simp [Dict.set] at h; exact Or.inl h
  | cons q d ih =>
    obtain ⟨a, b⟩ := q
    unfold Dict.set at h
    split at h
    · rename_i e
      subst e
      rcases List.mem_cons.1 h with h | h
      · exact Or.inl h
      · exact Or.inr (by simp [h])
    · rcases List.mem_cons.1 h with h | h
      · exact Or.inr (by simp [h])
      · rcases ih h with h | h
        · exact Or.inl h
        · exact Or.inr (by simp [h])

theorem step_inv [LinearOrder τ] {L L' : Log τ α} (hi : Inv L) (o : Op τ α) (h : step L o = .ok L') : Inv L' := by
  cases o with
  | addColumn c f =>
    simp only [step, addColumn] at h
    split at h
    · cases h
    · rename_i hc
      simp only [Bool.or_eq_true, not_or] at hc
      have hct : c ≠ timeName := by simpa using hc.2
      have hcols : ∀ (L1 : Log τ α), L1.cols = L.cols → L1.times = L.times → ∀ v,
          Inv { L1 with cols := Dict.set L1.cols c (List.replicate L.times.length v) } := by
        intro L1 e1 e2 v
        refine ⟨?_, ?_, ?_⟩
        · simp only; rw [e1]; exact Dict.WF_set hi.wf _ _
        · simp only [Dict.mem_keys_set, e1]
          rintro (e | e)
          · exact hct e.symm
          · exact hi.noTime e
        · intro c' v' hm
          simp only [e1, e2] at hm ⊢
          rcases mem_set_dict hm with e | hm
          · cases e; simp
          · exact hi.len c' v' hm
      cases h
      cases f with
      | none => exact hcols L rfl rfl _
      | some f =>
        by_cases hd : c = defaultName
        · simp only [hd, if_true]
          have := hcols { L with dflt := f } rfl rfl f
          rw [hd] at this; exact this
        · simp only [hd, if_false]
          exact hcols { L with fills := Dict.set L.fills c f } rfl rfl f
  | newRow t =>
    simp only [step, newLogRow] at h
    cases hc : complete L with
    | error e => rw [hc] at h; cases h
    | ok L1 =>
      rw [hc] at h
      obtain ⟨i1, e1, _, _, _, e2, _⟩ := (complete_spec hi).1 L1 hc
      have key : Inv { L1 with times := L1.times ++ [t] } := by
        refine ⟨i1.wf, i1.noTime, ?_⟩
        intro c v hm
        have := e2 c v hm
        simp [e1]; omega
      simp only at h
      split at h
      · split at h
        · cases h
        · cases h; exact key
      · cases h; exact key
  | log c v =>
    simp only [step, logValue] at h
    cases hg : Dict.get? L.cols c with
    | none => rw [hg] at h; cases h
    | some vals =>
      rw [hg] at h
      cases h
      have hmem := Dict.mem_of_get? hg
      refine ⟨Dict.WF_set hi.wf _ _, ?_, ?_⟩
      · rw [Dict.keys_set_of_mem _ _ (Dict.mem_keys_of_mem hmem)]; exact hi.noTime
      · intro c' v' hm
        rcases mem_set_dict hm with e | hm
        · cases e
          have := hi.len c vals hmem
          simp; omega
        · exact hi.len c' v' hm
  | deleteRow =>
    simp only [step, deleteLastRow] at h
    cases h
    split
    · rename_i hn
      refine ⟨?_, ?_, ?_⟩
      · have : Dict.keys (L.cols.map (fun p => (p.1, if p.2.length = L.times.length then p.2.dropLast else p.2))) =
            Dict.keys L.cols := by simp [Dict.keys, Function.comp_def]
        show (Dict.keys _).Nodup
        rw [this]; exact hi.wf
      · have : Dict.keys (L.cols.map (fun p => (p.1, if p.2.length = L.times.length then p.2.dropLast else p.2))) =
            Dict.keys L.cols := by simp [Dict.keys, Function.comp_def]
        simp only [this]; exact hi.noTime
      · intro c v hm
        simp only [List.mem_map] at hm
        obtain ⟨⟨c', v'⟩, hm, e⟩ := hm
        cases e
        have := hi.len c' v' hm
        simp only
        split <;> simp <;> omega
    · exact hi

theorem run_inv [LinearOrder τ] (ops : List (Op τ α)) {L L' : Log τ α} (hi : Inv L) (h : run ops L = .ok L') :
    Inv L' := by
  induction ops generalizing L with
  | nil => cases h; exact hi
  | cons o os ih =>
    unfold run at h
    cases hs : step L o with
    | error e => rw [hs] at h; cases h
    | ok L1 => rw [hs] at h; exact ih (step_inv hi o hs) h

theorem mapM_option_some {β γ : Type} {f : β → Option γ} : ∀ {l : List β}, (∀ x ∈ l, (f x).isSome = true) →
    ∃ r, l.mapM f = some r ∧ r.map some = l.map f := by
  intro l
  induction l with
  | nil => intro _; exact ⟨[], rfl, rfl⟩
  | cons x l ih =>
    intro h
    obtain ⟨r, hr, hr2⟩ := ih (fun y hy => h y (by simp [hy]))
    obtain ⟨y, hy⟩ := Option.isSome_iff_exists.1 (h x (by simp))
    refine ⟨y :: r, ?_, by simp [hy, hr2]⟩
    rw [List.mapM_cons, hy, hr]; rfl

theorem tableRow_full {L : Log τ α} (hlen : ∀ c vals, (c, vals) ∈ L.cols → vals.length = L.times.length) {i : Nat}
    (hi : i < L.times.length) : ∃ vs, tableRow L i = some (L.times[i], vs) ∧ vs.map Prod.fst = Dict.keys L.cols ∧
      ∀ c v, (c, v) ∈ vs ↔ ∃ vals, (c, vals) ∈ L.cols ∧ vals[i]? = some v := by
  obtain ⟨r, hr, hr2⟩ := mapM_option_some (f := fun p : Name × List α => (p.2[i]?).map (fun v => (p.1, v)))
    (l := L.cols) (by
      rintro ⟨c, vals⟩ hm
      have := hlen c vals hm
      simp only [Option.isSome_map]
      rw [List.getElem?_eq_getElem (by omega)]; rfl)
  refine ⟨r, ?_, ?_, ?_⟩
  · unfold tableRow
    rw [List.getElem?_eq_getElem hi, hr]
  · have h3 : (r.map some).map (Option.map Prod.fst) = L.cols.map (fun p => some p.1) := by
      rw [hr2, List.map_map]
      apply List.map_congr_left
      rintro ⟨c, vals⟩ hm
      have := hlen c vals hm
      simp [List.getElem?_eq_getElem (show i < vals.length by omega)]
    have h4 : (r.map Prod.fst).map some = (Dict.keys L.cols).map some := by
      simpa [Dict.keys, Function.comp_def] using h3
    exact List.map_injective_iff.2 (Option.some_injective _) h4
  · intro c v
    have : (c, v) ∈ r ↔ some (c, v) ∈ r.map some := by simp
    rw [this, hr2]
    simp only [List.mem_map]
    constructor
    · rintro ⟨⟨c', vals⟩, hm, he⟩
      simp only [Option.map_eq_some_iff] at he
      obtain ⟨a, ha, he⟩ := he
      cases he
      exact ⟨vals, hm, ha⟩
    · rintro ⟨vals, hm, ha⟩
      exact ⟨(c, vals), hm, by simp [ha]⟩

/-- **C10** After any history of operations, writing the log either reports an error (exactly when some column has
received more values than there are rows) or produces one row per recorded time, in order, each row having exactly one
value for every column. -/
theorem written_table_rectangular [LinearOrder τ] (names : List Name) (dflt : α) (ops : List (Op τ α))
    {L0 L : Log τ α} (h0 : new names dflt = .ok L0) (hr : run ops L0 = .ok L) :
    ((∃ rows, writeRows L = .ok rows) ↔ ∀ c vals, (c, vals) ∈ L.cols → vals.length ≤ L.times.length) ∧
    ∀ rows, writeRows L = .ok rows → rows.map Prod.fst = L.times ∧
      ∀ r ∈ rows, r.2.map Prod.fst = Dict.keys L.cols := by
  have hi := run_inv ops (new_inv h0) hr
  obtain ⟨c1, c2, c3⟩ := complete_spec hi
  unfold writeRows
  cases hc : complete L with
  | error e =>
    refine ⟨⟨fun ⟨_, h⟩ => (by cases h), fun hh => ?_⟩, fun _ h => (by cases h)⟩
    obtain ⟨L', h'⟩ := c2.2 hh
    rw [hc] at h'; cases h'
  | ok L1 =>
    obtain ⟨_, e1, _, _, e2, e3, _⟩ := c1 L1 hc
    have hfull : ∀ c vals, (c, vals) ∈ L1.cols → vals.length = L1.times.length := by rw [e1]; exact e3
    obtain ⟨rows, hrows, hrows2⟩ := mapM_option_some (f := tableRow L1) (l := List.range L1.times.length) (by
      intro i hi
      obtain ⟨vs, h, _⟩ := tableRow_full hfull (List.mem_range.1 hi)
      rw [h]; rfl)
    simp only [hrows]
    refine ⟨⟨fun _ => c2.1 ⟨L1, hc⟩, fun _ => ⟨_, rfl⟩⟩, ?_⟩
    intro rows' he
    cases he
    constructor
    · have h3 : (rows.map some).map (Option.map Prod.fst) = (L1.times).map some := by
        rw [hrows2, List.map_map]
        apply List.ext_getElem
        · simp
        · intro i h1 h2
          simp only [List.getElem_map, List.getElem_range, Function.comp]
          obtain ⟨vs, h, _⟩ := tableRow_full hfull (i := i) (by simpa using h1)
          rw [h]; rfl
      have h4 : (rows.map Prod.fst).map some = L1.times.map some := by simpa [Function.comp_def] using h3
      have h5 := List.map_injective_iff.2 (Option.some_injective _) h4
      rw [h5, e1]
    · intro r hr
      have : some r ∈ rows.map some := by simpa using hr
      rw [hrows2] at this
      obtain ⟨i, hi, he⟩ := List.mem_map.1 this
      obtain ⟨vs, h, h2, _⟩ := tableRow_full hfull (List.mem_range.1 hi)
      rw [h] at he
      cases he
      rw [h2, e2]

/-! ## C11: what the cells contain -/

/-- Abstract log: a list of rows. A cell is `none` while nothing has been logged for it in the current row. -/
structure Row (τ α : Type) where
  time : τ
  cell : Name → Option α

abbrev Table (τ α : Type) := List (Row τ α)

/-- Fill the empty cells of a row. -/
def Row.fill (f : Name → α) (r : Row τ α) : Row τ α := ⟨r.time, fun c => some ((r.cell c).getD (f c))⟩

/-- All earlier rows are complete. -/
def Table.fillLast (f : Name → α) : Table τ α → Table τ α
  | [] => []
  | [r] => [r.fill f]
  | r :: rs => r :: Table.fillLast f rs

/-- Write a value in the cell of the last row. -/
def Table.write (c : Name) (v : α) : Table τ α → Table τ α
  | [] => []
  | [r] => [⟨r.time, fun x => if x = c then some v else r.cell x⟩]
  | r :: rs => r :: Table.write c v rs

/-- Is the cell of the last row still empty? -/
def Table.free (c : Name) (A : Table τ α) : Prop := ∃ r, A.getLast? = some r ∧ r.cell c = none

/-- Specification of the operations: rows are appended, values go to the last row, deleting drops the last row, a new
column holds its fill value in every row that exists already. `f` gives the fill value of every column, `f'` after
the operation. -/
def astep (f : Name → α) (A : Table τ α) : Op τ α → Table τ α
  | .addColumn c fill => A.map (fun r => ⟨r.time, fun x => if x = c then some (fill.getD (f defaultName)) else r.cell x⟩)
  | .newRow t => A.fillLast f ++ [⟨t, fun _ => none⟩]
  | .log c v => A.write c v
  | .deleteRow => A.dropLast

/-- Representation: a column holds the values of the non-empty cells, and only cells of the last row can be empty. -/
structure Rep (L : Log τ α) (A : Table τ α) : Prop where
  times : L.times = A.map Row.time
  cols : ∀ c vals, Dict.get? L.cols c = some vals → vals = A.filterMap (fun r => r.cell c)
  full : ∀ c ∈ Dict.keys L.cols, ∀ r ∈ A.dropLast, (r.cell c).isSome = true

theorem filterMap_full {c : Name} : ∀ {A : Table τ α}, (∀ r ∈ A, (r.cell c).isSome = true) →
    (A.filterMap (fun r => r.cell c)).length = A.length
  | [], _ => rfl
  | r :: A, h => by
    obtain ⟨v, hv⟩ := Option.isSome_iff_exists.1 (h r (by simp))
    rw [List.filterMap_cons_some (f := fun r : Row τ α => r.cell c) hv]
    rw [List.length_cons, List.length_cons, filterMap_full (fun q hq => h q (List.mem_cons_of_mem _ hq))]

/-- Splitting off the last row. -/
theorem table_cases (A : Table τ α) : A = [] ∨ ∃ B r, A = B ++ [r] := by
  rcases List.eq_nil_or_concat A with h | ⟨B, r, h⟩
  · exact Or.inl h
  · exact Or.inr ⟨B, r, by simpa using h⟩

theorem fillLast_concat (f : Name → α) (B : Table τ α) (r : Row τ α) :
    Table.fillLast f (B ++ [r]) = B ++ [r.fill f] := by
  induction B with
  | nil => rfl
  | cons b B ih =>
    cases B with
    | nil => rfl
    | cons b' B => simp only [List.cons_append] at ih ⊢; rw [Table.fillLast, ih]; simp

theorem write_concat (c : Name) (v : α) (B : Table τ α) (r : Row τ α) :
    Table.write c v (B ++ [r]) = B ++ [⟨r.time, fun x => if x = c then some v else r.cell x⟩] := by
  induction B with
  | nil => rfl
  | cons b B ih =>
    cases B with
    | nil => rfl
    | cons b' B => simp only [List.cons_append] at ih ⊢; rw [Table.write, ih]; simp

theorem rep_len {L : Log τ α} {A : Table τ α} (h : Rep L A) {c : Name} {vals : List α}
    (hg : Dict.get? L.cols c = some vals) :
    (vals.length = L.times.length ↔ ¬ Table.free c A) ∧ vals.length ≤ L.times.length := by
  have hk : c ∈ Dict.keys L.cols := Dict.mem_keys_of_mem (Dict.mem_of_get? hg)
  have hv := h.cols c vals hg
  have ht : L.times.length = A.length := by rw [h.times]; simp
  rcases table_cases A with rfl | ⟨B, r, rfl⟩
  · subst hv
    simp [ht, Table.free]
  · have hB : ∀ q ∈ B, (q.cell c).isSome = true := by
      intro q hq; apply h.full c hk; simpa using hq
    have hlen := filterMap_full hB
    rw [List.filterMap_append] at hv
    rw [ht]
    cases hr : r.cell c with
    | none =>
      have : vals.length = B.length := by
        rw [hv]
        simp [hr, hlen]
      refine ⟨⟨fun e => ?_, fun e => absurd ⟨r, by simp, hr⟩ e⟩, by simp; omega⟩
      simp at e; omega
    | some v =>
      have : vals.length = B.length + 1 := by
        rw [hv]
        simp [hr, hlen]
      refine ⟨⟨fun _ => ?_, fun _ => by simp; omega⟩, by simp; omega⟩
      rintro ⟨r', h1, h2⟩
      simp at h1
      subst h1
      rw [hr] at h2; cases h2

/-- Completing the last line fills the empty cells of the last row. -/
theorem rep_complete {L : Log τ α} {A : Table τ α} (hi : Inv L) (h : Rep L A) :
    ∃ L', complete L = .ok L' ∧ Rep L' (A.fillLast (fillOf L)) ∧ Inv L' ∧ Dict.keys L'.cols = Dict.keys L.cols ∧
      L'.fills = L.fills ∧ L'.dflt = L.dflt ∧ L'.times = L.times ∧
      ∀ c ∈ Dict.keys L'.cols, ∀ r ∈ A.fillLast (fillOf L), (r.cell c).isSome = true := by
  obtain ⟨c1, c2, c3⟩ := complete_spec hi
  obtain ⟨L', hL'⟩ := c2.2 (by
    intro c vals hm
    exact (rep_len h (Dict.get?_of_mem hi.wf hm)).2)
  obtain ⟨d1, d2, d3, d4, d5, d6, d7⟩ := c1 L' hL'
  have hsome : ∀ c ∈ Dict.keys L'.cols, ∀ r ∈ A.fillLast (fillOf L), (r.cell c).isSome = true := by
    intro c hc r hr
    rcases table_cases A with rfl | ⟨B, q, rfl⟩
    · simp [Table.fillLast] at hr
    · rw [fillLast_concat] at hr
      rcases List.mem_append.1 hr with hr | hr
      · apply h.full c (by rw [← d5]; exact hc); simpa using hr
      · simp at hr; subst hr; simp [Row.fill]
  refine ⟨L', hL', ⟨?_, ?_, ?_⟩, d1, d5, d3, d4, d2, hsome⟩
  · rw [d2, h.times]
    rcases table_cases A with rfl | ⟨B, r, rfl⟩
    · rfl
    · rw [fillLast_concat]; simp [Row.fill]
  · intro c vals hg
    rw [d7] at hg
    obtain ⟨vals0, hg0, he⟩ := Option.map_eq_some_iff.1 hg
    have hv0 := h.cols c vals0 hg0
    obtain ⟨hl, _⟩ := rep_len h hg0
    rcases table_cases A with rfl | ⟨B, r, rfl⟩
    · have : vals0.length = L.times.length := by
        rw [hl]; rintro ⟨r, h1, _⟩; cases h1
      rw [if_pos this] at he
      rw [← he, hv0]; rfl
    · rw [fillLast_concat, List.filterMap_append]
      rw [List.filterMap_append] at hv0
      cases hr : r.cell c with
      | none =>
        have : ¬ vals0.length = L.times.length := by
          rw [hl]; push Not; exact ⟨r, by simp, hr⟩
        rw [if_neg this] at he
        rw [← he, hv0]
        simp [hr, Row.fill]
      | some v =>
        have : vals0.length = L.times.length := by
          rw [hl]; rintro ⟨r', h1, h2⟩
          simp at h1; subst h1; rw [hr] at h2; cases h2
        rw [if_pos this] at he
        rw [← he, hv0]
        simp [hr, Row.fill]
  · intro c hc r hr
    exact hsome c hc r (List.dropLast_subset _ hr)

/-- When an operation is acceptable: values are logged for an existing column, in a row that has no value for it yet;
times do not go back; columns are new. -/
def Legal [LinearOrder τ] (L : Log τ α) (A : Table τ α) : Op τ α → Prop
  | .addColumn c _ => c ∉ Dict.keys L.cols ∧ c ≠ timeName
  | .newRow t => ∀ r, A.getLast? = some r → r.time ≤ t
  | .log c _ => c ∈ Dict.keys L.cols ∧ A.free c
  | .deleteRow => True

/-- **C11** Every acceptable operation succeeds and does exactly what the row-wise specification says. -/
theorem step_refines [LinearOrder τ] {L : Log τ α} {A : Table τ α} (hi : Inv L) (h : Rep L A) (o : Op τ α)
    (hl : Legal L A o) : ∃ L', step L o = .ok L' ∧ Inv L' ∧ Rep L' (astep (fillOf L) A o) := by
  have ex : (∃ L', step L o = .ok L' ∧ Rep L' (astep (fillOf L) A o)) →
      ∃ L', step L o = .ok L' ∧ Inv L' ∧ Rep L' (astep (fillOf L) A o) := by
    rintro ⟨L', h1, h2⟩; exact ⟨L', h1, step_inv hi o h1, h2⟩
  apply ex
  cases o with
  | addColumn c f =>
    obtain ⟨hc, hct⟩ := hl
    have hdc : (Dict.has L.cols c || c == timeName) = false := by
      rw [Bool.or_eq_false_iff]
      exact ⟨(Dict.has_false_iff _ _).2 hc, by simpa using hct⟩
    have key : ∀ (L1 : Log τ α) (v : α), L1.cols = L.cols → L1.times = L.times →
        Rep { L1 with cols := Dict.set L1.cols c (List.replicate L.times.length v) }
          (A.map (fun r => ⟨r.time, fun x => if x = c then some v else r.cell x⟩)) := by
      intro L1 v e1 e2
      refine ⟨?_, ?_, ?_⟩
      · simp [e2, h.times, Function.comp_def]
      · intro x vals hg
        simp only [e1, Dict.get?_set] at hg
        split at hg
        · rename_i e
          subst e
          cases hg
          rw [List.filterMap_map]
          have : ∀ B : Table τ α, B.filterMap ((fun r : Row τ α => r.cell c) ∘
              fun r => ⟨r.time, fun x => if x = c then some v else r.cell x⟩) = List.replicate B.length v := by
            intro B
            induction B with
            | nil => rfl
            | cons b B ih => rw [List.filterMap_cons_some (by simp; rfl), ih]; rfl
          rw [this, h.times]; simp
        · rename_i e
          rw [List.filterMap_map]
          have := h.cols x vals hg
          rw [this]
          congr 1
          funext r
          simp only [Function.comp]
          rw [if_neg (fun h => e h.symm)]
      · intro x hx r hr
        rw [← List.map_dropLast] at hr
        obtain ⟨r0, hr0, rfl⟩ := List.mem_map.1 hr
        simp only
        split
        · rfl
        · rename_i e
          simp only [e1, Dict.mem_keys_set] at hx
          exact h.full x (hx.resolve_left e) r0 hr0
    simp only [step, addColumn, hdc, Bool.false_eq_true, if_false, astep]
    cases f with
    | none =>
      refine ⟨_, rfl, ?_⟩
      have := key L L.dflt rfl rfl
      simpa [fillOf] using this
    | some f =>
      refine ⟨_, rfl, ?_⟩
      by_cases hd : c = defaultName
      · simp only [hd, if_true]
        have := key { L with dflt := f } f rfl rfl
        rw [hd] at this; exact this
      · simp only [hd, if_false]
        exact key { L with fills := Dict.set L.fills c f } f rfl rfl
  | newRow t =>
    obtain ⟨L1, hc, hr, i1, ek, _, _, et, hs⟩ := rep_complete hi h
    have hrep : Rep { L1 with times := L1.times ++ [t] } (A.fillLast (fillOf L) ++ [⟨t, fun _ => none⟩]) := by
      refine ⟨by simp [hr.times], ?_, ?_⟩
      · intro c vals hg
        rw [List.filterMap_append]
        simpa using hr.cols c vals hg
      · intro c hcx r hrx
        simp only [List.dropLast_concat] at hrx
        exact hs c hcx r hrx
    simp only [step, newLogRow, hc, astep]
    cases hlast : L1.times.getLast? with
    | none => exact ⟨_, rfl, hrep⟩
    | some last =>
      have : ¬ t < last := by
        rw [et, h.times] at hlast
        rcases table_cases A with rfl | ⟨B, r, rfl⟩
        · simp at hlast
        · simp at hlast
          subst hlast
          exact not_lt.2 (hl r (by simp))
      simp only [this, if_false]
      exact ⟨_, rfl, hrep⟩
  | log c v =>
    obtain ⟨hc, r, hlast, hfree⟩ := hl
    obtain ⟨vals, hg⟩ := Option.isSome_iff_exists.1 ((Dict.get?_isSome_iff _ _).2 hc)
    simp only [step, logValue, hg, astep]
    refine ⟨_, rfl, ?_⟩
    rcases table_cases A with rfl | ⟨B, r', rfl⟩
    · cases hlast
    simp at hlast
    subst hlast
    rw [write_concat]
    refine ⟨by simp [h.times], ?_, ?_⟩
    · intro x vals' hg'
      simp only [Dict.get?_set] at hg'
      split at hg'
      · rename_i e
        subst e
        cases hg'
        have := h.cols c vals hg
        rw [this, List.filterMap_append, List.filterMap_append]
        simp [hfree]
      · rename_i e
        have := h.cols x vals' hg'
        rw [this, List.filterMap_append, List.filterMap_append]
        congr 1
        simp only [List.filterMap_cons, if_neg (fun h : x = c => e h.symm)]
    · intro x hx r hr
      rw [Dict.keys_set_of_mem _ _ hc] at hx
      apply h.full x hx r
      simpa using hr
  | deleteRow =>
    simp only [step, deleteLastRow, astep]
    rcases table_cases A with rfl | ⟨B, r, rfl⟩
    · have : L.times.length = 0 := by rw [h.times]; rfl
      simp only [this, gt_iff_lt, Nat.lt_irrefl, if_false]
      exact ⟨L, rfl, h⟩
    · have hn : L.times.length > 0 := by rw [h.times]; simp
      simp only [hn, if_true]
      refine ⟨_, rfl, ?_⟩
      have hgm : ∀ (d : Dict Name (List α)) c, Dict.get? (d.map (fun p => (p.1,
          if p.2.length = L.times.length then p.2.dropLast else p.2))) c =
          (Dict.get? d c).map (fun v => if v.length = L.times.length then v.dropLast else v) := by
        intro d c
        induction d with
        | nil => rfl
        | cons p d ih =>
          simp only [List.map_cons, Dict.get?]
          split
          · rfl
          · exact ih
      have hkm : Dict.keys (L.cols.map (fun p => (p.1, if p.2.length = L.times.length then p.2.dropLast else p.2))) =
          Dict.keys L.cols := by simp [Dict.keys, Function.comp_def]
      refine ⟨by simp [h.times], ?_, ?_⟩
      · intro c vals hg
        simp only [hgm] at hg
        obtain ⟨v0, hg0, he⟩ := Option.map_eq_some_iff.1 hg
        have hv0 := h.cols c v0 hg0
        obtain ⟨hl, _⟩ := rep_len h hg0
        rw [List.filterMap_append] at hv0
        simp only [List.dropLast_concat]
        cases hr : r.cell c with
        | none =>
          have : ¬ v0.length = L.times.length := by
            rw [hl]; push Not; exact ⟨r, by simp, hr⟩
          rw [if_neg this] at he
          rw [← he, hv0]
          simp [hr]
        | some v =>
          have : v0.length = L.times.length := by
            rw [hl]; rintro ⟨r', h1, h2⟩
            simp at h1; subst h1; rw [hr] at h2; cases h2
          rw [if_pos this] at he
          rw [← he, hv0]
          simp [hr]
      · intro c hc q hq
        simp only [hkm] at hc
        simp only [List.dropLast_concat] at hq
        apply h.full c hc
        simp only [List.dropLast_concat]
        exact List.dropLast_subset _ hq

/-- **C11** Operations that are not acceptable never go unnoticed. A value for an unknown column, a repeated column
and a time that goes back raise at once; a second value for the same cell (or a value before the first row) raises at
the next row or when the file is written. -/
theorem illegal_detected [LinearOrder τ] {L : Log τ α} {A : Table τ α} (hi : Inv L) (h : Rep L A) :
    (∀ c f, (c ∈ Dict.keys L.cols ∨ c = timeName) → step L (.addColumn c f) = .error .valueError) ∧
    (∀ c v, c ∉ Dict.keys L.cols → step L (.log c v) = .error .keyError) ∧
    (∀ t r, A.getLast? = some r → t < r.time → step L (.newRow t) = .error .valueError) ∧
    (∀ c v, c ∈ Dict.keys L.cols → ¬ A.free c → ∃ L', step L (.log c v) = .ok L' ∧
      (∀ t, step L' (.newRow t) = .error .valueError) ∧ writeRows L' = .error .valueError) := by
  refine ⟨?_, ?_, ?_, ?_⟩
  · intro c f hc
    have : (Dict.has L.cols c || c == timeName) = true := by
      rcases hc with hc | hc
      · simp [(Dict.has_iff _ _).2 hc]
      · simp [hc]
    simp [step, addColumn, this]
  · intro c v hc
    simp only [step, logValue]
    rw [(Dict.get?_eq_none_iff _ _).2 hc]
  · intro t r hr ht
    obtain ⟨L1, hc, _, _, _, _, _, et, _⟩ := rep_complete hi h
    have hlast : L1.times.getLast? = some r.time := by
      rw [et, h.times, List.getLast?_map, hr]; rfl
    simp [step, newLogRow, hc, hlast, ht]
  · intro c v hc hf
    obtain ⟨vals, hg⟩ := Option.isSome_iff_exists.1 ((Dict.get?_isSome_iff _ _).2 hc)
    have hs : step L (.log c v) = .ok { L with cols := Dict.set L.cols c (vals ++ [v]) } := by
      simp [step, logValue, hg]
    refine ⟨_, hs, ?_⟩
    have hi' := step_inv hi _ hs
    have hbad : complete { L with cols := Dict.set L.cols c (vals ++ [v]) } = .error .valueError := by
      obtain ⟨_, c2, c3⟩ := complete_spec hi'
      cases hcc : complete { L with cols := Dict.set L.cols c (vals ++ [v]) } with
      | error e => rw [c3 e hcc]
      | ok L' =>
        have hlen := (rep_len h hg).1.2 hf
        have hx := c2.1 ⟨L', hcc⟩ c (vals ++ [v]) (Dict.mem_of_get? (Dict.get?_set_self _ _ _))
        simp at hx
        omega
    constructor
    · intro t; simp [step, newLogRow, hbad]
    · simp [writeRows, hbad]

theorem new_rep {names : List Name} {dflt : α} {L : Log τ α} (h : new names dflt = .ok L) : Rep L [] := by
  unfold new at h
  split at h
  · cases h
  · cases h
    refine ⟨rfl, ?_, by simp⟩
    have : ∀ (names : List Name) (d : Dict Name (List α)), (∀ c vals, Dict.get? d c = some vals → vals = []) →
        ∀ c vals, Dict.get? (names.foldl (fun d c => if c = timeName then d else Dict.set d c []) d) c = some vals →
          vals = [] := by
      intro names
      induction names with
      | nil => intro d h; exact h
      | cons c cs ih =>
        intro d h
        rw [List.foldl_cons]
        apply ih
        split
        · exact h
        · intro c' v hg
          rw [Dict.get?_set] at hg
          split at hg
          · cases hg; rfl
          · exact h c' v hg
    intro c vals hg
    simpa using this names [] (by simp) c vals hg

/-! ### Histories -/

theorem fillOf_congr {L L' : Log τ α} (h1 : L.fills = L'.fills) (h2 : L.dflt = L'.dflt) : fillOf L = fillOf L' := by
  funext c; simp [fillOf, h1, h2]

/-- Specification state: the rows, the names of the columns, their fill values. -/
structure Spec (τ α : Type) where
  rows : Table τ α
  cols : List Name
  fill : Name → α

/-- Specification of an operation. -/
def Spec.step (S : Spec τ α) (o : Op τ α) : Spec τ α :=
  { rows := astep S.fill S.rows o
    cols := match o with
      | .addColumn c _ => S.cols ++ [c]
      | _ => S.cols
    fill := match o with
      | .addColumn c (some f) => fun x => if x = c then f else S.fill x
      | _ => S.fill }

/-- Acceptable operations, in terms of the specification state only. (A column must not be called `default`: the code
keeps the common fill value under that name.) -/
def Spec.Legal [LinearOrder τ] (S : Spec τ α) : Op τ α → Prop
  | .addColumn c _ => c ∉ S.cols ∧ c ≠ timeName ∧ c ≠ defaultName
  | .newRow t => ∀ r, S.rows.getLast? = some r → r.time ≤ t
  | .log c _ => c ∈ S.cols ∧ S.rows.free c
  | .deleteRow => True

def Spec.LegalRun [LinearOrder τ] : Spec τ α → List (Op τ α) → Prop
  | _, [] => True
  | S, o :: os => S.Legal o ∧ Spec.LegalRun (S.step o) os

/-- **C11** Every acceptable history is executed without error, and the log then represents exactly the table, the
columns and the fill values that the row-wise specification prescribes. -/
theorem history_refines [LinearOrder τ] (ops : List (Op τ α)) : ∀ (L : Log τ α) (S : Spec τ α), Inv L →
    Rep L S.rows → Dict.keys L.cols = S.cols → fillOf L = S.fill → S.LegalRun ops →
    ∃ L', run ops L = .ok L' ∧ Inv L' ∧ Rep L' (ops.foldl Spec.step S).rows ∧
      Dict.keys L'.cols = (ops.foldl Spec.step S).cols ∧ fillOf L' = (ops.foldl Spec.step S).fill := by
  induction ops with
  | nil => intro L S hi hr hk hf _; exact ⟨L, rfl, hi, hr, hk, hf⟩
  | cons o os ih =>
    intro L S hi hr hk hf hl
    obtain ⟨hl1, hl2⟩ := hl
    have hlegal : Legal L S.rows o := by
      cases o with
      | addColumn c f => simp only [Spec.Legal, ← hk] at hl1; exact ⟨hl1.1, hl1.2.1⟩
      | newRow t => exact hl1
      | log c v => simp only [Spec.Legal, ← hk] at hl1; exact hl1
      | deleteRow => trivial
    obtain ⟨L1, hs, i1, r1⟩ := step_refines hi hr o hlegal
    have hkf : Dict.keys L1.cols = (S.step o).cols ∧ fillOf L1 = (S.step o).fill := by
      cases o with
      | addColumn c f =>
        simp only [Spec.Legal, ← hk] at hl1
        have hdc : (Dict.has L.cols c || c == timeName) = false := by
          rw [Bool.or_eq_false_iff]
          exact ⟨(Dict.has_false_iff _ _).2 hl1.1, by simpa using hl1.2.1⟩
        simp only [step, addColumn, hdc, Bool.false_eq_true, if_false] at hs
        cases hs
        cases f with
        | none =>
          simp only [Spec.step]
          refine ⟨by rw [Dict.keys_set_of_not_mem _ _ hl1.1, hk], ?_⟩
          rw [← hf]; rfl
        | some f =>
          simp only [Spec.step, hl1.2.2, if_false]
          refine ⟨by rw [Dict.keys_set_of_not_mem _ _ hl1.1, hk], ?_⟩
          funext x
          rw [← hf]
          simp only [fillOf, Dict.get?_set]
          by_cases hx : x = c
          · subst hx; simp [hl1.2.2]
          · simp [hx, Ne.symm hx]
      | newRow t =>
        obtain ⟨L2, hc, _, _, ek, ef, ed, _, _⟩ := rep_complete hi hr
        simp only [step, newLogRow, hc] at hs
        simp only [Spec.step]
        split at hs
        · split at hs
          · cases hs
          · cases hs; exact ⟨ek.trans hk, (fillOf_congr (by exact ef) (by exact ed)).trans hf⟩
        · cases hs; exact ⟨ek.trans hk, (fillOf_congr (by exact ef) (by exact ed)).trans hf⟩
      | log c v =>
        simp only [step, logValue] at hs
        simp only [Spec.step]
        simp only [Spec.Legal, ← hk] at hl1
        split at hs
        · cases hs; exact ⟨(Dict.keys_set_of_mem _ _ hl1.1).trans hk, hf⟩
        · cases hs
      | deleteRow =>
        simp only [step, deleteLastRow] at hs
        cases hs
        simp only [Spec.step]
        split
        · exact ⟨by rw [← hk]; simp [Dict.keys, Function.comp_def], hf⟩
        · exact ⟨hk, hf⟩
    have r1' : Rep L1 (S.step o).rows := by rw [hf] at r1; exact r1
    obtain ⟨L', h1, h2⟩ := ih L1 (S.step o) i1 r1' hkf.1 hkf.2 hl2
    refine ⟨L', ?_, h2⟩
    simp only [run]
    rw [hs]; exact h1

/-- **C11** The written file: if the log represents the table `A`, the file has one line per row of `A`, and each line
holds the row's time and, for every column, the value logged in that row or the fill value. -/
theorem written_cells {L : Log τ α} {A : Table τ α} (hi : Inv L) (h : Rep L A) :
    ∃ rows, writeRows L = .ok rows ∧ rows.length = A.length ∧
      ∀ i (h1 : i < rows.length) (h2 : i < A.length), rows[i].1 = A[i].time ∧
        ∀ c ∈ Dict.keys L.cols, ∀ v, (c, v) ∈ rows[i].2 ↔ v = (A[i].cell c).getD (fillOf L c) := by
  obtain ⟨L1, hc, hr, i1, ek, _, _, et, hs⟩ := rep_complete hi h
  obtain ⟨_, _, _, _, _, hfull0, _⟩ := (complete_spec hi).1 L1 hc
  have hfull : ∀ c vals, (c, vals) ∈ L1.cols → vals.length = L1.times.length := by rw [et]; exact hfull0
  obtain ⟨rows, hrows, hrows2⟩ := mapM_option_some (f := tableRow L1) (l := List.range L1.times.length) (by
    intro i hi
    obtain ⟨vs, h, _⟩ := tableRow_full hfull (List.mem_range.1 hi)
    rw [h]; rfl)
  have hlenA : L1.times.length = A.length := by rw [et, h.times]; simp
  have hlen : rows.length = A.length := by
    have := congrArg List.length hrows2
    simp at this; omega
  refine ⟨rows, by simp [writeRows, hc, hrows], hlen, ?_⟩
  intro i h1 h2
  have hi1 : i < L1.times.length := by omega
  obtain ⟨vs, hrow, _, hcells⟩ := tableRow_full hfull hi1
  have hri : some rows[i] = tableRow L1 i := by
    have := congrArg (fun l => l[i]?) hrows2
    simpa [List.getElem?_eq_getElem h1, List.getElem?_range hi1] using this
  rw [hrow] at hri
  have hri := Option.some.inj hri
  constructor
  · rw [hri]; simp [et, h.times]
  · intro c hck v
    rw [hri, hcells]
    obtain ⟨vals, hg⟩ := Option.isSome_iff_exists.1 ((Dict.get?_isSome_iff L1.cols c).2 (by rw [ek]; exact hck))
    have hv := hr.cols c vals hg
    have hall := hs c (by rw [ek]; exact hck)
    -- the i-th value of a complete column is the i-th cell
    have hidx : ∀ (B : Table τ α), (∀ r ∈ B, (r.cell c).isSome = true) → ∀ i (hi : i < B.length),
        (B.filterMap (fun r => r.cell c))[i]? = B[i].cell c := by
      intro B
      induction B with
      | nil => intro _ i hi; simp at hi
      | cons b B ih =>
        intro hB i hi
        obtain ⟨w, hw⟩ := Option.isSome_iff_exists.1 (hB b (by simp))
        rw [List.filterMap_cons_some (f := fun r : Row τ α => r.cell c) hw]
        cases i with
        | zero => simp [hw]
        | succ i => simpa using ih (fun r hr => hB r (by simp [hr])) i (by simpa using hi)
    have hfl : (A.fillLast (fillOf L)).length = A.length := by
      rcases table_cases A with rfl | ⟨B, r, rfl⟩
      · rfl
      · rw [fillLast_concat]; simp
    have hcell : ((A.fillLast (fillOf L))[i]'(by omega)).cell c = some ((A[i].cell c).getD (fillOf L c)) := by
      rcases table_cases A with rfl | ⟨B, r, rfl⟩
      · simp at h2
      · simp only [fillLast_concat]
        by_cases hiB : i < B.length
        · rw [List.getElem_append_left hiB]
          have : ((B ++ [r])[i]) = B[i] := List.getElem_append_left hiB
          rw [this]
          obtain ⟨w, hw⟩ := Option.isSome_iff_exists.1 (h.full c hck B[i] (by simp))
          rw [hw]; rfl
        · have hie : i = B.length := by simp at h2; omega
          subst hie
          simp [Row.fill]
    have this' : vals[i]? = some ((A[i].cell c).getD (fillOf L c)) := by
      rw [hv, hidx _ hall i (by omega), hcell]
    constructor
    · rintro ⟨vals', hm, he⟩
      have := Dict.get?_of_mem i1.wf hm
      rw [hg] at this
      cases this
      rw [this'] at he
      exact (Option.some.inj he).symm
    · rintro rfl
      exact ⟨vals, Dict.mem_of_get? hg, this'⟩

/-! ### Look-up by time -/

/-- Recorded times never decrease. -/
theorem run_sorted [LinearOrder τ] (ops : List (Op τ α)) {L L' : Log τ α} (hs : L.times.Pairwise (· ≤ ·))
    (h : run ops L = .ok L') : L'.times.Pairwise (· ≤ ·) := by
  induction ops generalizing L with
  | nil => cases h; exact hs
  | cons o os ih =>
    unfold run at h
    cases hst : step L o with
    | error e => rw [hst] at h; cases h
    | ok L1 =>
      rw [hst] at h
      refine ih ?_ h
      cases o with
      | addColumn c f =>
        simp only [step, addColumn] at hst
        split at hst
        · cases hst
        · cases hst
          cases f with
          | none => exact hs
          | some f =>
            by_cases hd : c = defaultName
            · simp only [hd, if_true]; exact hs
            · simp only [hd, if_false]; exact hs
      | newRow t =>
        simp only [step, newLogRow] at hst
        cases hc : complete L with
        | error e => rw [hc] at hst; cases hst
        | ok L2 =>
          rw [hc] at hst
          have ht : L2.times = L.times := by
            unfold complete at hc
            split at hc
            · cases hc
            · cases hc; rfl
          simp only at hst
          cases hl : L2.times.getLast? with
          | none =>
            rw [hl] at hst
            cases hst
            rw [List.getLast?_eq_none_iff] at hl
            simp [hl]
          | some last =>
            rw [hl] at hst
            simp only at hst
            split at hst
            · cases hst
            · rename_i hlt
              cases hst
              simp only
              rw [List.pairwise_append]
              refine ⟨by rw [ht]; exact hs, by simp, ?_⟩
              intro x hx y hy
              simp at hy
              subst hy
              rw [ht] at hl hx
              have : x ≤ last := by
                rcases List.eq_nil_or_concat L.times with e | ⟨B, b, e⟩
                · rw [e] at hx; simp at hx
                · rw [e] at hx hl hs
                  simp only [List.concat_eq_append] at hx hl hs
                  rw [List.getLast?_concat] at hl
                  cases hl
                  rw [List.pairwise_append] at hs
                  rcases List.mem_append.1 hx with hx | hx
                  · exact hs.2.2 x hx _ (by simp)
                  · simp at hx; rw [hx]
              exact le_trans this (not_lt.1 hlt)
      | log c v =>
        simp only [step, logValue] at hst
        split at hst
        · cases hst; exact hs
        · cases hst
      | deleteRow =>
        simp only [step, deleteLastRow] at hst
        cases hst
        split
        · exact hs.sublist (List.dropLast_sublist _)
        · exact hs

theorem bisectAux_spec [LinearOrder τ] (l : List τ) (t : τ) (hs : l.Pairwise (· ≤ ·)) :
    ∀ (fuel lo hi : Nat), hi ≤ l.length → lo ≤ hi → hi - lo < fuel →
      (∀ i (h : i < l.length), i < lo → l[i] < t) → (∀ i (h : i < l.length), hi ≤ i → t ≤ l[i]) →
      (∀ i (h : i < l.length), i < bisectAux l t fuel lo hi → l[i] < t) ∧
      (∀ i (h : i < l.length), bisectAux l t fuel lo hi ≤ i → t ≤ l[i]) ∧ bisectAux l t fuel lo hi ≤ hi := by
  intro fuel
  induction fuel with
  | zero => intro lo hi _ _ h; omega
  | succ fuel ih =>
    intro lo hi hhi hlohi hf h1 h2
    unfold bisectAux
    split
    · rename_i hlt
      have hmid : (lo + hi) / 2 < l.length := by omega
      simp only [List.getElem?_eq_getElem hmid]
      have hmono : ∀ i j (hi : i < l.length) (hj : j < l.length), i ≤ j → l[i] ≤ l[j] := by
        intro i j hi hj hij
        rcases Nat.lt_or_eq_of_le hij with h | h
        · exact List.pairwise_iff_getElem.1 hs i j hi hj h
        · subst h; exact le_refl _
      split
      · rename_i hx
        obtain ⟨a, b, c⟩ := ih ((lo + hi) / 2 + 1) hi hhi (by omega) (by omega)
          (fun i h hl => lt_of_le_of_lt (hmono i _ h hmid (by omega)) hx) h2
        exact ⟨a, b, c⟩
      · rename_i hx
        obtain ⟨a, b, c⟩ := ih lo ((lo + hi) / 2) (by omega) (by omega) (by omega) h1
          (fun i h hl => le_trans (not_lt.1 hx) (hmono _ i hmid h hl))
        exact ⟨a, b, by omega⟩
    · refine ⟨h1, fun i h hl => h2 i h (by omega), hlohi⟩

/-- `bisect_left` on increasing times is the number of rows before the first row not earlier than `t`. -/
theorem bisectLeft_spec [LinearOrder τ] (l : List τ) (t : τ) (hs : l.Pairwise (· ≤ ·)) :
    (∀ i (h : i < l.length), i < bisectLeft l t ↔ l[i] < t) ∧ bisectLeft l t ≤ l.length := by
  obtain ⟨a, b, c⟩ := bisectAux_spec l t hs (l.length + 1) 0 l.length (le_refl _) (Nat.zero_le _) (by omega)
    (fun i _ h => by omega) (fun i h h' => by omega)
  refine ⟨fun i h => ⟨a i h, fun hlt => ?_⟩, c⟩
  by_contra hn
  exact absurd hlt (not_lt.2 (b i h (not_lt.1 hn)))

/-- **C11** Looking up a value by time returns the value of the first recorded row that is not earlier than the
requested time, and raises `IndexError` when every row is earlier. -/
theorem getValue_spec [LinearOrder τ] (names : List Name) (dflt : α) (ops : List (Op τ α)) {L0 L : Log τ α}
    (h0 : new names dflt = .ok L0) (hr : run ops L0 = .ok L) {c : Name} {vals : List α} (t : τ)
    (hg : Dict.get? L.cols c = some vals) (hv : vals.length = L.times.length) :
    (∀ i (h : i < L.times.length), (∀ j (hj : j < L.times.length), j < i → L.times[j] < t) → t ≤ L.times[i] →
      getValue L t c = .ok (vals[i])) ∧
    ((∀ i (h : i < L.times.length), L.times[i] < t) → getValue L t c = .error .indexError) := by
  have h00 : L0.times = [] := by
    unfold new at h0
    split at h0
    · cases h0
    · cases h0; rfl
  have hs := run_sorted ops (L := L0) (by rw [h00]; exact List.Pairwise.nil) hr
  obtain ⟨b1, b2⟩ := bisectLeft_spec L.times t hs
  constructor
  · intro i hi hbefore hti
    have : bisectLeft L.times t = i := by
      apply le_antisymm
      · by_contra hh
        exact absurd ((b1 i hi).1 (not_le.1 hh)) (not_lt.2 hti)
      · by_contra hh
        have hlt := not_le.1 hh
        have hj : bisectLeft L.times t < L.times.length := by omega
        have := (b1 _ hj).2 (hbefore _ hj hlt)
        omega
    simp [getValue, hg, this, List.getElem?_eq_getElem (show i < vals.length by omega)]
  · intro hall
    have : bisectLeft L.times t = L.times.length := by
      apply le_antisymm b2
      by_contra hh
      have hlt := not_le.1 hh
      have := (b1 _ hlt).2 (hall _ hlt)
      omega
    simp [getValue, hg, this, hv]

/-- **C11** Time-step column: entry `i` is the difference between the times of rows `i+1` and `i`; the last row repeats
the value before it; it is as long as the other columns as soon as there are two rows. -/
theorem timeStepSizes_spec {K : Type} [Sub K] (times : List K) (h : 2 ≤ times.length) :
    (timeStepSizes times).length = times.length ∧
    (∀ i (hi : i + 1 < times.length), (timeStepSizes times)[i]? = some (times[i + 1] - times[i])) ∧
    (timeStepSizes times)[times.length - 1]? = (timeStepSizes times)[times.length - 2]? := by
  have hdl : ((times.zip times.tail).map (fun p => p.2 - p.1)).length = times.length - 1 := by simp
  have hget : ∀ i (hi : i + 1 < times.length),
      ((times.zip times.tail).map (fun p => p.2 - p.1))[i]? = some (times[i + 1] - times[i]) := by
    intro i hi
    rw [List.getElem?_eq_getElem (by omega)]
    simp
  have hlast : ((times.zip times.tail).map (fun p => p.2 - p.1)).getLast? =
      ((times.zip times.tail).map (fun p => p.2 - p.1))[times.length - 2]? := by
    rw [List.getLast?_eq_getElem?, hdl]; congr 1
  have hts : ∃ d, ((times.zip times.tail).map (fun p => p.2 - p.1))[times.length - 2]? = some d ∧
      timeStepSizes times = (times.zip times.tail).map (fun p => p.2 - p.1) ++ [d] := by
    refine ⟨_, hget (times.length - 2) (by omega), ?_⟩
    unfold timeStepSizes
    simp only [hlast, hget (times.length - 2) (by omega)]
  obtain ⟨d, hd, hts⟩ := hts
  rw [hts]
  refine ⟨by simp [hdl]; omega, ?_, ?_⟩
  · intro i hi
    rw [List.getElem?_append_left (by omega)]
    exact hget i hi
  · rw [List.getElem?_append_right (by omega), List.getElem?_append_left (by omega), hd, hdl]
    simp

/-! ## C12: a discarded step leaves no trace -/

theorem log_ext {L L' : Log τ α} {A : Table τ α} (h : Rep L A) (h' : Rep L' A)
    (hw : Dict.WF L.cols) (hw' : Dict.WF L'.cols)
    (hk : Dict.keys L.cols = Dict.keys L'.cols) (hf : L.fills = L'.fills) (hd : L.dflt = L'.dflt) : L = L' := by
  have hcols : L.cols = L'.cols := by
    apply List.ext_getElem
    · have := congrArg List.length hk; simpa [Dict.keys] using this
    · intro i h1 h2
      have e1 : L.cols[i].1 = L'.cols[i].1 := by
        have := congrArg (fun l => l[i]?) hk
        simpa [Dict.keys, List.getElem?_eq_getElem h1, List.getElem?_eq_getElem h2] using this
      have g1 := Dict.get?_of_mem hw (k := L.cols[i].1) (v := L.cols[i].2) (by simp)
      have g2 := Dict.get?_of_mem hw' (k := L'.cols[i].1) (v := L'.cols[i].2) (by simp)
      have v1 := h.cols _ _ g1
      have v2 := h'.cols _ _ g2
      rw [e1] at v1
      exact Prod.ext e1 (v1.trans v2.symm)
  have ht : L.times = L'.times := by rw [h.times, h'.times]
  cases L; cases L'; simp_all

/-- A force evaluation: a new row and values for it. -/
def evalOps (t : τ) (vals : List (Name × α)) : List (Op τ α) := .newRow t :: vals.map (fun p => .log p.1 p.2)

theorem run_append [LinearOrder τ] (a b : List (Op τ α)) (L : Log τ α) :
    run (a ++ b) L = match run a L with
      | .ok L' => run b L'
      | .error e => .error e := by
  induction a generalizing L with
  | nil => rfl
  | cons o os ih =>
    simp only [List.cons_append, run]
    cases step L o with
    | ok L1 => exact ih L1
    | error e => rfl

/-- The operations of a batch of evaluations, each giving at most one value per existing column, at times that do not
go back. -/
def GoodEvals [LinearOrder τ] (cols : List Name) : τ → List (τ × List (Name × α)) → Prop
  | _, [] => True
  | t0, (t, vals) :: rest => t0 ≤ t ∧ (vals.map Prod.fst).Nodup ∧ (∀ p ∈ vals, p.1 ∈ cols) ∧ GoodEvals cols t rest

def evalsOps (evals : List (τ × List (Name × α))) : List (Op τ α) := evals.flatMap (fun e => evalOps e.1 e.2)

theorem run_logs [LinearOrder τ] : ∀ (vals : List (Name × α)) (L : Log τ α) (B : Table τ α) (r : Row τ α),
    Inv L → Rep L (B ++ [r]) → (vals.map Prod.fst).Nodup → (∀ p ∈ vals, p.1 ∈ Dict.keys L.cols) →
    (∀ p ∈ vals, r.cell p.1 = none) →
    ∃ L' r', run (vals.map (fun p => .log p.1 p.2)) L = .ok L' ∧ Inv L' ∧ Rep L' (B ++ [r']) ∧ r'.time = r.time ∧
      Dict.keys L'.cols = Dict.keys L.cols ∧ L'.fills = L.fills ∧ L'.dflt = L.dflt ∧
      (∀ p ∈ vals, r'.cell p.1 = some p.2) ∧ (∀ c, c ∉ vals.map Prod.fst → r'.cell c = r.cell c) := by
  intro vals
  induction vals with
  | nil => intro L B r hi h _ _ _; exact ⟨L, r, rfl, hi, h, rfl, rfl, rfl, rfl, by simp, fun _ _ => rfl⟩
  | cons p ps ih =>
    obtain ⟨c, v⟩ := p
    intro L B r hi h hnd hin hfree
    simp only [List.map_cons, List.nodup_cons] at hnd
    have hc : c ∈ Dict.keys L.cols := hin (c, v) (by simp)
    obtain ⟨L1, hs, i1, r1⟩ := step_refines hi h (.log c v) ⟨hc, r, by simp, hfree (c, v) (by simp)⟩
    simp only [astep, write_concat] at r1
    have hL1 : Dict.keys L1.cols = Dict.keys L.cols ∧ L1.fills = L.fills ∧ L1.dflt = L.dflt := by
      simp only [step, logValue] at hs
      split at hs
      · cases hs; exact ⟨Dict.keys_set_of_mem _ _ hc, rfl, rfl⟩
      · cases hs
    obtain ⟨L', r', h1, h2, h3, h4, h5, h6, h7, h8, h9⟩ := ih L1 B _ i1 r1 hnd.2
      (by rw [hL1.1]; intro p hp; exact hin p (by simp [hp]))
      (by
        intro p hp
        have hpc : p.1 ≠ c := by
          rintro e
          exact hnd.1 (List.mem_map.2 ⟨p, hp, e⟩)
        simp only [hpc, if_false]
        exact hfree p (by simp [hp]))
    refine ⟨L', r', ?_, h2, h3, h4, by rw [h5, hL1.1], by rw [h6, hL1.2.1], by rw [h7, hL1.2.2], ?_, ?_⟩
    · simp only [List.map_cons, run]; rw [hs]; exact h1
    · intro p hp
      rcases List.mem_cons.1 hp with rfl | hp
      · rw [h9 _ hnd.1]; simp
      · exact h8 p hp
    · intro x hx
      simp only [List.map_cons, List.mem_cons, not_or] at hx
      rw [h9 x hx.2]; simp [hx.1]

/-- One evaluation appends one row holding exactly the logged values. -/
theorem run_eval [LinearOrder τ] {L : Log τ α} {A : Table τ α} (hi : Inv L) (h : Rep L A) (t : τ)
    (vals : List (Name × α)) (ht : ∀ r, A.getLast? = some r → r.time ≤ t) (hnd : (vals.map Prod.fst).Nodup)
    (hin : ∀ p ∈ vals, p.1 ∈ Dict.keys L.cols) :
    ∃ L' r, run (evalOps t vals) L = .ok L' ∧ Inv L' ∧ Rep L' (A.fillLast (fillOf L) ++ [r]) ∧ r.time = t ∧
      Dict.keys L'.cols = Dict.keys L.cols ∧ L'.fills = L.fills ∧ L'.dflt = L.dflt := by
  obtain ⟨L1, hs, i1, r1⟩ := step_refines hi h (.newRow t) ht
  simp only [astep] at r1
  have hL1 : Dict.keys L1.cols = Dict.keys L.cols ∧ L1.fills = L.fills ∧ L1.dflt = L.dflt := by
    obtain ⟨L2, hc, _, _, ek, ef, ed, _, _⟩ := rep_complete hi h
    simp only [step, newLogRow, hc] at hs
    split at hs
    · split at hs
      · cases hs
      · cases hs; exact ⟨ek, ef, ed⟩
    · cases hs; exact ⟨ek, ef, ed⟩
  obtain ⟨L', r', h1, h2, h3, h4, h5, h6, h7, _, _⟩ := run_logs vals L1 _ _ i1 r1 hnd
    (by rw [hL1.1]; exact hin) (by simp)
  refine ⟨L', r', ?_, h2, h3, h4, by rw [h5, hL1.1], by rw [h6, hL1.2.1], by rw [h7, hL1.2.2]⟩
  unfold evalOps
  simp only [run]
  rw [hs]; exact h1

/-- **C12** Discarding a step: any number `k ≥ 1` of force evaluations followed by deleting `k` rows leaves exactly the
log that was there before (with its last line completed), whatever the evaluations logged. -/
theorem discard_leaves_no_trace [LinearOrder τ] {L : Log τ α} {A : Table τ α} (hi : Inv L) (h : Rep L A)
    (evals : List (τ × List (Name × α))) (hne : evals ≠ []) (t0 : τ) (ht0 : ∀ r, A.getLast? = some r → r.time ≤ t0)
    (hg : GoodEvals (Dict.keys L.cols) t0 evals) :
    ∃ L1, complete L = .ok L1 ∧ run (evalsOps evals ++ List.replicate evals.length .deleteRow) L = .ok L1 := by
  -- evaluations append rows to the completed table
  have key : ∀ (evals : List (τ × List (Name × α))) (L : Log τ α) (A : Table τ α) (t0 : τ), Inv L → Rep L A →
      (∀ r, A.getLast? = some r → r.time ≤ t0) → GoodEvals (Dict.keys L.cols) t0 evals → evals ≠ [] →
      ∃ L' rs, run (evalsOps evals) L = .ok L' ∧ Inv L' ∧ Rep L' (A.fillLast (fillOf L) ++ rs) ∧
        rs.length = evals.length ∧ Dict.keys L'.cols = Dict.keys L.cols ∧ L'.fills = L.fills ∧ L'.dflt = L.dflt := by
    intro evals
    induction evals with
    | nil => intro _ _ _ _ _ _ _ hne; exact absurd rfl hne
    | cons e es ih =>
      obtain ⟨t, vals⟩ := e
      intro L A t0 hi h ht0 hg _
      obtain ⟨g1, g2, g3, g4⟩ := hg
      obtain ⟨L1, r, h1, h2, h3, h4, h5, h6, h7⟩ := run_eval hi h t vals
        (fun r hr => le_trans (ht0 r hr) g1) g2 g3
      have hops : evalsOps ((t, vals) :: es) = evalOps t vals ++ evalsOps es := rfl
      cases es with
      | nil =>
        refine ⟨L1, [r], ?_, h2, h3, rfl, h5, h6, h7⟩
        rw [hops, run_append, h1]; rfl
      | cons e' es' =>
        obtain ⟨L2, rs, k1, k2, k3, k4, k5, k6, k7⟩ := ih L1 _ t h2 h3
          (by intro r' hr'; simp at hr'; subst hr'; rw [h4]) (by rw [h5]; exact g4) (by simp)
        rw [fillLast_concat] at k3
        refine ⟨L2, r.fill (fillOf L1) :: rs, ?_, k2, ?_, by simp [k4], by rw [k5, h5], by rw [k6, h6], by rw [k7, h7]⟩
        · rw [hops, run_append, h1]; exact k1
        · simpa using k3
  have del : ∀ (k : Nat) (L : Log τ α) (B rs : Table τ α), Inv L → Rep L (B ++ rs) → rs.length = k →
      ∃ L', run (List.replicate k (.deleteRow : Op τ α)) L = .ok L' ∧ Inv L' ∧ Rep L' B ∧
        Dict.keys L'.cols = Dict.keys L.cols ∧ L'.fills = L.fills ∧ L'.dflt = L.dflt := by
    intro k
    induction k with
    | zero =>
      intro L B rs hi h hk
      rw [List.length_eq_zero_iff] at hk
      subst hk
      exact ⟨L, rfl, hi, by simpa using h, rfl, rfl, rfl⟩
    | succ k ih =>
      intro L B rs hi h hk
      obtain ⟨L1, hs, i1, r1⟩ := step_refines hi h .deleteRow trivial
      have hL1 : Dict.keys L1.cols = Dict.keys L.cols ∧ L1.fills = L.fills ∧ L1.dflt = L.dflt := by
        simp only [step, deleteLastRow] at hs
        cases hs
        split
        · exact ⟨by simp [Dict.keys, Function.comp_def], rfl, rfl⟩
        · exact ⟨rfl, rfl, rfl⟩
      simp only [astep] at r1
      have hrs : rs ≠ [] := by rintro rfl; simp at hk
      rw [List.dropLast_append_of_ne_nil hrs] at r1
      obtain ⟨L2, k1, k2, k3, k4, k5, k6⟩ := ih L1 B rs.dropLast i1 r1 (by simp [hk])
      refine ⟨L2, ?_, k2, k3, by rw [k4, hL1.1], by rw [k5, hL1.2.1], by rw [k6, hL1.2.2]⟩
      simp only [List.replicate_succ, run]
      rw [hs]; exact k1
  obtain ⟨L1, hc, hr, i1, ek, ef, ed, et, _⟩ := rep_complete hi h
  obtain ⟨L2, rs, e1, e2, e3, e4, e5, e6, e7⟩ := key evals L A t0 hi h ht0 hg hne
  obtain ⟨L3, d1, d2, d3, d4, d5, d6⟩ := del evals.length L2 _ rs e2 e3 e4
  refine ⟨L1, hc, ?_⟩
  rw [run_append, e1]
  simp only
  rw [d1]
  congr 1
  exact log_ext d3 hr d2.wf i1.wf (by rw [d4, e5, ek]) (by rw [d5, e6, ef]) (by rw [d6, e7, ed])

/-! ### Witnesses and examples -/

-- Non-vacuity for C10/C11: two columns, one value missing, one row deleted.
example :
    let c := "A".toList
    let d := "B".toList
    ((new [c] (0 : Int) : Except PyErr (Log Int Int)).toOption.bind fun L =>
      (run [.addColumn d (some 7), .newRow 1, .log c 5, .log d 6, .newRow 2, .log c 8, .newRow 3, .deleteRow] L).toOption.bind
        fun L => (writeRows L).toOption) =
      some [(1, [(c, 5), (d, 6)]), (2, [(c, 8), (d, 7)])] := by decide +kernel

-- Non-vacuity for C12: hypotheses of `discard_leaves_no_trace`.
example : GoodEvals (α := Int) ["A".toList] (0 : Int) [(1, [("A".toList, 5)]), (1, []), (2, [("A".toList, 3)])] :=
  ⟨by decide, by decide +kernel, by decide +kernel, by decide, by decide +kernel, by decide +kernel, by decide,
    by decide +kernel, by decide +kernel, trivial⟩

/-- A column added while a row is open is back-filled for the open row too, so the first value logged for it in that
row makes the next row fail. -/
theorem addColumn_mid_row_violated :
    ((new [] (0 : Int) : Except PyErr (Log Int Int)).toOption.bind fun L =>
      (run [.newRow 1, .addColumn "A".toList none, .log "A".toList 5, .newRow 2] L).toOption).isNone = true ∧
    ((new [] (0 : Int) : Except PyErr (Log Int Int)).toOption.bind fun L =>
      (run [.addColumn "A".toList none, .newRow 1, .log "A".toList 5, .newRow 2] L).toOption).isNone = false := by
  decide +kernel

end Mapleaf.LogM
