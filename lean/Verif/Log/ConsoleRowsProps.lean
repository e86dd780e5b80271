import Verif.Log.ConsoleModel
import Verif.SimDef.WriterProps

/-! # C83: rows read from an old log, colours -/

namespace Mapleaf.Console

open Mapleaf

/-- **C83** The table starts at the first line that starts with "Time"; a log without one is refused. -/
theorem headerLine_iff (ls : List Str) (h : ℕ) :
    headerLine ls = .ok h ↔ (∃ l, ls[h]? = some l ∧ "Time".toList <+: l) ∧
      ∀ (i : ℕ) l, i < h → ls[i]? = some l → ¬ "Time".toList <+: l := by
  generalize hT : "Time".toList = T
  induction ls generalizing h with
  | nil =>
    unfold headerLine
    exact ⟨fun e => (nomatch e), fun ⟨⟨_, e, _⟩, _⟩ => by simp at e⟩
  | cons l ls ih =>
    unfold headerLine
    rw [hT]
    by_cases hl : T.isPrefixOf l = true
    · rw [if_pos hl]
      have hl' := List.isPrefixOf_iff_prefix.1 hl
      constructor
      · intro e
        cases e
        exact ⟨⟨l, rfl, hl'⟩, fun i _ hi => absurd hi (by omega)⟩
      · rintro ⟨_, h2⟩
        cases h with
        | zero => rfl
        | succ h => exact absurd hl' (h2 0 l (by omega) rfl)
    · rw [if_neg hl]
      have hl' : ¬ T <+: l := fun h' => hl (List.isPrefixOf_iff_prefix.2 h')
      cases h with
      | zero =>
        constructor
        · intro e
          cases hh : headerLine ls <;> rw [hh] at e <;> cases e
        · rintro ⟨⟨l', e, h'⟩, _⟩
          cases e
          exact absurd h' hl'
      | succ h =>
        have : (match headerLine ls with
            | .error e => (.error e : Except PyErr Nat)
            | .ok n => .ok (n + 1)) = .ok (h + 1) ↔ headerLine ls = .ok h := by
          cases headerLine ls with
          | error e => exact ⟨fun e => (nomatch e), fun e => (nomatch e)⟩
          | ok n => simp
        refine this.trans ((ih h).trans ?_)
        constructor
        · rintro ⟨⟨l', e, h'⟩, h2⟩
          refine ⟨⟨l', by simpa using e, h'⟩, fun i x hi hx => ?_⟩
          cases i with
          | zero => cases hx; exact hl'
          | succ i => exact h2 i x (by omega) (by simpa using hx)
        · rintro ⟨⟨l', e, h'⟩, h2⟩
          exact ⟨⟨l', by simpa using e, h'⟩, fun i x hi hx => h2 (i + 1) x (by omega) (by simpa using hx)⟩

/-- The first word of the line is no number -/
def NotData (isNum : Str → Bool) (l : Str) : Prop := ∃ t ts, Str.wsSplit l = t :: ts ∧ isNum t = false

/-- The first word of the line is "Computing" -/
def Drop (l : Str) : Prop := ∃ ts, Str.wsSplit l = "Computing".toList :: ts

theorem scanRows_cons (isNum : Str → Bool) (i : ℕ) (l : Str) (ls : List Str) :
    scanRows isNum i (l :: ls) = match Str.wsSplit l with
      | [] => scanRows isNum (i + 1) ls
      | t :: _ => if isNum t then scanRows isNum (i + 1) ls
        else (i :: (scanRows isNum (i + 1) ls).1, if (scanRows isNum (i + 1) ls).2.isNone && decide (t = "Computing".toList) then some i
          else (scanRows isNum (i + 1) ls).2) := rfl

theorem scanRows_mem (isNum : Str → Bool) (ls : List Str) (i j : ℕ) :
    j ∈ (scanRows isNum i ls).1 ↔ ∃ (k : ℕ) (l : Str), ls[k]? = some l ∧ j = i + k ∧ NotData isNum l := by
  induction ls generalizing i with
  | nil => simp [scanRows]
  | cons l ls ih =>
    have split : (∃ (k : ℕ) (x : Str), (l :: ls)[k]? = some x ∧ j = i + k ∧ NotData isNum x) ↔
        (j = i ∧ NotData isNum l) ∨ j ∈ (scanRows isNum (i + 1) ls).1 := by
      rw [ih (i + 1)]
      constructor
      · rintro ⟨k, x, hk, hj, hx⟩
        cases k with
        | zero => cases hk; exact Or.inl ⟨by omega, hx⟩
        | succ k => exact Or.inr ⟨k, x, by simpa using hk, by omega, hx⟩
      · rintro (⟨hj, hx⟩ | ⟨k, x, hk, hj, hx⟩)
        · exact ⟨0, l, rfl, by omega, hx⟩
        · exact ⟨k + 1, x, by simpa using hk, by omega, hx⟩
    rw [split, scanRows_cons]
    cases hw : Str.wsSplit l with
    | nil =>
      dsimp only
      have : ¬ NotData isNum l := by rintro ⟨t, ts, e, _⟩; rw [hw] at e; cases e
      simp only [this, and_false, false_or]
    | cons t ts =>
      dsimp only
      by_cases ht : isNum t = true
      · rw [if_pos ht]
        have : ¬ NotData isNum l := by
          rintro ⟨t', ts', e, h'⟩
          rw [hw] at e
          cases e
          rw [ht] at h'
          cases h'
        simp only [this, and_false, false_or]
      · rw [if_neg ht]
        have : NotData isNum l := ⟨t, ts, hw, by simpa using ht⟩
        simp only [this, and_true, List.mem_cons]

theorem scanRows_last (isNum : Str → Bool) (hC : isNum "Computing".toList = false) (ls : List Str) (i : ℕ) :
    match (scanRows isNum i ls).2 with
    | none => ∀ l ∈ ls, ¬ Drop l
    | some j => ∃ k : ℕ, j = i + k ∧ (∃ l, ls[k]? = some l ∧ Drop l) ∧
        ∀ (k' : ℕ) l, k < k' → ls[k']? = some l → ¬ Drop l := by
  induction ls generalizing i with
  | nil => simp [scanRows]
  | cons l ls ih =>
    have ih' := ih (i + 1)
    rw [scanRows_cons]
    have keep : (¬ Drop l) → match (scanRows isNum (i + 1) ls).2 with
        | none => ∀ x ∈ l :: ls, ¬ Drop x
        | some j => ∃ k : ℕ, j = i + k ∧ (∃ x, (l :: ls)[k]? = some x ∧ Drop x) ∧
            ∀ (k' : ℕ) x, k < k' → (l :: ls)[k']? = some x → ¬ Drop x := by
      intro hl
      cases h2 : (scanRows isNum (i + 1) ls).2 with
      | none =>
        rw [h2] at ih'
        intro x hx
        rcases List.mem_cons.1 hx with rfl | hx
        · exact hl
        · exact ih' x hx
      | some j =>
        rw [h2] at ih'
        obtain ⟨k, hj, ⟨x, hx, hd⟩, hlast⟩ := ih'
        refine ⟨k + 1, by omega, ⟨x, by simpa using hx, hd⟩, fun k' y hk' hy => ?_⟩
        cases k' with
        | zero => omega
        | succ k' => exact hlast k' y (by omega) (by simpa using hy)
    cases hw : Str.wsSplit l with
    | nil =>
      dsimp only
      exact keep (by rintro ⟨ts, e⟩; rw [hw] at e; cases e)
    | cons t ts =>
      dsimp only
      by_cases ht : isNum t = true
      · rw [if_pos ht]
        refine keep ?_
        rintro ⟨ts', e⟩
        rw [hw] at e
        injection e with e1 _
        rw [e1, hC] at ht
        cases ht
      · rw [if_neg ht]
        dsimp only
        by_cases hc : t = "Computing".toList
        · rw [decide_eq_true hc, Bool.and_true]
          have hd : Drop l := ⟨ts, by rw [hw, hc]⟩
          cases h2 : (scanRows isNum (i + 1) ls).2 with
          | none =>
            rw [h2] at ih'
            refine ⟨0, by omega, ⟨l, rfl, hd⟩, fun k' y hk' hy => ?_⟩
            cases k' with
            | zero => omega
            | succ k' => exact ih' y (List.mem_of_getElem? (by simpa using hy))
          | some j =>
            rw [h2] at ih'
            obtain ⟨k, hj, ⟨x, hx, hd'⟩, hlast⟩ := ih'
            refine ⟨k + 1, by omega, ⟨x, by simpa using hx, hd'⟩, fun k' y hk' hy => ?_⟩
            cases k' with
            | zero => omega
            | succ k' => exact hlast k' y (by omega) (by simpa using hy)
        · rw [decide_eq_false hc, Bool.and_false]
          simp only [Bool.false_eq_true, if_false]
          refine keep ?_
          rintro ⟨ts', e⟩
          rw [hw] at e
          injection e with e1 _
          exact hc e1

/-- **C83** A log can be read if it has a table, not at its very start, and says that the simulation is complete. -/
theorem skipRows_isOk_iff (isNum : Str → Bool) (lines : List Str) :
    (∃ r, skipRows isNum lines = .ok r) ↔
      (∃ h, headerLine lines = .ok h ∧ 0 < h) ∧ "Simulation Complete\n".toList ∈ lines := by
  unfold skipRows
  generalize "Simulation Complete\n".toList = S
  cases headerLine lines with
  | error e => exact ⟨fun ⟨_, e⟩ => (nomatch e), fun ⟨⟨_, e, _⟩, _⟩ => (nomatch e)⟩
  | ok h =>
    dsimp only
    by_cases hS : S ∈ lines
    · rw [if_neg (not_not_intro hS)]
      by_cases h0 : h = 0
      · rw [if_pos h0]
        subst h0
        exact ⟨fun ⟨_, e⟩ => (nomatch e), fun ⟨⟨h, e, hp⟩, _⟩ => by cases e; omega⟩
      · rw [if_neg h0]
        exact ⟨fun _ => ⟨⟨h, rfl, by omega⟩, hS⟩, fun _ => ⟨_, rfl⟩⟩
    · rw [if_pos hS]
      exact ⟨fun ⟨_, e⟩ => (nomatch e), fun ⟨_, e⟩ => absurd e hS⟩

/-- **C83** What is read from a log: the heading, and the lines after it whose first word is a number (or that are blank), up
to the end of the simulation, or up to the last line that starts with "Computing" if there is one before the end. -/
theorem rows_spec (isNum : Str → Bool) (hC : isNum "Computing".toList = false) (lines : List Str) (r : List Nat × Nat)
    (hr : skipRows isNum lines = .ok r) :
    ∃ h fin stop : ℕ, headerLine lines = .ok h ∧ 0 < h ∧ fin = lines.idxOf "Simulation Complete\n".toList ∧
      (((∀ (i : ℕ) l, h < i → i < fin → lines[i]? = some l → ¬ Drop l) ∧ stop = fin) ∨
        (h < stop ∧ stop < fin ∧ (∃ l, lines[stop]? = some l ∧ Drop l) ∧
          ∀ (i : ℕ) l, stop < i → i < fin → lines[i]? = some l → ¬ Drop l)) ∧
      ∀ p : Str × Nat, (p ∈ (lines.zipIdx.take (lines.length - r.2)).filter (fun p => p.2 ∉ r.1) ↔
        lines[p.2]? = some p.1 ∧ h ≤ p.2 ∧ p.2 < stop ∧ (p.2 = h ∨ ¬ NotData isNum p.1)) := by
  unfold skipRows at hr
  cases hh : headerLine lines with
  | error e => rw [hh] at hr; cases hr
  | ok h =>
    rw [hh] at hr
    dsimp only at hr
    by_cases hS : "Simulation Complete\n".toList ∈ lines
    · rw [if_neg (not_not_intro hS)] at hr
      by_cases h0 : h = 0
      · rw [if_pos h0] at hr; cases hr
      · rw [if_neg h0] at hr
        have hfin := List.idxOf_lt_length_iff.2 hS
        generalize lines.idxOf "Simulation Complete\n".toList = fin at hr hfin ⊢
        have hseg : ∀ (k : ℕ) (l : Str), ((lines.take fin).drop (h + 1))[k]? = some l ↔
            lines[h + 1 + k]? = some l ∧ h + 1 + k < fin := by
          intro k l
          rw [List.getElem?_drop, List.getElem?_take]
          split
          · rename_i hlt; simp [hlt]
          · rename_i hlt; simp [hlt]
        have hmem := scanRows_mem isNum ((lines.take fin).drop (h + 1)) (h + 1)
        have hlast := scanRows_last isNum hC ((lines.take fin).drop (h + 1)) (h + 1)
        generalize scanRows isNum (h + 1) ((lines.take fin).drop (h + 1)) = sc at hr hmem hlast
        injection hr with hr
        refine ⟨h, fin, sc.2.getD fin, rfl, by omega, rfl, ?_, ?_⟩
        · cases h2 : sc.2 with
          | none =>
            rw [h2] at hlast
            refine Or.inl ⟨fun i l hi hi' hl => hlast l ?_, rfl⟩
            exact List.mem_of_getElem? ((hseg (i - (h + 1)) l).2 (by
              rw [show h + 1 + (i - (h + 1)) = i by omega]; exact ⟨hl, hi'⟩))
          | some j =>
            rw [h2] at hlast
            obtain ⟨k, hj, ⟨l, hl, hd⟩, hq⟩ := hlast
            have hk := (hseg k l).1 hl
            rw [← hj] at hk
            refine Or.inr ⟨by show h < j; omega, hk.2, ⟨l, hk.1, hd⟩, fun i x hi hi' hx => ?_⟩
            have hi : j < i := hi
            refine hq (i - (h + 1)) x (by omega) ((hseg _ x).2 ?_)
            rw [show h + 1 + (i - (h + 1)) = i by omega]
            exact ⟨hx, hi'⟩
        · have hstop : sc.2.getD fin ≤ fin := by
            cases h2 : sc.2 with
            | none => exact le_refl _
            | some j =>
              rw [h2] at hlast
              obtain ⟨k, hj, ⟨l, hl, _⟩, _⟩ := hlast
              have := (hseg k l).1 hl
              show j ≤ fin
              omega
          rintro ⟨l, i⟩
          rw [← hr]
          dsimp only
          rw [show lines.length - (lines.length - sc.2.getD fin) = sc.2.getD fin by omega]
          generalize hst : sc.2.getD fin = stop at hstop
          rw [List.mem_filter]
          have htake : (l, i) ∈ lines.zipIdx.take stop ↔ lines[i]? = some l ∧ i < stop := by
            rw [List.mem_iff_getElem?]
            constructor
            · rintro ⟨n, hn⟩
              rw [List.getElem?_take] at hn
              split at hn
              · rename_i hlt
                rw [List.getElem?_zipIdx] at hn
                cases hq : lines[n]? with
                | none => rw [hq] at hn; cases hn
                | some x =>
                  rw [hq] at hn
                  simp only [Option.map_some, Option.some.injEq, Prod.mk.injEq, Nat.zero_add] at hn
                  obtain ⟨rfl, rfl⟩ := hn
                  exact ⟨hq, hlt⟩
              · cases hn
            · rintro ⟨h1, h2⟩
              refine ⟨i, ?_⟩
              rw [List.getElem?_take, if_pos h2, List.getElem?_zipIdx, h1]
              simp
          rw [htake]
          have hdec : (decide (i ∉ List.range h ++ sc.1) = true) ↔ h ≤ i ∧ i ∉ sc.1 := by
            simp
          rw [hdec, hmem i]
          constructor
          · rintro ⟨⟨h1, h2⟩, h3, h4⟩
            refine ⟨h1, h3, h2, ?_⟩
            by_cases hi : i = h
            · exact Or.inl hi
            · refine Or.inr (fun hd => h4 ⟨i - (h + 1), l, (hseg _ l).2 ?_, by omega, hd⟩)
              rw [show h + 1 + (i - (h + 1)) = i by omega]
              exact ⟨h1, by omega⟩
          · rintro ⟨h1, h2, h3, h4⟩
            refine ⟨⟨h1, h3⟩, h2, ?_⟩
            rintro ⟨k, x, hk, hik, hd⟩
            have := ((hseg k x).1 hk).1
            rw [← hik, h1] at this
            cases this
            rcases h4 with h4 | h4
            · omega
            · exact h4 hd
    · rw [if_pos hS] at hr; cases hr

/-- **C83** The rows are read in the order of the file. -/
theorem rowsRead_sublist (skip : List Nat × Nat) (lines : List Str) : (rowsRead skip lines).Sublist lines := by
  unfold rowsRead
  have h : ((lines.zipIdx.take (lines.length - skip.2)).filter (fun p => p.2 ∉ skip.1)).Sublist lines.zipIdx :=
    List.filter_sublist.trans (List.take_sublist _ _)
  have := h.map Prod.fst
  rwa [List.zipIdx_map_fst] at this

/-- Numbers are words of digits and points -/
def digitsOnly (t : Str) : Bool := t.all (fun c => c.isDigit || c == '.')

/-- A log of a simulation that dropped `n` stages: one row for the main flight, one for each dropped stage -/
def dropLog : Nat → List Str
  | 0 => []
  | n + 1 => dropLog n ++ ["Computing stage path\n".toList, "7.0 1.0\n".toList]

/-- **C83 violated.** Data of dropped stages is not skipped if two were dropped: only that of the last is. -/
theorem two_drops_violated :
    let log := ["Starting\n".toList, "Time(s) Altitude\n".toList, "0.0 5.0\n".toList] ++ dropLog 2 ++ ["Simulation Complete\n".toList]
    ∃ r, skipRows digitsOnly log = .ok r ∧
      rowsRead r log = ["Time(s) Altitude\n".toList, "0.0 5.0\n".toList, "7.0 1.0\n".toList] := by
  refine ⟨([0, 3, 5], 3), ?_, ?_⟩ <;> decide +kernel

example : digitsOnly "Computing".toList = false := by decide +kernel

/-- With one dropped stage its data is skipped. -/
example : let log := ["Starting\n".toList, "Time(s) Altitude\n".toList, "0.0 5.0\n".toList] ++ dropLog 1
      ++ ["Simulation Complete\n".toList]
    ∃ r, skipRows digitsOnly log = .ok r ∧ rowsRead r log = ["Time(s) Altitude\n".toList, "0.0 5.0\n".toList] := by
  refine ⟨([0, 3], 3), ?_, ?_⟩ <;> decide +kernel

/-! ## Colours -/

/-- **C83** There are palettes of 3 to 8 colours: as many as asked for, all different, from the darkest to the same lightest. -/
theorem colorPalette_spec (n : Int) :
    ((∃ l, colorPalette n = .ok l) ↔ 3 ≤ n ∧ n ≤ 8) ∧
    ∀ l, colorPalette n = .ok l → (l.length : Int) = n ∧ l.Nodup ∧ l.head? = some "#003f5c" ∧ l.getLast? = some "#ffa600" := by
  by_cases h8 : 8 < n
  · have : colorPalette n = .error .valueError := by unfold colorPalette; rw [if_pos h8]
    rw [this]
    exact ⟨⟨fun ⟨_, e⟩ => (nomatch e), fun h => by omega⟩, fun _ e => (nomatch e)⟩
  · by_cases h3 : n < 3
    · have : colorPalette n = .error .valueError := by unfold colorPalette; rw [if_neg h8, if_pos h3]
      rw [this]
      exact ⟨⟨fun ⟨_, e⟩ => (nomatch e), fun h => by omega⟩, fun _ e => (nomatch e)⟩
    · have : n = 3 ∨ n = 4 ∨ n = 5 ∨ n = 6 ∨ n = 7 ∨ n = 8 := by omega
      rcases this with rfl | rfl | rfl | rfl | rfl | rfl
      all_goals
        refine ⟨⟨fun _ => by omega, fun _ => ⟨_, rfl⟩⟩, fun l e => ?_⟩
        injection e with e
        subst e
        exact ⟨rfl, by decide +kernel, rfl, rfl⟩

end Mapleaf.Console
