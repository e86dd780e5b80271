import Verif.Log.PlotModel
import Mathlib.Tactic.Linarith
import Mathlib.Tactic.Ring
import Mathlib.Data.List.Basic
import Mathlib.Algebra.Order.Field.Rat

/-! # C77: plots show the logged columns that were asked for -/

namespace Mapleaf.LogM
open Mapleaf

variable {V : Type}

/-! ## Selecting columns -/

/-- The name contains the specification, or matches it as a regular expression. -/
def Hit (m : Str → Str → Bool) (spec name : Str) : Prop := spec <:+: name ∨ m spec name = true

instance (m : Str → Str → Bool) (spec name : Str) : Decidable (Hit m spec name) := by unfold Hit; infer_instance

theorem wants_spec (m : Str → Str → Bool) (excl : List Str) (spec name : Str) :
    wants (fun a b => .ok (m a b)) excl spec name = .ok (decide (Hit m spec name ∧ name ∉ excl)) := by
  unfold wants Hit
  by_cases h : Str.isIn spec name = true
  · have h' := (Str.isIn_iff _ _).1 h
    simp [h, h']
  · have h' : ¬ spec <:+: name := fun hc => h ((Str.isIn_iff _ _).2 hc)
    rw [if_neg h]
    simp only [h', false_or]
    show Except.ok _ = _
    by_cases hm : m spec name = true <;> simp [hm]

/-- **C77.** The columns returned: for every specification, in order, the columns of the file that it hits, in order, without
those excluded. -/
theorem pick_spec (m : Str → Str → Bool) (excl : List Str) (df : Sheet V) (specs : List Str) :
    pick (fun a b => .ok (m a b)) excl df specs =
      .ok (specs.flatMap fun s => df.filter fun c => decide (Hit m s c.1 ∧ c.1 ∉ excl)) := by
  have one : ∀ s, pickOne (fun a b => .ok (m a b)) excl s df = .ok (df.filter fun c => decide (Hit m s c.1 ∧ c.1 ∉ excl)) := by
    intro s
    induction df with
    | nil => rfl
    | cons c df ih =>
      unfold pickOne
      rw [wants_spec, ih]
      show Except.ok _ = _
      rw [List.filter_cons]
  induction specs with
  | nil => rfl
  | cons s specs ih =>
    unfold pick
    rw [one s, ih]
    rfl

/-- An invalid regular expression raises for the first column that does not contain it. -/
theorem pick_invalid {rx : Regex} {excl : List Str} {df : Sheet V} {s : Str} {specs : List Str} {err : PyErr}
    (hrx : ∀ name, rx s name = .error err) (h : ∃ c ∈ df, ¬ s <:+: c.1) : pick rx excl df (s :: specs) = .error err := by
  have : pickOne rx excl s df = .error err := by
    obtain ⟨c, hc, hs⟩ := h
    induction df with
    | nil => simp at hc
    | cons d df ih =>
      unfold pickOne
      by_cases hd : s <:+: d.1
      · have hmem : c ∈ df := by
          rcases List.mem_cons.1 hc with rfl | h
          · exact absurd hd hs
          · exact h
        have hw : wants rx excl s d.1 = .ok (decide (d.1 ∉ excl)) := by
          unfold wants; rw [if_pos ((Str.isIn_iff _ _).2 hd)]
        rw [hw, ih hmem]; rfl
      · have hw : wants rx excl s d.1 = .error err := by
          unfold wants
          rw [if_neg (fun hc => hd ((Str.isIn_iff _ _).1 hc)), hrx]; rfl
        rw [hw]; rfl
  unfold pick
  rw [this]; rfl

/-! ## The cache -/

/-- Every table in the cache is that of its file, and there are at most 10. -/
def Fresh (files : Files V) (c : SheetCache V) : Prop :=
  c.length ≤ 10 ∧ ∀ p df, Dict.get? c p = some df → files p = .ok df

theorem get?_tail {c : SheetCache V} (hw : Dict.WF c) {p : Str} {df : Sheet V} (h : Dict.get? c.tail p = some df) :
    Dict.get? c p = some df := by
  cases c with
  | nil => exact h
  | cons a c =>
    obtain ⟨k, v⟩ := a
    have hp : p ∈ Dict.keys c := (Dict.get?_isSome_iff c p).1 (by simp at h; rw [h]; rfl)
    have hk : k ≠ p := by
      rintro rfl
      have := hw
      unfold Dict.WF at this
      rw [Dict.keys_cons, List.nodup_cons] at this
      exact this.1 hp
    simp only [Dict.get?, if_neg hk]
    exact h

theorem length_set_le (c : SheetCache V) (p : Str) (df : Sheet V) : (Dict.set c p df).length ≤ c.length + 1 := by
  induction c with
  | nil => simp [Dict.set]
  | cons a c ih =>
    obtain ⟨k, v⟩ := a
    unfold Dict.set
    split
    · simp
    · simp only [List.length_cons]; omega

theorem WF_tail {c : SheetCache V} (h : Dict.WF c) : Dict.WF c.tail := by
  cases c with
  | nil => exact h
  | cons a c =>
    unfold Dict.WF at h ⊢
    rw [Dict.keys_cons, List.nodup_cons] at h
    exact h.2

theorem load_fresh {files : Files V} {c : SheetCache V} (hw : Dict.WF c) (hf : Fresh files c) (u : Bool) (p : Str) :
    (loadSheet files u p c).1 = files p ∧ Dict.WF (loadSheet files u p c).2 ∧ Fresh files (loadSheet files u p c).2 := by
  unfold loadSheet
  split
  · rename_i df h
    cases u with
    | false => simp at h
    | true => exact ⟨(hf.2 p df (by simpa using h)).symm, hw, hf⟩
  · rename_i h
    split
    · rename_i e he
      exact ⟨he.symm, hw, hf⟩
    · rename_i df he
      have hset : ∀ q d, Dict.get? (Dict.set c p df) q = some d → files q = .ok d := by
        intro q d hq
        rw [Dict.get?_set] at hq
        split at hq
        · rename_i hpq; subst hpq; cases hq; exact he
        · exact hf.2 q d hq
      have hws := Dict.WF_set hw p df
      refine ⟨he.symm, ?_, ?_⟩
      · dsimp only; split
        · exact WF_tail hws
        · exact hws
      · dsimp only; split
        · rename_i hlen
          constructor
          · have := length_set_le c p df
            have := hf.1
            rw [List.length_tail]; omega
          · intro q d hq
            exact hset q d (get?_tail hws hq)
        · rename_i hlen
          exact ⟨by omega, hset⟩

/-- a history of reads, each with or without the use of the cache -/
def readAll (files : Files V) : SheetCache V → List (Str × Bool) → List (Except PyErr (Sheet V))
  | _, [] => []
  | c, (p, u) :: ps => (loadSheet files u p c).1 :: readAll files (loadSheet files u p c).2 ps

/-- **C77.** As long as the files stay the same, reading through the cache gives their contents, whatever was read before. -/
theorem cache_transparent_partial (files : Files V) (reads : List (Str × Bool)) :
    readAll files [] reads = reads.map fun r => files r.1 := by
  have gen : ∀ (reads : List (Str × Bool)) (c : SheetCache V), Dict.WF c → Fresh files c →
      readAll files c reads = reads.map fun r => files r.1 := by
    intro reads
    induction reads with
    | nil => intro c _ _; rfl
    | cons r reads ih =>
      obtain ⟨p, u⟩ := r
      intro c hw hf
      obtain ⟨h1, h2, h3⟩ := load_fresh hw hf u p
      simp only [readAll, List.map_cons, h1, ih _ h2 h3]
  exact gen reads [] Dict.WF_nil ⟨by simp, by simp⟩

/-- **C77, violated.** A log that is written again under the same name, such as by a second run in the same process, is not
read again. -/
theorem cache_stale_violated (before after : Files V) (p : Str) (df : Sheet V) (h : before p = .ok df) :
    (loadSheet after true p (loadSheet before true p []).2).1 = .ok df := by
  simp [loadSheet, h, Dict.get?, Dict.set]

/-- Not using the cache reads the file as it is now, and refreshes the cache. -/
theorem cache_refresh {after : Files V} {p : Str} {df : Sheet V} (c : SheetCache V) (hw : Dict.WF c) (hc : c.length ≤ 10)
    (hc2 : c.length < 10 ∨ p ∈ Dict.keys c)
    (h : after p = .ok df) :
    (loadSheet after false p c).1 = .ok df ∧
    (loadSheet after true p (loadSheet after false p c).2).1 = .ok df := by
  have hlen : (Dict.set c p df).length ≤ 10 := by
    rcases hc2 with h1 | h1
    · have := length_set_le c p df; omega
    · have : (Dict.set c p df).length = c.length := by
        clear hw hc h
        induction c with
        | nil => simp at h1
        | cons a c ih =>
          obtain ⟨k, v⟩ := a
          unfold Dict.set
          split
          · rfl
          · rename_i hk
            rw [Dict.keys_cons, List.mem_cons] at h1
            simp only [List.length_cons]
            rw [ih (h1.resolve_left (fun hh => hk hh.symm))]
      omega
  have e : loadSheet after false p c = (.ok df, Dict.set c p df) := by
    simp only [loadSheet, Bool.false_eq_true, if_false, h]
    rw [if_neg (by omega)]
  rw [e]
  refine ⟨rfl, ?_⟩
  simp [loadSheet, Dict.get?_set_self]

/-! ## Lines in a plot -/

theorem withTime_twice (specs : List Str) : withTime (withTime specs) = withTime specs := by
  by_cases h : "Time(s)".toList ∈ specs
  · have : withTime specs = specs := if_pos h
    rw [this, this]
  · have : withTime specs = specs ++ ["Time(s)".toList] := if_neg h
    rw [this]
    exact if_pos (by simp)

/-- A log as the program writes it: one column of times, and no other column that `Time(s)` hits. -/
structure LogSheet (m : Str → Str → Bool) (df : Sheet V) (t : List V) : Prop where
  time : ("Time(s)".toList, t) ∈ df
  nodup : (df.map Prod.fst).Nodup
  only : ∀ c ∈ df, Hit m "Time(s)".toList c.1 → c.1 = "Time(s)".toList

theorem popTime_none {cs : Sheet V} (h : ∀ c ∈ cs, c.1 ≠ "Time(s)".toList) : popTime cs = (none, cs) := by
  induction cs with
  | nil => rfl
  | cons c cs ih =>
    unfold popTime
    rw [if_neg (h c (by simp)), ih (fun d hd => h d (by simp [hd]))]

theorem popTime_append {cs : Sheet V} (t : List V) (h : ∀ c ∈ cs, c.1 ≠ "Time(s)".toList) :
    popTime (cs ++ [("Time(s)".toList, t)]) = (some t, cs) := by
  induction cs with
  | nil => rw [List.nil_append]; unfold popTime; rw [if_pos rfl]
  | cons c cs ih =>
    rw [List.cons_append]
    unfold popTime
    rw [if_neg (h c (by simp)), ih (fun d hd => h d (by simp [hd]))]

theorem filter_single {m : Str → Str → Bool} {df : Sheet V} {t : List V} (h : LogSheet m df t) (excl : List Str)
    (he : "Time(s)".toList ∉ excl) :
    (df.filter fun c => decide (Hit m "Time(s)".toList c.1 ∧ c.1 ∉ excl)) = [("Time(s)".toList, t)] := by
  have hp : (fun c : Str × List V => decide (Hit m "Time(s)".toList c.1 ∧ c.1 ∉ excl)) =
      fun c => decide (Hit m "Time(s)".toList c.1 ∧ c.1 ∉ excl) := rfl
  obtain ⟨htime, hnd, honly⟩ := h
  induction df with
  | nil => simp at htime
  | cons c df ih =>
    rw [List.filter_cons]
    rw [List.map_cons, List.nodup_cons] at hnd
    rcases List.mem_cons.1 htime with heq | hmem
    · have hc1 : c.1 = "Time(s)".toList := by rw [← heq]
      rw [if_pos (by
        rw [decide_eq_true_iff, hc1]
        exact ⟨.inl List.infix_rfl, he⟩), ← heq]
      congr 1
      rw [List.filter_eq_nil_iff]
      intro d hd hcon
      have h1 := honly d (by simp [hd]) (of_decide_eq_true hcon).1
      apply hnd.1
      rw [hc1, ← h1]
      exact List.mem_map_of_mem hd
    · rw [if_neg, ih hmem hnd.2 (fun d hd => honly d (by simp [hd]))]
      intro hcon
      have h1 := honly c (by simp) (of_decide_eq_true hcon).1
      apply hnd.1
      rw [h1]
      exact List.mem_map_of_mem hmem

/-- **C77.** The lines drawn from one log: the matching columns against time, with their names as labels. Missing part: a
specification that hits the column of times itself, see `time_violated`. -/
theorem plot_log_partial {m : Str → Str → Bool} {files : Files V} {path : Str} {df : Sheet V} {t : List V}
    (hfile : files path = .ok df) (h : LogSheet m df t) {c : SheetCache V} (hw : Dict.WF c) (hf : Fresh files c)
    {specs excl : List Str} (hs : ∀ s ∈ specs, ¬ Hit m s "Time(s)".toList) (he : "Time(s)".toList ∉ excl) :
    (tryPlotting (fun a b => .ok (m a b)) files path specs excl c).1 =
      .ok ((specs.flatMap fun s => df.filter fun c => decide (Hit m s c.1 ∧ c.1 ∉ excl)).map fun c => ⟨t, c.2, c.1⟩) := by
  have hnot : "Time(s)".toList ∉ specs := fun hc => hs _ hc (.inl List.infix_rfl)
  obtain ⟨h1, _, _⟩ := load_fresh hw hf true path
  unfold tryPlotting getLoggedColumns
  obtain ⟨a, b⟩ : ∃ r, loadSheet files true path c = r := ⟨_, rfl⟩
  rcases hld : loadSheet files true path c with ⟨r, c'⟩
  rw [hld] at h1
  simp only at h1
  rw [h1, hfile]
  dsimp only
  rw [pick_spec]
  dsimp only
  unfold withTime
  rw [if_neg hnot, List.flatMap_append]
  simp only [List.flatMap_cons, List.flatMap_nil, List.append_nil]
  rw [filter_single h excl he]
  unfold drawLines
  rw [popTime_append]
  intro d hd
  rw [List.mem_flatMap] at hd
  obtain ⟨s, hs1, hd⟩ := hd
  rw [List.mem_filter] at hd
  intro hc
  have := (of_decide_eq_true hd.2).1
  rw [hc] at this
  exact hs s hs1 this

theorem tryPlotting_cache {rx : Regex} {files : Files V} {path : Str} {c : SheetCache V} (hw : Dict.WF c)
    (hf : Fresh files c) (specs excl : List Str) :
    Dict.WF (tryPlotting rx files path specs excl c).2 ∧ Fresh files (tryPlotting rx files path specs excl c).2 := by
  obtain ⟨_, h2, h3⟩ := load_fresh hw hf true path
  unfold tryPlotting getLoggedColumns
  rcases hld : loadSheet files true path c with ⟨r, c'⟩
  rw [hld] at h2 h3
  cases r with
  | error e => exact ⟨h2, h3⟩
  | ok df =>
    dsimp only
    cases pick rx excl df (withTime specs) <;> exact ⟨h2, h3⟩

/-- **C77.** A plot of several logs. A line is in it exactly when it is a column hit by one of the specifications, drawn against the
times of the first log that has a column of that name. Every log is a file as the program writes it. -/
theorem plot_all_partial {m : Str → Str → Bool} {files : Files V} (logs : List (Str × Sheet V × List V))
    (hfile : ∀ l ∈ logs, files l.1 = .ok l.2.1 ∧ LogSheet m l.2.1 l.2.2) {specs : List Str}
    (hs : ∀ s ∈ specs, ¬ Hit m s "Time(s)".toList) :
    ∃ ls, (plotLogs (fun a b => .ok (m a b)) files specs (logs.map Prod.fst) [] []).1 = .ok ls ∧
      ∀ x y name, (⟨x, y, name⟩ : PlotLine V) ∈ ls ↔ (∃ s ∈ specs, Hit m s name) ∧
        ∃ before l after, logs = before ++ l :: after ∧ (name, y) ∈ l.2.1 ∧ x = l.2.2 ∧
          ∀ b ∈ before, name ∉ b.2.1.map Prod.fst := by
  have gen : ∀ (logs : List (Str × Sheet V × List V)) (excl : List Str) (c : SheetCache V), Dict.WF c → Fresh files c →
      (∀ l ∈ logs, files l.1 = .ok l.2.1 ∧ LogSheet m l.2.1 l.2.2) → (∀ e ∈ excl, e ≠ "Time(s)".toList) →
      ∃ ls, (plotLogs (fun a b => .ok (m a b)) files specs (logs.map Prod.fst) excl c).1 = .ok ls ∧
        ∀ x y name, (⟨x, y, name⟩ : PlotLine V) ∈ ls ↔ (∃ s ∈ specs, Hit m s name) ∧ name ∉ excl ∧
          ∃ before l after, logs = before ++ l :: after ∧ (name, y) ∈ l.2.1 ∧ x = l.2.2 ∧
            ∀ b ∈ before, name ∉ b.2.1.map Prod.fst := by
    intro logs
    induction logs with
    | nil =>
      intro excl c _ _ _ _
      exact ⟨[], rfl, fun x y name => by simp⟩
    | cons l logs ih =>
      intro excl c hw hf hl he
      obtain ⟨h1, h2⟩ := hl l (by simp)
      have hline := plot_log_partial h1 h2 hw hf hs (fun hc => he _ hc rfl)
      obtain ⟨hw', hf'⟩ := tryPlotting_cache (rx := fun a b => .ok (m a b)) (path := l.1) hw hf specs excl
      rcases htp : tryPlotting (fun a b => .ok (m a b)) files l.1 specs excl c with ⟨r, c'⟩
      rw [htp] at hline hw' hf'
      simp only at hline hw' hf'
      subst hline
      set mine := (specs.flatMap fun s => l.2.1.filter fun c => decide (Hit m s c.1 ∧ c.1 ∉ excl)).map
        (fun c => (⟨l.2.2, c.2, c.1⟩ : PlotLine V)) with hmine
      have hin : ∀ x y name, (⟨x, y, name⟩ : PlotLine V) ∈ mine ↔
          (∃ s ∈ specs, Hit m s name) ∧ name ∉ excl ∧ (name, y) ∈ l.2.1 ∧ x = l.2.2 := by
        intro x y name
        rw [hmine, List.mem_map]
        constructor
        · rintro ⟨⟨n, d⟩, hd, heq⟩
          rw [List.mem_flatMap] at hd
          obtain ⟨s, hs1, hd⟩ := hd
          rw [List.mem_filter] at hd
          have := of_decide_eq_true hd.2
          cases heq
          exact ⟨⟨s, hs1, this.1⟩, this.2, hd.1, rfl⟩
        · rintro ⟨⟨s, hs1, hh⟩, hne, hmem, rfl⟩
          refine ⟨(name, y), ?_, rfl⟩
          rw [List.mem_flatMap]
          exact ⟨s, hs1, List.mem_filter.2 ⟨hmem, decide_eq_true ⟨hh, hne⟩⟩⟩
      have hlab : ∀ name, name ∈ mine.map PlotLine.label ↔
          (∃ s ∈ specs, Hit m s name) ∧ name ∉ excl ∧ name ∈ l.2.1.map Prod.fst := by
        intro name
        rw [List.mem_map]
        constructor
        · rintro ⟨⟨x, y, n⟩, hm, rfl⟩
          obtain ⟨a, b, c, _⟩ := (hin x y n).1 hm
          exact ⟨a, b, List.mem_map_of_mem c⟩
        · rintro ⟨a, b, c⟩
          obtain ⟨⟨n, y⟩, hmem, rfl⟩ := List.mem_map.1 c
          exact ⟨⟨l.2.2, y, n⟩, (hin _ _ _).2 ⟨a, b, hmem, rfl⟩, rfl⟩
      obtain ⟨rest, hr, hrest⟩ := ih (excl ++ mine.map PlotLine.label) c' hw' hf' (fun l' h' => hl l' (by simp [h']))
        (by
          intro e' hm
          rcases List.mem_append.1 hm with h | h
          · exact he _ h
          · obtain ⟨⟨s, hs1, hh⟩, _, _⟩ := (hlab e').1 h
            rintro rfl
            exact hs s hs1 hh)
      refine ⟨mine ++ rest, ?_, ?_⟩
      · rw [List.map_cons]
        unfold plotLogs
        rw [htp]
        dsimp only
        rcases hpl : plotLogs (fun a b => .ok (m a b)) files specs (logs.map Prod.fst) (excl ++ mine.map PlotLine.label) c' with ⟨r2, c2⟩
        rw [hpl] at hr
        simp only at hr
        subst hr
        rfl
      · intro x y name
        rw [List.mem_append, hin, hrest, List.mem_append, hlab]
        constructor
        · rintro (⟨a, b, c, d⟩ | ⟨a, b, before, l', after, e1, e2, e3, e4⟩)
          · exact ⟨a, b, [], l, logs, rfl, c, d, by simp⟩
          · refine ⟨a, fun hc => b (.inl hc), l :: before, l', after, by rw [e1]; rfl, e2, e3, ?_⟩
            intro bb hbb
            rcases List.mem_cons.1 hbb with rfl | hbb
            · intro hc
              exact b (.inr ⟨a, fun hx => b (.inl hx), hc⟩)
            · exact e4 bb hbb
        · rintro ⟨a, b, before, l', after, e1, e2, e3, e4⟩
          cases before with
          | nil =>
            simp only [List.nil_append, List.cons.injEq] at e1
            obtain ⟨rfl, rfl⟩ := e1
            exact .inl ⟨a, b, e2, e3⟩
          | cons bb before =>
            simp only [List.cons_append, List.cons.injEq] at e1
            obtain ⟨rfl, rfl⟩ := e1
            refine .inr ⟨a, ?_, before, l', after, rfl, e2, e3, fun b' hb' => e4 b' (by simp [hb'])⟩
            rintro (hc | ⟨_, _, hc⟩)
            · exact b hc
            · exact e4 l (by simp) hc
  obtain ⟨ls, h1, h2⟩ := gen logs [] [] Dict.WF_nil ⟨by simp, by simp⟩ hfile (by simp)
  exact ⟨ls, h1, fun x y name => by rw [h2]; simp⟩

/-- **C77.** With one specification no name is drawn twice. -/
theorem plot_once {m : Str → Str → Bool} {files : Files V} (logs : List (Str × Sheet V × List V))
    (hfile : ∀ l ∈ logs, files l.1 = .ok l.2.1 ∧ LogSheet m l.2.1 l.2.2) {s : Str}
    (hs : ¬ Hit m s "Time(s)".toList) {ls : List (PlotLine V)}
    (h : (plotLogs (fun a b => .ok (m a b)) files [s] (logs.map Prod.fst) [] []).1 = .ok ls) :
    (ls.map PlotLine.label).Nodup := by
  have hs' : ∀ s' ∈ [s], ¬ Hit m s' "Time(s)".toList := by simpa using hs
  have gen : ∀ (logs : List (Str × Sheet V × List V)) (excl : List Str) (c : SheetCache V) (ls : List (PlotLine V)), Dict.WF c →
      Fresh files c →
      (∀ l ∈ logs, files l.1 = .ok l.2.1 ∧ LogSheet m l.2.1 l.2.2) → (∀ e ∈ excl, e ≠ "Time(s)".toList) →
      (plotLogs (fun a b => .ok (m a b)) files [s] (logs.map Prod.fst) excl c).1 = .ok ls →
      (ls.map PlotLine.label).Nodup ∧ ∀ n ∈ ls.map PlotLine.label, n ∉ excl := by
    intro logs
    induction logs with
    | nil =>
      intro excl c ls _ _ _ _ h
      simp only [List.map_nil, plotLogs, Except.ok.injEq] at h
      subst h
      simp
    | cons l logs ih =>
      intro excl c ls hw hf hl he h
      obtain ⟨h1, h2⟩ := hl l (by simp)
      have hline := plot_log_partial h1 h2 hw hf hs' (fun hc => he _ hc rfl)
      obtain ⟨hw', hf'⟩ := tryPlotting_cache (rx := fun a b => .ok (m a b)) (path := l.1) hw hf [s] excl
      rcases htp : tryPlotting (fun a b => .ok (m a b)) files l.1 [s] excl c with ⟨r, c'⟩
      rw [htp] at hline hw' hf'
      simp only [List.flatMap_cons, List.flatMap_nil, List.append_nil] at hline hw' hf'
      subst hline
      set mine := (l.2.1.filter fun c => decide (Hit m s c.1 ∧ c.1 ∉ excl)).map
        (fun c => (⟨l.2.2, c.2, c.1⟩ : PlotLine V)) with hmine
      have hmap : mine.map PlotLine.label = (l.2.1.filter fun c => decide (Hit m s c.1 ∧ c.1 ∉ excl)).map Prod.fst := by
        rw [hmine, List.map_map]; rfl
      have hmem : ∀ n ∈ mine.map PlotLine.label, n ∉ excl ∧ Hit m s n := by
        intro n hn
        rw [hmap] at hn
        obtain ⟨d, hd, rfl⟩ := List.mem_map.1 hn
        have := of_decide_eq_true (List.mem_filter.1 hd).2
        exact ⟨this.2, this.1⟩
      rw [List.map_cons] at h
      unfold plotLogs at h
      rw [htp] at h
      dsimp only at h
      rcases hpl : plotLogs (fun a b => .ok (m a b)) files [s] (logs.map Prod.fst) (excl ++ mine.map PlotLine.label) c' with ⟨r2, c2⟩
      rw [hpl] at h
      cases r2 with
      | error e => cases h
      | ok rest =>
        simp only [Except.ok.injEq] at h
        subst h
        obtain ⟨i1, i2⟩ := ih (excl ++ mine.map PlotLine.label) c' rest hw' hf' (fun l' h' => hl l' (by simp [h']))
          (by
            intro e' hm
            rcases List.mem_append.1 hm with h | h
            · exact he _ h
            · rintro rfl
              exact hs (hmem _ h).2)
          (by rw [hpl])
        rw [List.map_append]
        constructor
        · rw [List.nodup_append]
          refine ⟨?_, i1, ?_⟩
          · rw [hmap]
            exact h2.nodup.sublist (List.Sublist.map _ List.filter_sublist)
          · rintro a ha b hb rfl
            exact i2 a hb (List.mem_append_right _ ha)
        · intro n hn
          rcases List.mem_append.1 hn with h | h
          · exact (hmem n h).1
          · exact fun hc => i2 n h (List.mem_append_left _ hc)
  exact (gen logs [] [] ls Dict.WF_nil ⟨by simp, by simp⟩ hfile (by simp) h).1

/-- The specifications in a plot definition: `Velocity` stands for the three components of the velocity, otherwise the parts
between `&`. -/
theorem plotSpecs_spec : 
    plotSpecs "Velocity".toList = ["VelocityX(m/s)".toList, "VelocityY(m/s)".toList, "VelocityZ(m/s)".toList] ∧
    (∀ d : Str, d ≠ "Velocity".toList → '&' ∉ d → plotSpecs d = [d]) ∧
    ∀ parts : List Str, 2 ≤ parts.length → (∀ p ∈ parts, '&' ∉ p) → plotSpecs (Str.join ['&'] parts) = parts := by
  refine ⟨by decide +kernel, ?_, ?_⟩
  · intro d h1 h2
    unfold plotSpecs
    rw [if_neg h1, if_neg h2]
  · intro parts h1 h2
    have hamp : '&' ∈ Str.join ['&'] parts := by
      match parts, h1 with
      | a :: b :: t, _ => simp [Str.join]
    unfold plotSpecs
    rw [if_neg, if_pos hamp, Str.splitC_join '&' (by rintro rfl; simp at h1) h2]
    intro hc
    rw [hc] at hamp
    exact absurd hamp (by decide +kernel)

/-- a log with two columns of data -/
def sampleSheet : Sheet ℕ :=
  [("Time(s)".toList, [0, 1]), ("PositionZ(m)".toList, [5, 7]), ("VelocityZ(m/s)".toList, [2, 2])]
/-- another one -/
def sampleSheet2 : Sheet ℕ := [("Time(s)".toList, [0, 1]), ("PositionZ(m)".toList, [5, 7]), ("AeroFZ(N)".toList, [3, 4])]

/-- Both are as the program writes them. -/
example : LogSheet (fun _ _ => false) sampleSheet [0, 1] ∧ LogSheet (fun _ _ => false) sampleSheet2 [0, 1] ∧
    ¬ Hit (fun _ _ => false) "Position".toList "Time(s)".toList := by
  refine ⟨⟨by decide +kernel, by decide +kernel, by decide +kernel⟩,
    ⟨by decide +kernel, by decide +kernel, by decide +kernel⟩, by decide +kernel⟩

/-- **C77, violated.** When a part of the definition hits the column of times, this column is drawn as a line, and excluded from
the following logs, which cannot be drawn then: `UnboundLocalError`. -/
theorem time_violated :
    (plotFromLogFiles (fun _ _ => .ok false)
      (fun p => if p = "a.csv".toList then .ok sampleSheet else .ok sampleSheet2) ["a.csv".toList, "b.csv".toList]
      "Time&AeroF".toList []).1 = .error .runtimeError := by
  decide +kernel

/-- **C77, violated.** A column hit by two parts of the definition is drawn twice. -/
theorem twice_violated :
    (plotFromLogFiles (fun _ _ => .ok false) (fun _ => .ok sampleSheet) ["a.csv".toList] "Position&PositionZ".toList []).1 =
      .ok [⟨[0, 1], [5, 7], "PositionZ(m)".toList⟩, ⟨[0, 1], [5, 7], "PositionZ(m)".toList⟩] := by
  decide +kernel

/-! ## Text logs -/

section text
variable {K : Type} [Field K] [LinearOrder K] [IsStrictOrderedRing K]

/-- The line is a row of the table for the given time. -/
def RowFor (time : Str → Except PyErr K) (l : Str) (x : K) : Prop :=
  ∃ t ts, Str.wsSplit l = t :: ts ∧ time t = .ok x

theorem dropRow_skip {time : Str → Except PyErr K} : ∀ (rows : List (Str × K)) (more : List Str) (row : Nat) (last : K),
    (∀ r ∈ rows, RowFor time r.1 r.2) → List.IsChain (fun a b => a - b ≤ 5) (last :: rows.map Prod.snd) →
    dropRow time row last (rows.map Prod.fst ++ more) =
      dropRow time (row + rows.length) ((last :: rows.map Prod.snd).getLast (by simp)) more := by
  intro rows
  induction rows with
  | nil => intro more row last _ _; rfl
  | cons r rows ih =>
    intro more row last hr hc
    obtain ⟨t, ts, h1, h2⟩ := hr r (by simp)
    rw [List.map_cons, List.isChain_cons_cons] at hc
    rw [List.map_cons, List.cons_append]
    unfold dropRow
    rw [h1]
    dsimp only
    rw [h2]
    show (if last - r.2 > 5 then _ else _) = _
    rw [if_neg (not_lt.2 hc.1), ih more (row + 1) r.2 (fun q hq => hr q (by simp [hq])) hc.2]
    simp only [List.length_cons, List.map_cons]
    rw [List.getLast_cons (a := last) (List.cons_ne_nil _ _), show row + 1 + rows.length = row + (rows.length + 1) by omega]
    conv_lhs => unfold dropRow

/-- A log of one flight is read completely. -/
theorem force_rows_one {time : Str → Except PyErr K} (header : Str) (rows : List (Str × K)) (hne : rows ≠ [])
    (hr : ∀ r ∈ rows, RowFor time r.1 r.2) (hc : List.IsChain (fun a b => a - b ≤ 5) (rows.map Prod.snd)) :
    forceFooter time (header :: rows.map Prod.fst) = .ok 0 := by
  obtain ⟨r, rows, rfl⟩ := List.exists_cons_of_ne_nil hne
  obtain ⟨t, ts, h1, h2⟩ := hr r (by simp)
  have hd := dropRow_skip rows [] 2 r.2 (fun q hq => hr q (by simp [hq])) hc
  rw [List.append_nil] at hd
  rw [List.map_cons]
  unfold forceFooter
  dsimp only
  rw [h1]
  dsimp only
  rw [h2]
  show (do let r ← dropRow time 2 r.2 (rows.map Prod.fst); _) = _
  rw [hd]
  rfl

/-- **C77, violated.** Only rows of the uppermost stage should be read, the rows of dropped stages start where time jumps back.
The last row before the jump is lost. -/
theorem force_rows_violated {time : Str → Except PyErr K} (header : Str) (good : List (Str × K)) (last : Str × K)
    (dropped : Str × K) (more : List Str)
    (hr : ∀ r ∈ good ++ [last, dropped], RowFor time r.1 r.2)
    (hc : List.IsChain (fun a b => a - b ≤ 5) ((good ++ [last]).map Prod.snd)) (hjump : last.2 - dropped.2 > 5) :
    ∃ k, forceFooter time (header :: (good ++ [last]).map Prod.fst ++ dropped.1 :: more) = .ok k ∧
      withoutFooter k (header :: (good ++ [last]).map Prod.fst ++ dropped.1 :: more) = header :: good.map Prod.fst := by
  obtain ⟨td, tds, d1, d2⟩ := hr dropped (by simp)
  have stop : ∀ row, dropRow time row last.2 (dropped.1 :: more) = .ok (some row) := by
    intro row
    unfold dropRow
    rw [d1]
    dsimp only
    rw [d2]
    show (if last.2 - dropped.2 > 5 then _ else _) = _
    rw [if_pos hjump]
  have key : forceFooter time (header :: (good ++ [last]).map Prod.fst ++ dropped.1 :: more) = .ok ((more.length : Int) + 2) := by
    cases good with
    | nil =>
      obtain ⟨t, ts, h1, h2⟩ := hr last (by simp)
      simp only [List.nil_append, List.map_cons, List.map_nil, List.cons_append]
      unfold forceFooter
      dsimp only
      rw [h1]
      dsimp only
      rw [h2]
      show (do let r ← dropRow time 2 last.2 (dropped.1 :: more); _) = _
      rw [stop]
      show Except.ok _ = _
      congr 1
      simp only [List.length_cons]
      push_cast
      ring
    | cons g good =>
      obtain ⟨t, ts, h1, h2⟩ := hr g (by simp)
      have hd := dropRow_skip (good ++ [last]) (dropped.1 :: more) 2 g.2 (fun q hq => hr q (by
        rcases List.mem_append.1 hq with h | h
        · simp [h]
        · simp only [List.mem_singleton] at h; simp [h])) (by simpa using hc)
      have hlast : (g.2 :: (good ++ [last]).map Prod.snd).getLast (by simp) = last.2 := by
        simp
      rw [hlast, stop] at hd
      simp only [List.cons_append, List.map_cons]
      unfold forceFooter
      dsimp only
      rw [h1]
      dsimp only
      rw [h2]
      show (do let r ← dropRow time 2 g.2 _; _) = _
      rw [hd]
      show Except.ok _ = _
      congr 1
      simp only [List.length_cons, List.length_append, List.length_map, List.length_nil]
      push_cast
      ring
  refine ⟨_, key, ?_⟩
  unfold withoutFooter
  have : (header :: (good ++ [last]).map Prod.fst ++ dropped.1 :: more).length - ((more.length : Int) + 2).toNat =
      (header :: good.map Prod.fst).length := by
    simp only [List.length_cons, List.length_append, List.length_map, List.length_nil]
    omega
  rw [this, List.map_append, ← List.cons_append, List.append_assoc, List.take_left']
  rfl

end text

/-- Rows at times 0, 3 and then 0 again would not be a jump; from 8 to 0 is one. -/
example : RowFor (fun s => if s = "8".toList then .ok (8 : ℚ) else .ok 0) "8 1.5 2".toList 8 ∧
    List.IsChain (fun a b : ℚ => a - b ≤ 5) [0, 8] ∧ (8 : ℚ) - 0 > 5 := by
  refine ⟨⟨"8".toList, ["1.5".toList, "2".toList], by decide +kernel, by decide +kernel⟩, by decide +kernel, by norm_num⟩

end Mapleaf.LogM
