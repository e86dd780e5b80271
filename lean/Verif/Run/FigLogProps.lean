import Verif.Run.FigureProps
import Mathlib.Algebra.Order.Field.Rat
import Mathlib.Tactic.NormNum

/-! # C88: the figures of a batch run - the curves of the simulation results -/

namespace Mapleaf.Run.Fig
open Mapleaf Mapleaf.Str Mapleaf.LogM Mapleaf.Path
open Mapleaf.Rocket (Reader)

variable {K : Type}

/-- the columns of a log that the specifications hit, without the excluded ones -/
def hits (m : Str → Str → Bool) (specs excl : List Str) (df : Sheet K) : Sheet K :=
  specs.flatMap fun sp => df.filter fun c => decide (Hit m sp c.1 ∧ c.1 ∉ excl)

theorem mem_hits (m : Str → Str → Bool) (specs excl : List Str) (df : Sheet K) (c : Str × List K) :
    c ∈ hits m specs excl df ↔ c ∈ df ∧ c.1 ∉ excl ∧ ∃ sp ∈ specs, Hit m sp c.1 := by
  unfold hits
  simp only [List.mem_flatMap, List.mem_filter, decide_eq_true_eq]
  constructor
  · rintro ⟨sp, h1, h2, h3, h4⟩; exact ⟨h2, h4, sp, h1, h3⟩
  · rintro ⟨h2, h4, sp, h1, h3⟩; exact ⟨sp, h1, h2, h3, h4⟩

theorem hits_sublist (m : Str → Str → Bool) (specs excl : List Str) (df : Sheet K) :
    (hits m specs excl df).Sublist (hits m specs [] df) := by
  unfold hits
  induction specs with
  | nil => simp
  | cons sp specs ih =>
    rw [List.flatMap_cons, List.flatMap_cons]
    refine List.Sublist.append ?_ ih
    have : df.filter (fun c => decide (Hit m sp c.1 ∧ c.1 ∉ excl)) =
        (df.filter fun c => decide (Hit m sp c.1 ∧ c.1 ∉ ([] : List Str))).filter fun c => decide (c.1 ∉ excl) := by
      rw [List.filter_filter]
      congr 1
      funext c
      by_cases h1 : Hit m sp c.1 <;> by_cases h2 : c.1 ∉ excl <;> simp [h1, h2]
    rw [this]
    exact List.filter_sublist

theorem stepLog_ok_iff [Mul K] [Add K] [OfNat K 3] (m : Str → Str → Bool) (sheet : Files K) (s : Settings K) (acc acc' : Acc K) (path : Str) :
    stepLog (fun a b => .ok (m a b)) sheet s acc path = .ok acc' ↔ ∃ df, sheet path = .ok df ∧
      ((hits m s.specs acc.names df).length ≤ 1 ∧ acc' = acc ∨ 1 < (hits m s.specs acc.names df).length ∧ ∃ d,
        plotData (hits m s.specs acc.names df) s.x (fun _ => ⟨s.formats, s.colors, s.labels, 3⟩) s.scale s.offset s.fitX = .ok d ∧
        acc' = ⟨acc.names ++ (d.cols.filter fun c => c.1 ≠ s.x).map Prod.fst, acc.X ++ d.cols.map (fun _ => d.x),
          acc.Y ++ (d.cols.filter fun c => c.1 ≠ s.x).map Prod.snd, acc.marks ++ d.marks, d.fit.or acc.lim⟩) := by
  unfold stepLog
  simp only [bind, Except.bind]
  cases hs : sheet path with
  | error e => simp
  | ok df =>
    dsimp only
    rw [pick_spec]
    dsimp only
    rw [show (s.specs.flatMap fun sp => df.filter fun c => decide (Hit m sp c.1 ∧ c.1 ∉ acc.names)) = hits m s.specs acc.names df from rfl]
    by_cases hl : 1 < (hits m s.specs acc.names df).length
    · rw [if_pos hl]
      cases hd : plotData (hits m s.specs acc.names df) s.x (fun _ => ⟨s.formats, s.colors, s.labels, 3⟩) s.scale s.offset s.fitX with
      | error e =>
        simp only [reduceCtorEq, false_iff]
        rintro ⟨df', h1, h2⟩
        injection h1 with h1
        subst h1
        rcases h2 with ⟨h2, _⟩ | ⟨_, d, h2, _⟩
        · omega
        · rw [hd] at h2; exact nomatch h2
      | ok d =>
        dsimp only
        constructor
        · intro h
          refine ⟨df, rfl, Or.inr ⟨hl, d, hd, ?_⟩⟩
          injection h with h
          subst h
          cases d.fit <;> rfl
        · rintro ⟨df', h1, h2⟩
          injection h1 with h1
          subst h1
          rcases h2 with ⟨h2, _⟩ | ⟨_, d', h2, rfl⟩
          · omega
          · rw [hd] at h2; injection h2 with h2; subst h2; cases d.fit <;> rfl
    · rw [if_neg hl]
      constructor
      · intro h
        injection h with h
        exact ⟨df, rfl, Or.inl ⟨not_lt.1 hl, h.symm⟩⟩
      · rintro ⟨df', h1, h2⟩
        injection h1 with h1
        subst h1
        rcases h2 with ⟨_, rfl⟩ | ⟨h2, _⟩
        · rfl
        · exact absurd h2 hl

/-- a curve in the figure: name of the column, its data, and the mark -/
structure Curve (K : Type) where
  name : Str
  x : List K
  y : List K
  mark : Mark K

/-- In a log every column that the specifications hit is hit once, and there is a column for `x`. -/
structure LogOk (m : Str → Str → Bool) (s : Settings K) (df : Sheet K) : Prop where
  once : ((hits m s.specs [] df).map Prod.fst).Nodup
  hasX : s.x ∈ df.map Prod.fst

/-- The curve shows a column of one of the logs that was asked for, scaled and shifted, over that log's column for `x`; its mark has the style of
the column's number among those taken from the log. -/
def Shows [Mul K] [Add K] [OfNat K 3] (m : Str → Str → Bool) (sheet : Files K) (s : Settings K) (logs : List Str) (c : Curve K) : Prop :=
  ∃ p ∈ logs, ∃ df, sheet p = .ok df ∧ (s.x, c.x) ∈ df ∧ c.name ≠ s.x ∧ (∃ sp ∈ s.specs, Hit m sp c.name) ∧
    (∃ raw, (c.name, raw) ∈ df ∧ c.y = raw.map fun v => s.scale * v + s.offset) ∧
    ∃ i, IsMark ⟨s.formats, s.colors, s.labels, 3⟩ c.x i c.y c.mark

/-- what has been drawn after the logs `done` -/
structure Inv [Mul K] [Add K] [OfNat K 3] (m : Str → Str → Bool) (sheet : Files K) (s : Settings K) (done : List Str) (acc : Acc K)
    (L : List (Curve K)) : Prop where
  names : acc.names = L.map Curve.name
  X : acc.X = L.map Curve.x
  Y : acc.Y = L.map Curve.y
  marks : acc.marks = L.map Curve.mark
  nodup : (L.map Curve.name).Nodup
  sound : ∀ c ∈ L, Shows m sheet s done c
  complete : ∀ p df n, p ∈ done → sheet p = .ok df → n ∈ df.map Prod.fst → n ≠ s.x → (∃ sp ∈ s.specs, Hit m sp n) →
    n ∈ L.map Curve.name
  lim : s.fitX = false → acc.lim = s.xLim

theorem Shows.mono [Mul K] [Add K] [OfNat K 3] {m : Str → Str → Bool} {sheet : Files K} {s : Settings K} {l l' : List Str} {c : Curve K}
    (h : Shows m sheet s l c) (hl : ∀ p ∈ l, p ∈ l') : Shows m sheet s l' c := by
  obtain ⟨p, hp, h⟩ := h
  exact ⟨p, hl p hp, h⟩

theorem inv_step [Mul K] [Add K] [OfNat K 3] {m : Str → Str → Bool} {sheet : Files K} {s : Settings K} {done : List Str} {acc acc' : Acc K}
    {L : List (Curve K)} (hx : s.x ∈ s.specs) (hi : Inv m sheet s done acc L) (path : Str) (df : Sheet K) (hdf : sheet path = .ok df)
    (hok : LogOk m s df) (h : stepLog (fun a b => .ok (m a b)) sheet s acc path = .ok acc') :
    ∃ L', Inv m sheet s (done ++ [path]) acc' L' := by
  obtain ⟨df', h1, h⟩ := (stepLog_ok_iff m sheet s acc acc' path).1 h
  rw [hdf] at h1
  injection h1 with h1
  subst h1
  have hxn : s.x ∉ acc.names := by
    rw [hi.names, List.mem_map]
    rintro ⟨c, hc, hcx⟩
    obtain ⟨_, _, _, _, _, hne, _⟩ := hi.sound c hc
    exact hne hcx
  have hself : Hit m s.x s.x := Or.inl (List.infix_refl _)
  -- the column for x is among the hits, once
  obtain ⟨cx, hcx, hcx1⟩ := List.mem_map.1 hok.hasX
  have hmemx : cx ∈ hits m s.specs acc.names df := by
    rw [mem_hits]
    exact ⟨hcx, by rw [hcx1]; exact hxn, s.x, hx, by rw [hcx1]; exact hself⟩
  have hnd : ((hits m s.specs acc.names df).map Prod.fst).Nodup := ((hits_sublist m s.specs acc.names df).map _).nodup hok.once
  have hmono : ∀ c ∈ L, Shows m sheet s (done ++ [path]) c := fun c hc => (hi.sound c hc).mono fun p hp => List.mem_append_left _ hp
  rcases h with ⟨hlen, hacc⟩ | ⟨hlen, d, hd, rfl⟩
  · -- nothing new
    subst acc'
    refine ⟨L, hi.names, hi.X, hi.Y, hi.marks, hi.nodup, hmono, ?_, hi.lim⟩
    intro p df' n hp hs hn hnx hsp
    rcases List.mem_append.1 hp with hp | hp
    · exact hi.complete p df' n hp hs hn hnx hsp
    · rw [List.mem_singleton] at hp
      subst hp
      rw [hdf] at hs
      injection hs with hs
      subst hs
      rw [← hi.names]
      by_contra hnot
      obtain ⟨c, hc, rfl⟩ := List.mem_map.1 hn
      have hcm : c ∈ hits m s.specs acc.names df := (mem_hits ..).2 ⟨hc, hnot, hsp⟩
      have : cx = c := by
        cases hh : hits m s.specs acc.names df with
        | nil => rw [hh] at hcm; simp at hcm
        | cons e t =>
          rw [hh] at hcm hmemx hlen
          have ht : t = [] := by
            rw [List.length_cons] at hlen
            exact List.length_eq_zero_iff.1 (by omega)
          subst ht
          rw [List.mem_singleton] at hcm hmemx
          rw [hcm, hmemx]
      rw [← this] at hnx
      exact hnx hcx1
  · -- drawn
    rcases popX_cases s.x (hits m s.specs acc.names df) with hno | ⟨a, xs, b, hab, ha⟩
    · exact absurd hcx1 (hno cx hmemx)
    · have hb : ∀ c ∈ b, c.1 ≠ s.x := by
        rw [hab, List.map_append, List.map_cons] at hnd
        have h2 := (List.nodup_append.1 hnd).2.1
        rw [List.nodup_cons] at h2
        intro c hc he
        exact h2.1 (List.mem_map.2 ⟨c, hc, he⟩)
      rw [hab] at hd
      obtain ⟨e1, e2, e3, e4, e5⟩ := (plotData_ok_iff a b s.x xs ha _ s.scale s.offset s.fitX d).1 hd
      have hfil : d.cols.filter (fun c => decide (c.1 ≠ s.x)) = d.cols := by
        rw [List.filter_eq_self]
        intro c hc
        rw [e2, List.mem_map] at hc
        obtain ⟨c', hc', rfl⟩ := hc
        rcases List.mem_append.1 hc' with h | h
        · simpa using ha c' h
        · simpa using hb c' h
      have hsub : ∀ c ∈ a ++ b, c ∈ hits m s.specs acc.names df := by
        intro c hc
        rw [hab]
        rcases List.mem_append.1 hc with h | h
        · exact List.mem_append_left _ h
        · exact List.mem_append_right _ (List.mem_cons_of_mem _ h)
      have hxs : (s.x, xs) ∈ df := ((mem_hits m s.specs acc.names df (s.x, xs)).1 (by
        rw [hab]; exact List.mem_append_right _ List.mem_cons_self)).1
      have hndab : ((a ++ b).map Prod.fst).Nodup := by
        rw [hab] at hnd
        refine List.Sublist.nodup ?_ hnd
        refine List.Sublist.map _ ?_
        exact List.Sublist.append (List.Sublist.refl _) (List.sublist_cons_self _ _)
      -- the new curves
      let N : List (Curve K) := List.zipWith (fun (c : Str × List K) (mk : Mark K) =>
        ⟨c.1, xs, c.2.map fun v => s.scale * v + s.offset, mk⟩) (a ++ b) d.marks
      have hNlen : N.length = (a ++ b).length := by simp [N, e4]
      have hNmap : ∀ {β : Type} (f : Curve K → β) (g : (Str × List K) → β), (∀ c mk, f ⟨c.1, xs, c.2.map fun v => s.scale * v + s.offset, mk⟩ = g c) →
          N.map f = (a ++ b).map g := by
        intro β f g hfg
        apply List.ext_getElem
        · simp [hNlen]
        · intro i h1 h2
          simp only [List.getElem_map, N, List.getElem_zipWith]
          exact hfg _ _
      have hNname : N.map Curve.name = (a ++ b).map Prod.fst := hNmap _ _ (fun _ _ => rfl)
      have hNx : N.map Curve.x = (a ++ b).map (fun _ => xs) := hNmap _ _ (fun _ _ => rfl)
      have hNy : N.map Curve.y = (a ++ b).map (fun c => c.2.map fun v => s.scale * v + s.offset) := hNmap _ _ (fun _ _ => rfl)
      have hNmark : N.map Curve.mark = d.marks := by
        apply List.ext_getElem
        · simp [hNlen, e4]
        · intro i h1 h2
          simp [N]
      refine ⟨L ++ N, ?_, ?_, ?_, ?_, ?_, ?_, ?_, ?_⟩
      · dsimp only
        rw [List.map_append (l₁ := L), hNname, ← hi.names, hfil, e2, List.map_map]; rfl
      · dsimp only
        rw [List.map_append (l₁ := L), hNx, ← hi.X, e2, e1, List.map_map]; rfl
      · dsimp only
        rw [List.map_append (l₁ := L), hNy, ← hi.Y, hfil, e2, List.map_map]; rfl
      · dsimp only
        rw [List.map_append, hNmark, hi.marks]
      · rw [List.map_append, hNname, List.nodup_append]
        refine ⟨hi.nodup, hndab, ?_⟩
        intro n hn n' hn' he
        subst he
        obtain ⟨c, hc, rfl⟩ := List.mem_map.1 hn'
        have := ((mem_hits ..).1 (hsub c hc)).2.1
        rw [hi.names] at this
        exact this hn
      · intro c hc
        rcases List.mem_append.1 hc with hc | hc
        · exact hmono c hc
        · obtain ⟨i, hi1, rfl⟩ := List.getElem_of_mem hc
          have h1 : i < (a ++ b).length := by rw [← hNlen]; exact hi1
          have h2 : i < d.marks.length := by rw [e4]; exact h1
          have hNi : N[i] = ⟨(a ++ b)[i].1, xs, (a ++ b)[i].2.map fun v => s.scale * v + s.offset, d.marks[i]⟩ := by
            simp only [N, List.getElem_zipWith]
          rw [hNi]
          have hmem : (a ++ b)[i] ∈ a ++ b := List.getElem_mem h1
          obtain ⟨g1, g2, g3⟩ := (mem_hits ..).1 (hsub _ hmem)
          refine ⟨path, by simp, df, hdf, hxs, ?_, g3, ⟨(a ++ b)[i].2, g1, rfl⟩, i, ?_⟩
          · rcases List.mem_append.1 hmem with h | h
            · exact ha _ h
            · exact hb _ h
          · exact e5 i _ _ (List.getElem?_eq_getElem h1) (List.getElem?_eq_getElem h2)
      · intro p df' n hp hs hn hnx hsp
        rw [List.map_append]
        rcases List.mem_append.1 hp with hp | hp
        · exact List.mem_append_left _ (hi.complete p df' n hp hs hn hnx hsp)
        · rw [List.mem_singleton] at hp
          subst hp
          rw [hdf] at hs
          injection hs with hs
          subst hs
          by_cases hin : n ∈ acc.names
          · rw [hi.names] at hin; exact List.mem_append_left _ hin
          · refine List.mem_append_right _ ?_
            rw [hNname]
            obtain ⟨c, hc, rfl⟩ := List.mem_map.1 hn
            have hcm : c ∈ hits m s.specs acc.names df := (mem_hits ..).2 ⟨hc, hin, hsp⟩
            rw [hab] at hcm
            refine List.mem_map_of_mem ?_
            rcases List.mem_append.1 hcm with h | h
            · exact List.mem_append_left _ h
            · rcases List.mem_cons.1 h with rfl | h
              · exact absurd rfl hnx
              · exact List.mem_append_right _ h
      · intro hf
        dsimp only
        rw [hf] at e3
        simp only [Bool.false_eq_true, if_false] at e3
        rw [e3]
        exact hi.lim hf

/-- **C88 (partial).** What a finished figure shows of the simulation results: the columns asked for and found in the logs, each once, scaled
and shifted, over the column for `x` of the same log; limits asked for are kept. Missing: specifications that hit the same column twice
(`twice_violated`), logs without the column for `x` (`missing_x_violated`), whether the figure is finished (`many_columns_violated`), and which
label belongs to which curve (`second_log_violated`). -/
theorem curves_partial [Mul K] [Add K] [OfNat K 3] (m : Str → Str → Bool) (sheet : Files K) (s : Settings K) (hx : s.x ∈ s.specs)
    (logs : List Str) (hlogs : ∀ p ∈ logs, ∃ df, sheet p = .ok df ∧ LogOk m s df) (acc : Acc K)
    (h : plotLogs (fun a b => .ok (m a b)) sheet s logs = .ok acc) :
    ∃ L : List (Curve K), acc.names = L.map Curve.name ∧ acc.X = L.map Curve.x ∧ acc.Y = L.map Curve.y ∧ acc.marks = L.map Curve.mark ∧
      (L.map Curve.name).Nodup ∧ (∀ c ∈ L, Shows m sheet s logs c) ∧
      (∀ p df n, p ∈ logs → sheet p = .ok df → n ∈ df.map Prod.fst → n ≠ s.x → (∃ sp ∈ s.specs, Hit m sp n) → n ∈ L.map Curve.name) ∧
      (s.fitX = false → acc.lim = s.xLim) := by
  have key : ∀ (todo done : List Str) (acc0 : Acc K) (L : List (Curve K)), Inv m sheet s done acc0 L →
      (∀ p ∈ todo, ∃ df, sheet p = .ok df ∧ LogOk m s df) →
      todo.foldlM (stepLog (fun a b => .ok (m a b)) sheet s) acc0 = .ok acc → ∃ L', Inv m sheet s (done ++ todo) acc L' := by
    intro todo
    induction todo with
    | nil =>
      intro done acc0 L hi _ h
      injection h with h
      subst h
      exact ⟨L, by rw [List.append_nil]; exact hi⟩
    | cons p todo ih =>
      intro done acc0 L hi hl h
      rw [List.foldlM_cons] at h
      simp only [bind, Except.bind] at h
      cases hs : stepLog (fun a b => .ok (m a b)) sheet s acc0 p with
      | error e => rw [hs] at h; exact nomatch h
      | ok acc1 =>
        rw [hs] at h
        obtain ⟨df, hdf, hok⟩ := hl p List.mem_cons_self
        obtain ⟨L1, hi1⟩ := inv_step hx hi p df hdf hok hs
        have := ih (done ++ [p]) acc1 L1 hi1 (fun q hq => hl q (List.mem_cons_of_mem _ hq)) h
        rwa [List.append_assoc] at this
  obtain ⟨L, hL⟩ := key logs [] ⟨[], [], [], [], s.xLim⟩ [] ⟨rfl, rfl, rfl, rfl, by simp, by simp, by simp, fun _ => rfl⟩ hlogs h
  rw [List.nil_append] at hL
  exact ⟨L, hL.names, hL.X, hL.Y, hL.marks, hL.nodup, hL.sound, hL.complete, hL.lim⟩

/-- **C88** violated: more columns of one log than formats raise an `IndexError`, which ends the whole batch. There are as many formats as
specifications or those written, while one specification hits any number of columns. -/
theorem many_columns_violated [Mul K] [Add K] (a b : Sheet K) (x : Str) (xs : List K) (ha : ∀ c ∈ a, c.1 ≠ x) (st : List Str → Style K)
    (scale offset : K) (fit : Bool) (h2 : 1 < xs.length) (hf : (st ((a ++ b).map Prod.fst)).formats.length < (a ++ b).length) (d : Drawn K) :
    plotData (a ++ (x, xs) :: b) x st scale offset fit ≠ .ok d := by
  intro h
  obtain ⟨_, _, _, e4, e5⟩ := (plotData_ok_iff a b x xs ha st scale offset fit d).1 h
  have h3 : (st ((a ++ b).map Prod.fst)).formats.length < d.marks.length := by rw [e4]; exact hf
  have := e5 _ _ _ (List.getElem?_eq_getElem hf) (List.getElem?_eq_getElem h3)
  obtain ⟨_, _, _, _, _, _, h7, _⟩ := this
  obtain ⟨g1, g2⟩ := h7 h2
  rw [List.getElem?_eq_none (le_refl _)] at g2
  rw [← g2] at g1
  exact nomatch g1

example : plotData [("x".toList, [0, 1]), ("A1".toList, [2, 3]), ("A2".toList, [4, 5])] "x".toList (fun _ => ⟨["y--".toList], [], [none, none], 3⟩) 1 0
    true = .error .indexError ∧ 1 < ([0, 1] : List ℚ).length := by
  constructor <;> decide +kernel

/-! ## witnesses -/

/-- settings for columns `A` and `B` with labels `first` and `second` -/
def exSettings : Settings ℚ :=
  ⟨["A".toList, "B".toList, "Time(s)".toList], "Time(s)".toList, ["y--".toList, []], [], [some "first".toList, some "second".toList], 2, 1, none, true,
    none, true, "linear".toList, "linear".toList, "Time(s)".toList, "A".toList⟩

/-- two logs, one with column `A`, one with `B` -/
def exSheet : Files ℚ := fun p =>
  if p = "one".toList then .ok [("Time(s)".toList, [0, 1]), ("A".toList, [5, 6])]
  else if p = "two".toList then .ok [("Time(s)".toList, [0, 2]), ("B".toList, [7, 8])]
  else .error .fileNotFound

example : ∀ p ∈ ["one".toList, "two".toList], ∃ df, exSheet p = .ok df ∧ LogOk (fun _ _ => false) exSettings df := by
  intro p hp
  simp only [List.mem_cons, List.not_mem_nil, or_false] at hp
  rcases hp with rfl | rfl
  · exact ⟨[("Time(s)".toList, [0, 1]), ("A".toList, [5, 6])], rfl, by decide +kernel, by decide +kernel⟩
  · exact ⟨[("Time(s)".toList, [0, 2]), ("B".toList, [7, 8])], rfl, by decide +kernel, by decide +kernel⟩

/-- **C88** violated: labels and formats are counted anew in every log, so the curve of `B`, which is in the second log, is drawn with the
label and the format of `A`. -/
theorem second_log_violated :
    ((plotLogs (fun _ _ => .ok false) exSheet exSettings ["one".toList, "two".toList]).toOption.map fun acc => (acc.names, acc.Y)) =
      some (["A".toList, "B".toList], [[11, 13], [15, 17]]) ∧
    ((plotLogs (fun _ _ => .ok false) exSheet exSettings ["one".toList, "two".toList]).toOption.map fun acc => acc.marks.map fun k => k.label) =
      some [some "first".toList, some "first".toList] ∧
    ((plotLogs (fun _ _ => .ok false) exSheet exSettings ["one".toList, "two".toList]).toOption.map fun acc => acc.marks.map fun k => k.format) =
      some [some "y--".toList, some "y--".toList] := by
  refine ⟨?_, ?_, ?_⟩ <;> decide +kernel

/-- **C88** violated: a specification that also hits the column for `x` draws that column as a curve and leaves more `x` data than `y` data,
so that nothing can be validated. -/
theorem twice_violated :
    ((plotLogs (fun _ _ => .ok false) exSheet { exSettings with specs := ["A".toList, "T".toList, "Time(s)".toList] } ["one".toList]).toOption.map
      fun acc => (acc.names, acc.X.length, acc.Y.length, acc.marks.length)) = some (["A".toList], 2, 1, 2) := by decide +kernel

end Mapleaf.Run.Fig
