import Verif.Run.OptModel
import Verif.SimDef.StoreProps
import Mathlib.Tactic.Linarith
import Mathlib.Tactic.FieldSimp
import Mathlib.Tactic.Ring
import Mathlib.Data.List.Basic

/-!
# Optimisation: trial evaluation (C61), starting and restarting (C62), crashed trials (C63)
-/

namespace Mapleaf.Run.Opt
open Str SimDef

variable {K : Type}

/-! ## reading the variables -/

/-- **C61** `min < path < max` is read as written: three parts, white space around each dropped, the name being the
last segment of the entry's key.  Any other number of `<` signs is rejected. -/
theorem parseIndep_spec (num : Str → Except PyErr K) (key text : Str) (x : IndepVar K) :
    parseIndep num key text = .ok x ↔
      ∃ a b c, text = a ++ '<' :: b ++ '<' :: c ∧ '<' ∉ a ∧ '<' ∉ b ∧ '<' ∉ c ∧
        num (strip a) = .ok x.lo ∧ num (strip c) = .ok x.hi ∧ x.key = strip b ∧
        (∃ pre, key = pre ++ x.name ∧ '.' ∉ x.name ∧ (pre = [] ∨ ∃ q, pre = q ++ ['.'])) := by
  have hname : ∀ n : Str, n = (splitC '.' key).getLastD [] ↔
      ∃ pre, key = pre ++ n ∧ '.' ∉ n ∧ (pre = [] ∨ ∃ q, pre = q ++ ['.']) := by
    intro n
    have hne := splitC_ne_nil '.' key
    have hd : (splitC '.' key).getLastD [] = (splitC '.' key).getLast hne := by
      rw [List.getLastD_eq_getLast?, List.getLast?_eq_some_getLast hne]; rfl
    rw [hd]
    constructor
    · rintro rfl
      refine ⟨?_, ?_, splitC_no_sep _ (List.getLast_mem hne), ?_⟩
      · exact if (splitC '.' key).dropLast = [] then [] else join ['.'] (splitC '.' key).dropLast ++ ['.']
      · have hj := join_splitC '.' key
        have hdl := List.dropLast_append_getLast hne
        have aux : ∀ (l : List Str) (a : Str), join ['.'] (l ++ [a]) = (if l = [] then [] else join ['.'] l ++ ['.']) ++ a := by
          intro l a
          induction l with
          | nil => simp [join]
          | cons b t ih =>
            cases t with
            | nil => simp [join]
            | cons c t => simp only [List.cons_append, join] at ih ⊢; rw [ih]; simp
        rw [← aux, hdl, hj]
      · split_ifs with h
        · left; rfl
        · right; exact ⟨_, rfl⟩
    · rintro ⟨pre, hk, hn, hp⟩
      rcases hp with rfl | ⟨q, rfl⟩
      · have : splitC '.' key = [n] := by
          rw [hk]; exact splitP_no_sep (fun c hc => by simp; rintro rfl; exact hn hc)
        simp [this]
      · have h2 : splitC '.' key = splitC '.' q ++ [n] := by
          have := splitC_join '.' (l := splitC '.' q ++ [n]) (by simp) (by
            intro s hs
            rcases List.mem_append.1 hs with h | h
            · exact splitC_no_sep _ h
            · simp at h; exact h ▸ hn)
          rw [← this]
          congr 1
          have aux : ∀ (l : List Str) (a : Str), l ≠ [] → join ['.'] (l ++ [a]) = join ['.'] l ++ ['.'] ++ a := by
            intro l a
            induction l with
            | nil => simp
            | cons b t ih =>
              cases t with
              | nil => simp [join]
              | cons c t =>
                intro _
                have := ih (by simp)
                simp only [List.cons_append, join] at this ⊢; rw [this]; simp
          rw [aux _ _ (splitC_ne_nil _ _), join_splitC, hk]
        simp [h2]
  constructor
  · intro h
    unfold parseIndep at h
    split at h
    · rename_i a b c hs
      have hj := join_splitC '<' text
      have hm := splitC_no_sep (c := '<') (s := text)
      rw [hs] at hj hm
      cases hl : num (strip a) with
      | error e => simp [hl, bind, Except.bind] at h
      | ok lo =>
        cases hh : num (strip c) with
        | error e => simp [hl, hh, bind, Except.bind] at h
        | ok hi =>
          simp only [hl, hh, bind, Except.bind, Except.ok.injEq] at h
          subst h
          refine ⟨a, b, c, ?_, hm a (by simp), hm b (by simp), hm c (by simp), hl, hh, rfl, ?_⟩
          · rw [← hj]; simp [join]
          · exact (hname _).1 rfl
    · cases h
  · rintro ⟨a, b, c, ht, ha, hb, hc, hl, hh, hk, hn⟩
    have hs : splitC '<' text = [a, b, c] := by
      have := splitC_join '<' (l := [a, b, c]) (by simp) (by simp [ha, hb, hc])
      rw [← this, ht]; simp [join]
    unfold parseIndep
    rw [hs]
    simp only [hl, hh, bind, Except.bind]
    congr 1
    obtain ⟨k, n, lo, hi⟩ := x
    simp only at hk hn ⊢
    rw [← (hname n).2 hn, hk]

example : parseIndep (K := Nat) (fun t => .ok t.length) "Optimization.IndependentVariables.rad".toList
    " 12 < R.S.Fins.rootChord < 345".toList =
    .ok ⟨"R.S.Fins.rootChord".toList, "rad".toList, 2, 3⟩ := by decide +kernel

/-- **C61 fails** for a nested optimisation: its own cost function is read, and then replaced by the cost function
of the outer one. -/
theorem inner_cost_violated :
    costFunctionDef (newStore [("Optimization.costFunction".toList, "outer".toList),
      ("Optimization.InnerOptimization.costFunction".toList, "inner".toList)] [])
      "Optimization.InnerOptimization".toList = .ok "outer".toList ∧
    costFunctionDef (newStore [("Optimization.costFunction".toList, "outer".toList)] []) "Optimization".toList
      = .ok "outer".toList := by decide +kernel

/-! ## writing a trial point -/

theorem zip_fst_take {α β : Type} (l : List α) (r : List β) : (l.zip r).map Prod.fst = l.take r.length := by
  induction l generalizing r with
  | nil => simp
  | cons a l ih => cases r <;> simp [ih]

/-- The last value written to `k` by a list of writes, keys compared without surrounding white space -/
def lastWrite {V : Type} (norm : Str → Str) (writes : List (Str × V)) (k : Str) : Option V :=
  (writes.reverse.find? (fun w => decide (norm w.1 = k))).map (·.2)

theorem lastWrite_snoc {V : Type} (norm : Str → Str) (ws : List (Str × V)) (w : Str × V) (k : Str) :
    lastWrite norm (ws ++ [w]) k = if norm w.1 = k then some w.2 else lastWrite norm ws k := by
  unfold lastWrite
  by_cases h : norm w.1 = k <;> simp [h]

theorem writes_lookup {V : Type} (norm : Str → Str) (ws : List (Str × V)) (d : Dict Str V) (k : Str) :
    Dict.get? (ws.foldl (fun d w => Dict.set d (norm w.1) w.2) d) k = (lastWrite norm ws k).or (Dict.get? d k) := by
  induction ws using List.reverseRecOn with
  | nil => simp [lastWrite]
  | append_singleton ws w ih =>
    rw [List.foldl_append, lastWrite_snoc]
    simp only [List.foldl_cons, List.foldl_nil]
    by_cases h : norm w.1 = k
    · subst h; simp
    · rw [Dict.get?_set_ne _ _ h, ih, if_neg h]

theorem updateIndep_eq (shw : K → Str) (vars : List (IndepVar K)) (s : Store) (trial : List K) :
    updateIndep shw vars s trial =
      if trial.length ≤ vars.length then
        .ok ({ s with dict := (((vars.zip trial).map (fun p => (p.1.key, shw p.2))).foldl
                 (fun d w => Dict.set d (strip w.1) w.2) s.dict) },
             ((vars.zip trial).map (fun p => (p.1.name, p.2))).foldl (fun d w => Dict.set d w.1 w.2) [])
      else .error .indexError := by
  unfold updateIndep
  have key : ∀ (t : List K) (vs : List (IndepVar K)) (i : Nat) (s : Store) (d : Dict Str K), vs = vars.drop i →
      i ≤ vars.length →
      (t.zipIdx i).foldlM (fun (sd : Store × Dict Str K) (vi : K × Nat) =>
        match vars[vi.2]? with
        | some x => Except.ok (setValue sd.1 x.key (shw vi.1), Dict.set sd.2 x.name vi.1)
        | none => Except.error PyErr.indexError) (s, d) =
      if t.length ≤ vs.length then
        Except.ok ({ s with dict := (((vs.zip t).map (fun p => (p.1.key, shw p.2))).foldl
                 (fun d w => Dict.set d (strip w.1) w.2) s.dict) },
             ((vs.zip t).map (fun p => (p.1.name, p.2))).foldl (fun d w => Dict.set d w.1 w.2) d)
      else Except.error PyErr.indexError := by
    intro t
    induction t with
    | nil => intro vs i s d _ _; simp [pure, Except.pure]
    | cons a t ih =>
      intro vs i s d hvs hi
      rw [List.zipIdx_cons, List.foldlM_cons]
      cases vs with
      | nil =>
        have hl : vars.length ≤ i := by
          have := congrArg List.length hvs; simp at this; omega
        simp [List.getElem?_eq_none hl, bind, Except.bind]
      | cons x vs =>
        have hx : vars[i]? = some x := by
          have := congrArg (fun l => l[0]?) hvs
          simpa using this.symm
        have hlt : i < vars.length := by
          by_contra hcon
          rw [List.getElem?_eq_none (by omega)] at hx; cases hx
        simp only [hx, bind, Except.bind]
        rw [ih vs (i + 1) _ _ (by
          have := congrArg (List.drop 1) hvs
          simpa [List.drop_drop] using this) (by omega)]
        simp [setValue]
  exact key trial vars 0 s [] (by simp) (by omega)

/-- **C61** Writing the independent variables: every key set by a variable holds the text of that variable's value
(the last one, if several variables set the same key), everything else is unchanged, and the values that expressions
can refer to are the trial values by name.  A trial point with more coordinates than variables is an `IndexError`. -/
theorem updateIndep_spec (shw : K → Str) (vars : List (IndepVar K)) (s : Store) (trial : List K) :
    (vars.length < trial.length → updateIndep shw vars s trial = .error .indexError) ∧
    (trial.length ≤ vars.length → ∃ s' vals, updateIndep shw vars s trial = .ok (s', vals) ∧
      (∀ k, Dict.get? s'.dict k =
        (lastWrite strip ((vars.zip trial).map (fun p => (p.1.key, shw p.2))) k).or (Dict.get? s.dict k)) ∧
      s'.defaults = s.defaults ∧
      ∀ n, Dict.get? vals n = lastWrite id ((vars.zip trial).map (fun p => (p.1.name, p.2))) n) := by
  rw [updateIndep_eq]
  constructor
  · intro h; rw [if_neg (by omega)]
  · intro h
    refine ⟨_, _, if_pos h, fun k => writes_lookup strip _ _ k, rfl, fun n => ?_⟩
    have := writes_lookup id ((vars.zip trial).map (fun p => (p.1.name, p.2))) [] n
    simpa using this

/-- The text of a dependent variable, and what it becomes: text between an odd and the next `!` is an expression and
is replaced by its value (a missing last `!` is tolerated), all other text stays. -/
inductive Filled (val : Str → Str → Prop) : Str → Str → Prop
  | plain (t : Str) (h : '!' ∉ t) : Filled val t t
  | open_ (t e v : Str) (ht : '!' ∉ t) (he : '!' ∉ e) (hv : val e v) : Filled val (t ++ '!' :: e) (t ++ v)
  | expr (t e v rest out : Str) (ht : '!' ∉ t) (he : '!' ∉ e) (hv : val e v) (hr : Filled val rest out) :
      Filled val (t ++ '!' :: (e ++ '!' :: rest)) (t ++ (v ++ out))

theorem splitC_cons_sep {t r : Str} (h : '!' ∉ t) : splitC '!' (t ++ '!' :: r) = t :: splitC '!' r :=
  splitP_append_sep (fun c hc => by simp; rintro rfl; exact h hc) (by simp) r

theorem splitC_plain {t : Str} (h : '!' ∉ t) : splitC '!' t = [t] :=
  splitP_no_sep (fun c hc => by simp; rintro rfl; exact h hc)

/-- **C61** Dependent variables: the result is the definition with its expressions replaced by their values. -/
theorem substitute_spec (ev : Str → Except PyErr Str) (text out : Str) :
    substitute ev text = .ok out ↔ Filled (fun e v => ev e = .ok v) text out := by
  constructor
  · intro h
    have key : ∀ (n : Nat) (ps : List Str), ps.length ≤ n → ps ≠ [] → (∀ p ∈ ps, '!' ∉ p) → ∀ qs,
        evalOdd ev false ps = .ok qs → Filled (fun e v => ev e = .ok v) (join ['!'] ps) qs.flatten := by
      intro n
      induction n with
      | zero => intro ps hl hne; exact absurd (List.length_eq_zero_iff.1 (by omega)) hne
      | succ n ih =>
        intro ps hl hne hno qs hq
        match ps, hne with
        | [t], _ =>
          simp only [evalOdd, bind, Except.bind, Bool.false_eq_true, if_false] at hq
          cases hq
          simpa [join] using Filled.plain t (hno t (by simp))
        | [t, e], _ =>
          cases hv : ev e with
          | error x => simp [evalOdd, bind, Except.bind, hv] at hq
          | ok v =>
            simp [evalOdd, bind, Except.bind, hv] at hq
            subst hq
            simpa [join] using Filled.open_ t e v (hno t (by simp)) (hno e (by simp)) hv
        | t :: e :: r :: rs, _ =>
          cases hv : ev e with
          | error x => simp [evalOdd, bind, Except.bind, hv] at hq
          | ok v =>
            cases hr : evalOdd ev false (r :: rs) with
            | error x =>
              rw [evalOdd, evalOdd] at hq
              simp [bind, Except.bind, hv, hr] at hq
            | ok w =>
              rw [evalOdd, evalOdd] at hq
              simp [bind, Except.bind, hv, hr] at hq
              subst hq
              have := ih (r :: rs) (by simp at hl ⊢; omega) (by simp) (fun p hp => hno p (by simp at hp ⊢; tauto)) w hr
              have h2 := Filled.expr t e v _ _ (hno t (by simp)) (hno e (by simp)) hv this
              simpa [join] using h2
    unfold substitute at h
    cases hq : evalOdd ev false (splitC '!' text) with
    | error e => simp [hq, bind, Except.bind] at h
    | ok qs =>
      simp only [hq, bind, Except.bind, Except.ok.injEq] at h
      subst h
      have := key _ (splitC '!' text) le_rfl (splitC_ne_nil _ _) (fun p hp => splitC_no_sep p hp) qs hq
      rwa [join_splitC] at this
  · intro h
    induction h with
    | plain t ht => simp [substitute, splitC_plain ht, evalOdd, bind, Except.bind]
    | open_ t e v ht he hv =>
      simp [substitute, splitC_cons_sep ht, splitC_plain he, evalOdd, bind, Except.bind, hv]
    | expr t e v rest out ht he hv _ ih =>
      unfold substitute at ih ⊢
      rw [splitC_cons_sep ht, splitC_cons_sep he, evalOdd, evalOdd]
      cases hq : evalOdd ev false (splitC '!' rest) with
      | error e => simp [hq, bind, Except.bind] at ih
      | ok qs =>
        simp only [hq, bind, Except.bind, Except.ok.injEq] at ih
        subst ih
        simp [bind, Except.bind, hv, hq]

example : substitute (fun e => .ok ('=' :: e)) "(0 !a+b! 1)".toList = .ok "(0 =a+b 1)".toList := by decide +kernel

theorem updateDep_spec (ev : Dict Str K → Str → Except PyErr Str) (deps : List (Str × Str)) (s s' : Store)
    (vals : Dict Str K) (h : updateDep ev deps s vals = .ok s') :
    ∃ outs : List Str, List.Forall₂ (fun d o => Filled (fun e v => ev vals e = .ok v) d.2 o) deps outs ∧
      (∀ k, Dict.get? s'.dict k = (lastWrite strip ((deps.map (·.1)).zip outs) k).or (Dict.get? s.dict k)) ∧
      s'.defaults = s.defaults := by
  have key : ∀ (deps : List (Str × Str)) (s s' : Store), updateDep ev deps s vals = .ok s' →
      ∃ outs : List Str, List.Forall₂ (fun d o => Filled (fun e v => ev vals e = .ok v) d.2 o) deps outs ∧
      s'.dict = ((deps.map (·.1)).zip outs).foldl (fun d w => Dict.set d (strip w.1) w.2) s.dict ∧
      s'.defaults = s.defaults := by
    intro deps
    induction deps with
    | nil => intro s s' h; cases h; exact ⟨[], .nil, rfl, rfl⟩
    | cons d deps ih =>
      intro s s' h
      unfold updateDep at h
      rw [List.foldlM_cons] at h
      cases hv : substitute (ev vals) d.2 with
      | error e => simp [hv, bind, Except.bind] at h
      | ok v =>
        simp only [hv, bind, Except.bind] at h
        obtain ⟨outs, h1, h2, h3⟩ := ih _ _ h
        exact ⟨v :: outs, .cons ((substitute_spec _ _ _).1 hv) h1, by simpa [setValue] using h2, h3⟩
  obtain ⟨outs, h1, h2, h3⟩ := key deps s s' h
  exact ⟨outs, h1, fun k => by rw [h2]; exact writes_lookup strip _ _ k, h3⟩

/-- **C61** The definition simulated for a trial point: independent variables first, then dependent variables (which
win over independent ones on the same key), computed from the trial values; nothing else differs from the case. -/
theorem trialDef_spec (o : Setup K) (trial : List K) (case s' : Store) (h : trialDef o trial case = .ok s') :
    ∃ (vals : Dict Str K) (outs : List Str),
      trial.length ≤ o.vars.length ∧
      (∀ n, Dict.get? vals n = lastWrite id ((o.vars.zip trial).map (fun p => (p.1.name, p.2))) n) ∧
      List.Forall₂ (fun d t => Filled (fun e v => o.ev vals e = .ok v) d.2 t) o.deps outs ∧
      s'.defaults = case.defaults ∧
      ∀ k, Dict.get? s'.dict k =
        (lastWrite strip ((o.vars.zip trial).map (fun p => (p.1.key, o.shw p.2)) ++ (o.deps.map (·.1)).zip outs) k).or
          (Dict.get? case.dict k) := by
  unfold trialDef at h
  by_cases hl : trial.length ≤ o.vars.length
  · obtain ⟨s1, vals, e1, e2, e3, e4⟩ := (updateIndep_spec o.shw o.vars case trial).2 hl
    rw [e1] at h
    simp only [bind, Except.bind] at h
    obtain ⟨outs, f1, f2, f3⟩ := updateDep_spec _ _ _ _ _ h
    refine ⟨vals, outs, hl, e4, f1, f3.trans e3, fun k => ?_⟩
    rw [f2, e2, ← Option.or_assoc]
    congr 1
    unfold lastWrite
    rw [List.reverse_append, List.find?_append]
    cases List.find? (fun w => decide (strip w.1 = k)) ((o.deps.map (·.1)).zip outs).reverse <;> simp
  · rw [(updateIndep_spec o.shw o.vars case trial).1 (by omega)] at h
    simp [bind, Except.bind] at h

/-- **C61** With distinct keys, reading variable `i` back from the simulated definition gives the text of the trial's
coordinate `i`. -/
theorem trialDef_value (o : Setup K) (trial : List K) (case s' : Store) (h : trialDef o trial case = .ok s')
    (hnd : ((o.vars.map (fun x => strip x.key)) ++ o.deps.map (fun d => strip d.1)).Nodup)
    (i : Nat) (x : IndepVar K) (v : K) (hx : o.vars[i]? = some x) (hv : trial[i]? = some v) :
    (getValue s' x.key).1 = .ok (o.shw v) := by
  obtain ⟨vals, outs, hl, _, hf, _, hk⟩ := trialDef_spec o trial case s' h
  rw [getValue_ok_iff]
  left
  rw [hk]
  have hw : lastWrite strip ((o.vars.zip trial).map (fun p => (p.1.key, o.shw p.2)) ++ (o.deps.map (·.1)).zip outs)
      (strip x.key) = some (o.shw v) := by
    unfold lastWrite
    have hmem : (x.key, o.shw v) ∈ (o.vars.zip trial).map (fun p => (p.1.key, o.shw p.2)) := by
      rw [List.mem_map]
      refine ⟨(x, v), ?_, rfl⟩
      rw [List.mem_iff_getElem?]
      exact ⟨i, by rw [List.getElem?_zip_eq_some]; exact ⟨hx, hv⟩⟩
    have hnd' : (((o.vars.zip trial).map (fun p => (p.1.key, o.shw p.2)) ++ (o.deps.map (·.1)).zip outs).map
        (fun w => strip w.1)).Nodup := by
      refine List.Nodup.sublist ?_ hnd
      rw [List.map_append, List.map_map]
      refine List.Sublist.append ?_ ?_
      · have : (List.map ((fun w : Str × Str => strip w.1) ∘ fun p : IndepVar K × K => (p.1.key, o.shw p.2))
            (o.vars.zip trial)) = ((o.vars.zip trial).map Prod.fst).map (fun x => strip x.key) := by
          simp [List.map_map]
        rw [this]
        refine List.Sublist.map _ ?_
        rw [zip_fst_take]
        exact List.take_sublist _ _
      · have : List.map (fun w : Str × Str => strip w.1) ((o.deps.map (·.1)).zip outs)
            = (((o.deps.map (·.1)).zip outs).map Prod.fst).map strip := by simp [List.map_map]
        rw [this, zip_fst_take]
        have h2 : o.deps.map (fun d => strip d.1) = (o.deps.map (·.1)).map strip := by simp [List.map_map]
        rw [h2]
        exact List.Sublist.map _ (List.take_sublist _ _)
    generalize hW : (o.vars.zip trial).map (fun p => (p.1.key, o.shw p.2)) ++ (o.deps.map (·.1)).zip outs = W at *
    have hmem' : (x.key, o.shw v) ∈ W := by rw [← hW]; exact List.mem_append_left _ hmem
    cases hfind : W.reverse.find? (fun w => decide (strip w.1 = strip x.key)) with
    | none =>
      rw [List.find?_eq_none] at hfind
      have := hfind (x.key, o.shw v) (by simpa using hmem')
      simp at this
    | some w =>
      have h1 := List.find?_some hfind
      have h2 := List.mem_of_find?_eq_some hfind
      simp only [decide_eq_true_eq] at h1
      have h3 : w = (x.key, o.shw v) :=
        List.inj_on_of_nodup_map hnd' (by simpa using h2) hmem' h1
      rw [h3]; rfl
  rw [hw]; rfl

/-! ## the cost of a trial point -/

variable [Field K] [LinearOrder K]

theorem mapM_ok_iff {α β : Type} (f : α → Except PyErr β) (l : List α) (r : List β) :
    l.mapM f = .ok r ↔ List.Forall₂ (fun a b => f a = .ok b) l r := by
  induction l generalizing r with
  | nil => cases r <;> simp [pure, Except.pure]
  | cons a l ih =>
    rw [List.mapM_cons]
    cases ha : f a with
    | error e =>
      simp only [bind, Except.bind]
      constructor
      · intro h; cases h
      · intro h; cases h with | cons h1 _ => rw [ha] at h1; cases h1
    | ok b =>
      cases hl : l.mapM f with
      | error e =>
        simp only [bind, Except.bind]
        constructor
        · intro h; cases h
        · intro h
          cases h with
          | cons h1 h2 => rw [← ih] at h2; rw [hl] at h2; cases h2
      | ok bs =>
        simp only [bind, Except.bind, pure, Except.pure, Except.ok.injEq]
        have := ih bs
        constructor
        · rintro rfl; exact .cons ha (this.1 hl)
        · intro h
          cases h with
          | cons h1 h2 =>
            rw [ha] at h1; cases h1
            rw [← ih, hl] at h2; cases h2; rfl

/-- The cost of one trial: each case is simulated with the trial's definition of that case; the cost is the mean. -/
def TrialCost (o : Setup K) (inner : Option (Store → Except PyErr Store)) (run : Store → Except PyErr K)
    (t : List K) (c : K) : Prop :=
  ∃ rs : List K, rs ≠ [] ∧ c * (rs.length : K) = rs.sum ∧
    List.Forall₂ (fun case r => ∃ s s', trialDef o t case = .ok s ∧
      inner.elim (.ok s) (fun f => f s) = .ok s' ∧ run s' = .ok r) o.cases rs

theorem combine_spec [CharZero K] (xs : List K) (c : K) :
    combine xs = .ok c ↔ xs ≠ [] ∧ c * (xs.length : K) = xs.sum := by
  match xs with
  | [] => simp [combine]
  | [x] => simp [combine, eq_comm]
  | x :: y :: t =>
    have hne : (((x :: y :: t).length : ℕ) : K) ≠ 0 := by
      rw [Nat.cast_ne_zero]; simp
    simp only [combine, Except.ok.injEq, ne_eq, reduceCtorEq, not_false_eq_true, true_and]
    rw [div_eq_iff hne, eq_comm]

/-- **C61** Each trial point is evaluated on its own: the costs returned are, in order, the mean over the cases of the
cost of simulating the case with that trial's values.  No trial or case influences another. -/
theorem costsSingle_spec [CharZero K] (o : Setup K) (inner : Option (Store → Except PyErr Store))
    (run : Store → Except PyErr K) (trials : List (List K)) (cs : List K) :
    costsSingle o inner run trials = .ok cs ↔ List.Forall₂ (fun t c => TrialCost o inner run t c) trials cs := by
  unfold costsSingle
  rw [mapM_ok_iff]
  have : ∀ t c, (do
      let rs ← o.cases.mapM (fun c => do
        let s ← trialDef o t c
        let s ← match inner with | some f => f s | none => .ok s
        run s)
      combine rs) = Except.ok c ↔ TrialCost o inner run t c := by
    intro t c
    unfold TrialCost
    have hcase : ∀ case r, ((do
        let s ← trialDef o t case
        let s ← match inner with | some f => f s | none => .ok s
        run s) = Except.ok r ↔ ∃ s s', trialDef o t case = .ok s ∧
      inner.elim (.ok s) (fun f => f s) = .ok s' ∧ run s' = .ok r) := by
      intro case r
      cases hd : trialDef o t case with
      | error e => simp [bind, Except.bind]
      | ok s =>
        cases inner with
        | none => simp [bind, Except.bind, eq_comm]
        | some f =>
          cases hf : f s with
          | error e => simp [bind, Except.bind, hf]
          | ok s2 => simp [bind, Except.bind, hf]
    constructor
    · intro h
      cases hm : o.cases.mapM (fun c => do
        let s ← trialDef o t c
        let s ← match inner with | some f => f s | none => .ok s
        run s) with
      | error e => rw [hm] at h; simp [bind, Except.bind] at h
      | ok rs =>
        rw [hm] at h
        simp only [bind, Except.bind] at h
        rw [combine_spec] at h
        refine ⟨rs, h.1, h.2, ?_⟩
        rw [mapM_ok_iff] at hm
        exact hm.imp (fun a b hab => (hcase a b).1 hab)
    · rintro ⟨rs, h1, h2, h3⟩
      have hm : o.cases.mapM (fun c => do
        let s ← trialDef o t c
        let s ← match inner with | some f => f s | none => .ok s
        run s) = .ok rs := by
        rw [mapM_ok_iff]
        exact h3.imp (fun a b hab => (hcase a b).2 hab)
      rw [hm]
      exact (combine_spec rs c).2 ⟨h1, h2⟩
  constructor
  · intro h; exact h.imp (fun a b hab => (this a b).1 hab)
  · intro h; exact h.imp (fun a b hab => (this a b).2 hab)

/-- **C61 (partial)** Without a nested optimisation, parallel evaluation gives the same costs.
Missing: with a nested optimisation it does not (`parallel_inner_violated`). -/
theorem parallel_partial [CharZero K] (o : Setup K) (run : Store → Except PyErr K) (trials : List (List K)) (cs : List K) :
    costsParallel o none run trials = .ok cs ↔ costsSingle o none run trials = .ok cs := by
  rw [costsSingle_spec]
  have hcomb : ∀ (t : List K) (fs : List Store), o.cases.mapM (fun c => trialDef o t c) = .ok fs → ∀ c,
      ((do
        let rs ← fs.mapM run
        if 1 < o.cases.length then .ok (rs.sum / (rs.length : K))
        else match rs with
          | x :: _ => .ok x
          | [] => .error .indexError) = Except.ok c ↔ TrialCost o none run t c) := by
    intro t fs hfs c
    rw [mapM_ok_iff] at hfs
    have hlen := hfs.length_eq
    have hT : TrialCost o none run t c ↔ ∃ rs : List K, rs ≠ [] ∧ c * (rs.length : K) = rs.sum ∧
        List.Forall₂ (fun s r => run s = .ok r) fs rs := by
      unfold TrialCost
      refine exists_congr (fun rs => and_congr_right (fun hx1 => and_congr_right (fun hx2 => ?_)))
      clear hlen hx1 hx2
      generalize o.cases = cs0 at hfs ⊢
      induction hfs generalizing rs with
      | nil => cases rs <;> simp
      | @cons case s cases' fs' h1 _ ih =>
        cases rs with
        | nil => constructor <;> intro h <;> cases h
        | cons r rs =>
          rw [List.forall₂_cons, List.forall₂_cons]
          have := ih rs
          refine and_congr ?_ this
          rw [h1]
          constructor
          · rintro ⟨s1, s2, e1, e2, e3⟩; cases e1; cases e2; exact e3
          · intro h; exact ⟨s, s, rfl, rfl, h⟩
    rw [hT]
    constructor
    · intro h
      cases hm : fs.mapM run with
      | error e => rw [hm] at h; simp [bind, Except.bind] at h
      | ok rs =>
        rw [hm] at h
        simp only [bind, Except.bind] at h
        have hm' := (mapM_ok_iff _ _ _).1 hm
        have hl2 := hm'.length_eq
        split_ifs at h with h1
        · cases h
          have hne : ((rs.length : ℕ) : K) ≠ 0 := by rw [Nat.cast_ne_zero]; omega
          refine ⟨rs, ?_, by field_simp, hm'⟩
          intro h0; rw [h0] at hl2; simp at hl2; rw [hl2] at hlen; simp at hlen; rw [hlen] at h1; simp at h1
        · match rs, h, hm' with
          | x :: t, h, hm' =>
            have : t = [] := by
              apply List.eq_nil_of_length_eq_zero; simp at hl2; omega
            subst this
            simp only [Except.ok.injEq] at h
            exact ⟨[x], by simp, by simp [h], hm'⟩
    · rintro ⟨rs, h1, h2, h3⟩
      have hm := (mapM_ok_iff _ _ _).2 h3
      have hl2 := h3.length_eq
      rw [hm]
      simp only [bind, Except.bind]
      split_ifs with hc
      · have hne : ((rs.length : ℕ) : K) ≠ 0 := by rw [Nat.cast_ne_zero]; omega
        rw [← h2]; congr 1; field_simp
      · match rs, h1, h2, hl2 with
        | [x], _, h2, _ => simp at h2; simp [h2]
        | x :: y :: t, _, _, hl2 => simp at hl2; omega
  unfold costsParallel
  constructor
  · intro h
    cases hf : trials.mapM (fun t => o.cases.mapM (fun c => trialDef o t c)) with
    | error e => rw [hf] at h; simp [bind, Except.bind] at h
    | ok futures =>
      rw [hf] at h
      simp only [bind, Except.bind] at h
      rw [mapM_ok_iff] at hf
      have h' := (mapM_ok_iff _ _ _).1 h
      clear h
      induction hf generalizing cs with
      | nil => cases h'; exact .nil
      | @cons t fs ts futs h1 _ ih =>
        cases h' with
        | cons a b => exact .cons ((hcomb t fs h1 _).1 a) (ih _ b)
  · intro h
    have hex : ∃ futures, List.Forall₂ (fun t fs => o.cases.mapM (fun c => trialDef o t c) = .ok fs) trials futures := by
      induction h with
      | nil => exact ⟨[], .nil⟩
      | @cons t c ts cs' h1 _ ih =>
        obtain ⟨futs, hf⟩ := ih
        obtain ⟨rs, hx1, hx2, h4⟩ := h1
        have : ∃ fs, List.Forall₂ (fun a b => trialDef o t a = .ok b) o.cases fs := by
          clear hf hx1 hx2
          generalize o.cases = cs0 at h4
          induction h4 with
          | nil => exact ⟨[], .nil⟩
          | cons a _ ih2 =>
            obtain ⟨s, _, hs, _⟩ := a
            obtain ⟨fs, hfs⟩ := ih2
            exact ⟨s :: fs, .cons hs hfs⟩
        obtain ⟨fs, hfs⟩ := this
        exact ⟨fs :: futs, .cons ((mapM_ok_iff _ _ _).2 hfs) hf⟩
    obtain ⟨futures, hf⟩ := hex
    rw [(mapM_ok_iff _ _ _).2 hf]
    simp only [bind, Except.bind]
    refine (mapM_ok_iff _ _ _).2 ?_
    induction hf generalizing cs with
    | nil => cases h; exact .nil
    | @cons t fs ts futs h1 _ ih =>
      cases h with
      | cons a b => exact .cons ((hcomb t fs h1 _).2 a) (ih _ b)

/-- a setup with one variable and one dependent variable -/
def exSetup : Setup ℚ where
  shw := fun q => if q = 2 then "two".toList else "other".toList
  ev := fun d e => match Dict.get? d e with | some q => .ok (if q = 2 then "II".toList else "?".toList) | none => .error .keyError
  vars := [⟨"R.len".toList, "a".toList, 0, 5⟩]
  deps := [("R.pos".toList, "(0 0 !a!)".toList)]
  cases := [newStore [("R.len".toList, "1".toList), ("R.mass".toList, "7".toList)] [],
            newStore [("R.len".toList, "1".toList)] []]

example : (trialDef exSetup [2] (exSetup.cases.headD (newStore [] []))).map (·.dict) =
    .ok [("R.len".toList, "two".toList), ("R.mass".toList, "7".toList), ("R.pos".toList, "(0 0 II)".toList)] := by
  decide +kernel

/-- the two cases differ in the number of entries: costs 3 and 2, mean 5/2 -/
example : costsSingle exSetup none (fun s => .ok (s.dict.length : ℚ)) [[2], [3]] = .ok [5 / 2, 5 / 2] ∧
    ((exSetup.vars.map (fun x => strip x.key)) ++ exSetup.deps.map (fun d => strip d.1)).Nodup := by
  decide +kernel

/-- **C61 fails** in parallel: a nested optimisation is left out, so the costs differ. -/
theorem parallel_inner_violated :
    let inner := some (fun s : Store => Except.ok (setValue s "x".toList "1".toList))
    let run := fun s : Store => Except.ok (ε := PyErr) (s.dict.length : ℚ)
    costsSingle exSetup inner run [[2]] = .ok [7 / 2] ∧ costsParallel exSetup inner run [[2]] = .ok [5 / 2] := by
  decide +kernel

/-! ## starting positions -/

theorem mapM_range_ok {β : Type} (n : Nat) (f : Nat → Except PyErr β) (r : List β) :
    (List.range n).mapM f = .ok r ↔ r.length = n ∧ ∀ i (h : i < r.length), f i = .ok r[i] := by
  rw [mapM_ok_iff, List.forall₂_iff_get]
  simp only [List.length_range, List.get_eq_getElem, List.getElem_range]
  constructor
  · rintro ⟨h1, h2⟩; exact ⟨h1.symm, fun i hi => h2 i (by omega) hi⟩
  · rintro ⟨h1, h2⟩; exact ⟨h1.symm, fun i _ hi => h2 i hi⟩

theorem startParticle_spec (vars : List (IndepVar K)) (given : List (Str × K)) (random : Nat → K) (row : List K) :
    startParticle vars given random = .ok row ↔
      (∀ e ∈ given, ∃ x ∈ vars, x.name = e.1) ∧ row.length = vars.length ∧
      ∀ j x v, vars[j]? = some x → row[j]? = some v →
        (∀ e, given.find? (fun e => decide (e.1 = x.name)) = some e → v = e.2 ∧ x.lo ≤ v ∧ v ≤ x.hi) ∧
        ((∀ e ∈ given, e.1 ≠ x.name) → v = random j) := by
  unfold startParticle
  have hall : (given.all (fun e => (vars.map (·.name)).contains e.1) = true) ↔ ∀ e ∈ given, ∃ x ∈ vars, x.name = e.1 := by
    simp
  have hval : ∀ (x : IndepVar K) (j : Nat) (v : K), startValue x given (random j) = .ok v ↔
      (∀ e, given.find? (fun e => decide (e.1 = x.name)) = some e → v = e.2 ∧ x.lo ≤ v ∧ v ≤ x.hi) ∧
        ((∀ e ∈ given, e.1 ≠ x.name) → v = random j) := by
    intro x j v
    unfold startValue
    cases hf : given.find? (fun e => decide (e.1 = x.name)) with
    | none =>
      have hn : ∀ e ∈ given, e.1 ≠ x.name := by
        intro e he; have := List.find?_eq_none.1 hf e he; simpa using this
      simp only [Except.ok.injEq, reduceCtorEq, false_implies, implies_true, true_and]
      constructor
      · intro h _; exact h.symm
      · intro h; exact (h hn).symm
    | some e =>
      have hm := List.mem_of_find?_eq_some hf
      have he := List.find?_some hf
      simp only [decide_eq_true_eq] at he
      have hno : ¬ ∀ e ∈ given, e.1 ≠ x.name := fun h => h e hm he
      by_cases hb : e.2 < x.lo ∨ x.hi < e.2
      · simp only [if_pos hb]
        constructor
        · intro h; cases h
        · rintro ⟨h, _⟩
          obtain ⟨h1, h2, h3⟩ := h e rfl
          rw [h1] at h2 h3
          rcases hb with hb | hb
          · exact absurd hb (not_lt.2 h2)
          · exact absurd hb (not_lt.2 h3)
      · simp only [if_neg hb, Except.ok.injEq, Option.some.injEq]
        push Not at hb
        constructor
        · rintro rfl
          exact ⟨fun e' h' => by subst h'; exact ⟨rfl, hb.1, hb.2⟩, fun h => absurd h hno⟩
        · rintro ⟨h, _⟩; exact (h e rfl).1.symm
  by_cases hg : given.all (fun e => (vars.map (·.name)).contains e.1) = true
  · rw [if_pos hg, mapM_ok_iff, List.forall₂_iff_get]
    rw [hall] at hg
    simp only [List.length_zipIdx, List.get_eq_getElem, List.getElem_zipIdx, Nat.zero_add, hval]
    constructor
    · rintro ⟨h1, h2⟩
      refine ⟨hg, h1.symm, fun j x v hx hv => ?_⟩
      obtain ⟨hj, hx'⟩ := List.getElem?_eq_some_iff.1 hx
      obtain ⟨hj2, hv'⟩ := List.getElem?_eq_some_iff.1 hv
      have := h2 j hj hj2
      rwa [hx', hv'] at this
    · rintro ⟨_, h1, h2⟩
      exact ⟨h1.symm, fun i hi hi2 => h2 i _ _ (List.getElem?_eq_getElem hi) (List.getElem?_eq_getElem hi2)⟩
  · rw [if_neg hg]
    rw [hall] at hg
    constructor
    · intro h; cases h
    · rintro ⟨h, _⟩; exact absurd h hg

/-- **C62** Starting positions: one row per particle and one column per variable.  Specified coordinates are used as
given and lie within their bounds; the others are the values drawn.  Anything else — more position dictionaries than
particles, unknown variable names, values out of bounds — is rejected with `ValueError`. -/
theorem initialPositions_spec (vars : List (IndepVar K)) (n : Nat) (given : List (List (Str × K)))
    (random : Nat → Nat → K) (rows : List (List K)) :
    loadInitialPositions vars n given random = .ok rows ↔
      given.length ≤ n ∧ rows.length = n ∧ ∀ i (h : i < rows.length),
        (∀ e ∈ given.getD i [], ∃ x ∈ vars, x.name = e.1) ∧ rows[i].length = vars.length ∧
        ∀ j x v, vars[j]? = some x → rows[i][j]? = some v →
          (∀ e, (given.getD i []).find? (fun e => decide (e.1 = x.name)) = some e → v = e.2 ∧ x.lo ≤ v ∧ v ≤ x.hi) ∧
          ((∀ e ∈ given.getD i [], e.1 ≠ x.name) → v = random i j) := by
  unfold loadInitialPositions
  by_cases h : n < given.length
  · rw [if_pos h]
    constructor
    · intro h'; cases h'
    · rintro ⟨h', _⟩; omega
  · rw [if_neg h, mapM_range_ok]
    simp only [startParticle_spec]
    constructor
    · rintro ⟨h1, h2⟩; exact ⟨by omega, h1, h2⟩
    · rintro ⟨_, h1, h2⟩; exact ⟨h1, h2⟩

/-- **C62** Every starting coordinate lies within its bounds (if the random draws do). -/
theorem initialPositions_bounded (vars : List (IndepVar K)) (n : Nat) (given : List (List (Str × K)))
    (random : Nat → Nat → K) (rows : List (List K)) (hok : loadInitialPositions vars n given random = .ok rows)
    (hr : ∀ i j x, vars[j]? = some x → x.lo ≤ random i j ∧ random i j ≤ x.hi)
    (i j : Nat) (row : List K) (x : IndepVar K) (v : K)
    (hi : rows[i]? = some row) (hx : vars[j]? = some x) (hv : row[j]? = some v) : x.lo ≤ v ∧ v ≤ x.hi := by
  obtain ⟨_, _, h⟩ := (initialPositions_spec vars n given random rows).1 hok
  obtain ⟨hlt, hi'⟩ := List.getElem?_eq_some_iff.1 hi
  obtain ⟨_, _, h3⟩ := h i hlt
  rw [← hi'] at hv
  obtain ⟨h4, h5⟩ := h3 j x v hx hv
  cases hf : (given.getD i []).find? (fun e => decide (e.1 = x.name)) with
  | some e => exact (h4 e hf).2
  | none =>
    have hn : ∀ e ∈ given.getD i [], e.1 ≠ x.name := by
      intro e he; have := List.find?_eq_none.1 hf e he; simpa using this
    rw [h5 hn]
    exact hr i j x hx

example : loadInitialPositions [⟨"k".toList, "a".toList, (0 : ℚ), 5⟩, ⟨"l".toList, "b".toList, 1, 2⟩] 2
    [[("b".toList, 3 / 2)]] (fun i j => i + j + 1 / 2) = .ok [[1 / 2, 3 / 2], [3 / 2, 5 / 2]] ∧
    loadInitialPositions [⟨"k".toList, "a".toList, (0 : ℚ), 5⟩] 2 [[("a".toList, 6)]] (fun _ _ => 1)
      = .error .valueError := by decide +kernel

/-- **C62** Positions written out with their variable names are the starting positions when read back, in the same
order of particles, if they are within bounds and the names are distinct. -/
theorem positions_restored (vars : List (IndepVar K)) (positions : List (List K)) (random : Nat → Nat → K)
    (hnames : (vars.map (·.name)).Nodup)
    (hlen : ∀ p ∈ positions, p.length = vars.length)
    (hb : ∀ p ∈ positions, ∀ (j : Nat) (x : IndepVar K) (v : K), vars[j]? = some x → p[j]? = some v → x.lo ≤ v ∧ v ≤ x.hi) :
    loadInitialPositions vars positions.length (positions.map (fun p => (vars.map (·.name)).zip p)) random
      = .ok positions := by
  rw [initialPositions_spec]
  refine ⟨by simp, rfl, fun i hi => ?_⟩
  have hg : (positions.map (fun p => (vars.map (·.name)).zip p)).getD i [] = (vars.map (·.name)).zip positions[i] := by
    rw [List.getD_eq_getElem?_getD]; simp [hi]
  have hp : positions[i] ∈ positions := List.getElem_mem hi
  rw [hg]
  refine ⟨fun e he => ?_, hlen _ hp, fun j x v hx hv => ?_⟩
  · have := (List.of_mem_zip he).1
    simpa using this
  · have hmem : (x.name, v) ∈ (vars.map (·.name)).zip positions[i] := by
      rw [List.mem_iff_getElem?]
      exact ⟨j, by rw [List.getElem?_zip_eq_some]; exact ⟨by simp [hx], hv⟩⟩
    refine ⟨fun e he => ?_, fun h => absurd rfl (h _ hmem)⟩
    have h1 := List.find?_some he
    have h2 := List.mem_of_find?_eq_some he
    simp only [decide_eq_true_eq] at h1
    have hnd : (((vars.map (·.name)).zip positions[i]).map Prod.fst).Nodup := by
      rw [zip_fst_take]
      exact hnames.sublist (List.take_sublist _ _)
    have : e = (x.name, v) := List.inj_on_of_nodup_map hnd h2 hmem h1
    subst this
    exact ⟨rfl, hb _ hp j x v hx hv⟩

/-- **C62** Best position and best cost written to the continuation file are read back unchanged, provided that
texts of numbers contain no space and are read back as the same numbers. -/
theorem best_restored (shw : K → Str) (num : Str → Except PyErr K) (best : List K) (hne : best ≠ []) (cost : K)
    (hrt : ∀ x ∈ cost :: best, num (shw x) = .ok x) (hsp : ∀ x ∈ best, ' ' ∉ shw x) :
    loadBest num (some (join [' '] (best.map shw))) (some (shw cost)) = .ok (some (best, cost)) := by
  have h1 : splitC ' ' (join [' '] (best.map shw)) = best.map shw :=
    splitC_join ' ' (by simpa using hne) (by simpa using hsp)
  have h2 : (best.map shw).mapM num = .ok best := by
    rw [mapM_ok_iff, List.forall₂_map_left_iff]
    exact List.forall₂_same.2 (fun x hx => hrt x (by simp [hx]))
  simp [loadBest, hrt cost (by simp), Except.map, h1, h2, bind, Except.bind]

/-- Giving only one of best position and best cost is rejected -/
theorem best_both (num : Str → Except PyErr K) (t : Str) :
    loadBest num (some t) none = .error .valueError ∧
    (∀ c, num t = .ok c → loadBest num none (some t) = .error .valueError) ∧
    loadBest num none none = .ok none := by
  refine ⟨rfl, fun c hc => ?_, rfl⟩
  simp [loadBest, hc, Except.map, bind, Except.bind]

/-- **C62 fails**: a continuation file with two or more variables cannot be used — the test whether there is a best
position raises `ValueError`. -/
theorem restart_violated (shw : K → Str) (num : Str → Except PyErr K) (best : List K) (h2 : 2 ≤ best.length) (cost : K)
    (hrt : ∀ x ∈ cost :: best, num (shw x) = .ok x) (hsp : ∀ x ∈ best, ' ' ∉ shw x) :
    (loadBest num (some (join [' '] (best.map shw))) (some (shw cost)) >>= swarmBest) = .error .valueError := by
  rw [best_restored shw num best (by rintro rfl; simp at h2) cost hrt hsp]
  clear hrt hsp
  match best, h2 with
  | a :: b :: t, _ => rfl

/-- **C62 (partial)** With one variable the swarm starts with the best position and cost of the previous run.
Missing: more than one variable (`restart_violated`). -/
theorem restart_partial (shw : K → Str) (num : Str → Except PyErr K) (x cost : K)
    (hrt : ∀ y ∈ [cost, x], num (shw y) = .ok y) (hsp : ' ' ∉ shw x) :
    (loadBest num (some (join [' '] ([x].map shw))) (some (shw cost)) >>= swarmBest) = .ok (some ([x], cost)) := by
  rw [best_restored shw num [x] (by simp) cost hrt (by simpa using hsp)]
  rfl

example : swarmBest (none : Option (List ℚ × ℚ)) = .ok none := rfl

/-! ## the continuation file -/

theorem particleKey_injective (path : Str) {i i' : Nat} {n n' : Str} (hn : '.' ∉ n) (hn' : '.' ∉ n')
    (h : particleKey path i n = particleKey path i' n') : i = i' ∧ n = n' := by
  unfold particleKey at h
  have h1 := List.append_cancel_left h
  simp only [List.cons.injEq, true_and] at h1
  have hd : ∀ k, '.' ∉ Nat.toDigits 10 k := by
    intro k hk
    have := Nat.isDigit_of_mem_toDigits (by norm_num) (by norm_num) hk
    exact absurd this (by decide)
  have e1 := splitP_append_sep (p := fun x => decide (x = '.')) (a := Nat.toDigits 10 i) (c := '.')
    (fun c hc => by simp; rintro rfl; exact hd i hc) (by simp) n
  have e2 := splitP_append_sep (p := fun x => decide (x = '.')) (a := Nat.toDigits 10 i') (c := '.')
    (fun c hc => by simp; rintro rfl; exact hd i' hc) (by simp) n'
  rw [h1, e2] at e1
  have f1 : splitP (fun x => decide (x = '.')) n = [n] :=
    splitP_no_sep (fun c hc => by simp; rintro rfl; exact hn hc)
  have f2 : splitP (fun x => decide (x = '.')) n' = [n'] :=
    splitP_no_sep (fun c hc => by simp; rintro rfl; exact hn' hc)
  rw [f1, f2] at e1
  simp only [List.cons.injEq, and_true] at e1
  refine ⟨?_, e1.2.symm⟩
  have := congrArg (fun l => Nat.ofDigitChars 10 l 0) e1.1
  simpa [Nat.ofDigitChars_ten_toDigits] using this.symm

theorem lastWrite_of_nodup {V : Type} (norm : Str → Str) (W : List (Str × V))
    (hnd : (W.map (fun w => norm w.1)).Nodup) {w : Str × V} (hw : w ∈ W) :
    lastWrite norm W (norm w.1) = some w.2 := by
  unfold lastWrite
  cases hfind : W.reverse.find? (fun u => decide (norm u.1 = norm w.1)) with
  | none =>
    rw [List.find?_eq_none] at hfind
    have := hfind w (by simpa using hw)
    simp at this
  | some u =>
    have h1 := List.find?_some hfind
    have h2 := List.mem_of_find?_eq_some hfind
    simp only [decide_eq_true_eq] at h1
    have h3 : u = w := List.inj_on_of_nodup_map hnd (by simpa using h2) hw h1
    rw [h3]; rfl

theorem lastWrite_none {V : Type} (norm : Str → Str) (W : List (Str × V)) (k : Str)
    (h : ∀ w ∈ W, norm w.1 ≠ k) : lastWrite norm W k = none := by
  unfold lastWrite
  rw [Option.map_eq_none_iff, List.find?_eq_none]
  intro w hw
  simpa using h w (by simpa using hw)

/-- the writes for one particle -/
def rowWrites (shw : K → Str) (path : Str) (vars : List (IndepVar K)) (pi : List K × Nat) : List (Str × Str) :=
  (vars.zip pi.1).map (fun xv => (particleKey path pi.2 xv.1.name, shw xv.2))

omit [Field K] [LinearOrder K] in
theorem row_fold (shw : K → Str) (key : IndepVar K → Str) (vars : List (IndepVar K)) (row : List K)
    (hl : row.length ≤ vars.length) (s : Store) :
    row.zipIdx.foldlM (fun s (vj : K × Nat) => match vars[vj.2]? with
      | some x => Except.ok (setValue s (key x) (shw vj.1))
      | none => Except.error PyErr.indexError) s =
    .ok { s with dict := (((vars.zip row).map (fun xv => (key xv.1, shw xv.2))).foldl
      (fun d w => Dict.set d (strip w.1) w.2) s.dict) } := by
  have key' : ∀ (t : List K) (vs : List (IndepVar K)) (i : Nat) (s : Store), vs = vars.drop i →
      t.length ≤ vs.length →
      (t.zipIdx i).foldlM (fun s (vj : K × Nat) => match vars[vj.2]? with
        | some x => Except.ok (setValue s (key x) (shw vj.1))
        | none => Except.error PyErr.indexError) s =
      .ok { s with dict := (((vs.zip t).map (fun xv => (key xv.1, shw xv.2))).foldl
        (fun d w => Dict.set d (strip w.1) w.2) s.dict) } := by
    intro t
    induction t with
    | nil => intro vs i s _ _; simp [pure, Except.pure]
    | cons a t ih =>
      intro vs i s hvs hlt
      rw [List.zipIdx_cons, List.foldlM_cons]
      cases vs with
      | nil => simp at hlt
      | cons x vs =>
        have hx : vars[i]? = some x := by
          have := congrArg (fun l => l[0]?) hvs
          simpa using this.symm
        simp only [hx, bind, Except.bind]
        rw [ih vs (i + 1) _ (by
          have := congrArg (List.drop 1) hvs
          simpa [List.drop_drop] using this) (by simpa using hlt)]
        simp [setValue]
  exact key' row vars 0 s (by simp) hl

theorem remove_all {s : Store} (hs : Dict.WF s.dict) (old : List Str) (k : Str) :
    Dict.WF (old.foldl (fun s k => (removeKey s k).2) s).dict ∧
    Dict.get? (old.foldl (fun s k => (removeKey s k).2) s).dict k = if k ∈ old then none else Dict.get? s.dict k := by
  induction old generalizing s with
  | nil => simp [hs]
  | cons a old ih =>
    rw [List.foldl_cons]
    have h1 : Dict.WF (removeKey s a).2.dict ∧
        Dict.get? (removeKey s a).2.dict k = if k = a then none else Dict.get? s.dict k := by
      unfold removeKey
      cases hg : Dict.get? s.dict a with
      | some v =>
        refine ⟨Dict.WF_erase hs a, ?_⟩
        simp only
        rw [Dict.get?_erase hs]
        by_cases hk : k = a
        · simp [hk]
        · have : ¬ a = k := fun h => hk h.symm
          simp [hk, this]
      | none =>
        refine ⟨hs, ?_⟩
        by_cases hk : k = a
        · rw [hk, hg]; simp
        · simp [hk]
    obtain ⟨h2, h3⟩ := ih h1.1
    refine ⟨h2, ?_⟩
    rw [h3, h1.2]
    by_cases hk : k = a <;> by_cases hm : k ∈ old <;> simp [hk, hm]

/-- **C62** What the continuation file of a particle swarm contains: every coordinate of every particle under its
particle's number and its variable's name, the best position and the best cost, none of the old position entries, and
everything else as before. -/
theorem continuation_spec (shw : K → Str) (path : Str) (vars : List (IndepVar K)) (old : List Str) (s : Store)
    (positions : List (List K)) (best : List K) (cost : K) (hs : Dict.WF s.dict)
    (hnames : (vars.map (·.name)).Nodup) (hdot : ∀ x ∈ vars, '.' ∉ x.name)
    (hclean : ∀ i, ∀ x ∈ vars, strip (particleKey path i x.name) = particleKey path i x.name)
    (hclean2 : strip (posPath path ++ "bestPosition".toList) = posPath path ++ "bestPosition".toList)
    (hclean3 : strip (posPath path ++ "bestCost".toList) = posPath path ++ "bestCost".toList)
    (hlen : ∀ p ∈ positions, p.length ≤ vars.length) :
    ∃ s', continuation shw path vars old s positions best cost = .ok s' ∧
      (∀ (i j : Nat) (p : List K) (x : IndepVar K) (v : K), positions[i]? = some p → vars[j]? = some x →
        p[j]? = some v → Dict.get? s'.dict (particleKey path i x.name) = some (shw v)) ∧
      Dict.get? s'.dict (posPath path ++ "bestPosition".toList) = some (join [' '] (best.map shw)) ∧
      Dict.get? s'.dict (posPath path ++ "bestCost".toList) = some (shw cost) ∧
      (∀ k, k ≠ posPath path ++ "bestPosition".toList → k ≠ posPath path ++ "bestCost".toList →
        (∀ i < positions.length, ∀ x ∈ vars, k ≠ particleKey path i x.name) →
        Dict.get? s'.dict k = if k ∈ old then none else Dict.get? s.dict k) := by
  have hfold : ∀ (l : List (List K)) (n : Nat) (s : Store), (∀ p ∈ l, p.length ≤ vars.length) →
      (l.zipIdx n).foldlM (fun s (pi : List K × Nat) =>
        pi.1.zipIdx.foldlM (fun s (vj : K × Nat) =>
          match vars[vj.2]? with
          | some x => Except.ok (setValue s (particleKey path pi.2 x.name) (shw vj.1))
          | none => Except.error PyErr.indexError) s) s =
      .ok { s with dict := (((l.zipIdx n).flatMap (rowWrites shw path vars)).foldl
        (fun d w => Dict.set d (strip w.1) w.2) s.dict) } := by
    intro l
    induction l with
    | nil => intro n s _; simp [pure, Except.pure]
    | cons p l ih =>
      intro n s h
      rw [List.zipIdx_cons, List.foldlM_cons]
      rw [row_fold shw (fun x => particleKey path n x.name) vars p (h p (by simp)) s]
      simp only [bind, Except.bind]
      rw [ih _ _ (fun q hq => h q (by simp [hq]))]
      simp [rowWrites, List.foldl_append]
  unfold continuation
  simp only
  obtain ⟨W, hW⟩ : ∃ W, (positions.zipIdx 0).flatMap (rowWrites shw path vars) = W := ⟨_, rfl⟩
  have hmemW : ∀ w, w ∈ W ↔ ∃ (i : Nat) (p : List K) (j : Nat) (x : IndepVar K) (v : K), positions[i]? = some p ∧
      vars[j]? = some x ∧ p[j]? = some v ∧ w = (particleKey path i x.name, shw v) := by
    intro w
    rw [← hW]
    simp only [List.mem_flatMap, rowWrites, List.mem_map]
    constructor
    · rintro ⟨⟨p, i⟩, hpi, ⟨x, v⟩, hxv, rfl⟩
      rw [List.mem_zipIdx_iff_getElem?] at hpi
      obtain ⟨j, hj⟩ := List.mem_iff_getElem?.1 hxv
      rw [List.getElem?_zip_eq_some] at hj
      exact ⟨i, p, j, x, v, hpi, hj.1, hj.2, rfl⟩
    · rintro ⟨i, p, j, x, v, h1, h2, h3, rfl⟩
      refine ⟨(p, i), by rw [List.mem_zipIdx_iff_getElem?]; exact h1, (x, v), ?_, rfl⟩
      rw [List.mem_iff_getElem?]
      exact ⟨j, by rw [List.getElem?_zip_eq_some]; exact ⟨h2, h3⟩⟩
  have hstripW : ∀ w ∈ W, strip w.1 = w.1 := by
    intro w hw
    obtain ⟨i, p, j, x, v, _, h2, _, rfl⟩ := (hmemW w).1 hw
    exact hclean i x (List.mem_of_getElem? h2)
  have hndW : (W.map (fun w => strip w.1)).Nodup := by
    have e : W.map (fun w => strip w.1) = W.map Prod.fst := List.map_congr_left hstripW
    rw [e, ← hW, List.map_flatMap]
    have hrow : ∀ pi : List K × Nat, (rowWrites shw path vars pi).map Prod.fst =
        ((vars.map (·.name)).take pi.1.length).map (particleKey path pi.2) := by
      intro pi
      unfold rowWrites
      rw [List.map_map, ← List.map_take, List.map_map, ← zip_fst_take, List.map_map]
      rfl
    rw [List.nodup_flatMap]
    constructor
    · intro pi _
      rw [hrow]
      refine List.Nodup.map_on ?_ (hnames.sublist (List.take_sublist _ _))
      intro a ha b hb hab
      have ha' := List.mem_of_mem_take ha
      have hb' := List.mem_of_mem_take hb
      obtain ⟨xa, hxa, rfl⟩ := List.mem_map.1 ha'
      obtain ⟨xb, hxb, rfl⟩ := List.mem_map.1 hb'
      exact (particleKey_injective path (hdot _ hxa) (hdot _ hxb) hab).2
    · have hpw : (positions.zipIdx 0).Pairwise (fun a b => a.2 ≠ b.2) := by
        have : ((positions.zipIdx 0).map Prod.snd).Nodup := by
          simp only [List.zipIdx_map_snd]
          exact List.nodup_range'
        rw [List.Nodup, List.pairwise_map] at this
        exact this
      refine hpw.imp ?_
      intro a b hab
      rw [Function.onFun, List.disjoint_left]
      intro k hka hkb
      rw [hrow] at hka hkb
      obtain ⟨na, hna, rfl⟩ := List.mem_map.1 hka
      obtain ⟨nb, hnb, he⟩ := List.mem_map.1 hkb
      obtain ⟨xa, hxa, rfl⟩ := List.mem_map.1 (List.mem_of_mem_take hna)
      obtain ⟨xb, hxb, rfl⟩ := List.mem_map.1 (List.mem_of_mem_take hnb)
      exact hab (particleKey_injective path (hdot _ hxb) (hdot _ hxa) he).1.symm
  have hb1 : ∀ w ∈ W, strip w.1 ≠ posPath path ++ "bestPosition".toList := by
    intro w hw h
    rw [hstripW w hw] at h
    obtain ⟨i, p, j, x, v, _, _, _, rfl⟩ := (hmemW w).1 hw
    unfold particleKey at h
    have := List.append_cancel_left h
    exact absurd (List.cons.inj this).1 (by decide)
  have hb2 : ∀ w ∈ W, strip w.1 ≠ posPath path ++ "bestCost".toList := by
    intro w hw h
    rw [hstripW w hw] at h
    obtain ⟨i, p, j, x, v, _, _, _, rfl⟩ := (hmemW w).1 hw
    unfold particleKey at h
    have := List.append_cancel_left h
    exact absurd (List.cons.inj this).1 (by decide)
  have hne : posPath path ++ "bestCost".toList ≠ posPath path ++ "bestPosition".toList := by
    intro h; have := List.append_cancel_left h; exact absurd this (by decide)
  have hrun := hfold positions 0
    (setValue (setValue (old.foldl (fun s k => (removeKey s k).2) s) (posPath path ++ "bestPosition".toList)
      (join [' '] (best.map shw))) (posPath path ++ "bestCost".toList) (shw cost)) hlen
  rw [hW] at hrun
  refine ⟨_, hrun, ?_, ?_, ?_, ?_⟩
  · intro i j p x v h1 h2 h3
    simp only
    rw [writes_lookup]
    have hw := (hmemW (particleKey path i x.name, shw v)).2 ⟨i, p, j, x, v, h1, h2, h3, rfl⟩
    have := lastWrite_of_nodup strip W hndW hw
    simp only [hclean i x (List.mem_of_getElem? h2)] at this
    rw [this]; rfl
  · simp only
    rw [writes_lookup, lastWrite_none strip W _ hb1]
    simp only [setValue, Option.none_or]
    rw [hclean2, hclean3, Dict.get?_set_ne _ _ hne, Dict.get?_set_self]
  · simp only
    rw [writes_lookup, lastWrite_none strip W _ hb2]
    simp only [setValue, Option.none_or]
    rw [hclean3, Dict.get?_set_self]
  · intro k hk1 hk2 hk3
    simp only
    rw [writes_lookup, lastWrite_none strip W _ ?_]
    · simp only [setValue, Option.none_or]
      rw [hclean2, hclean3, Dict.get?_set_ne _ _ (Ne.symm hk2), Dict.get?_set_ne _ _ (Ne.symm hk1)]
      exact (remove_all hs old k).2
    · intro w hw h
      rw [hstripW w hw] at h
      obtain ⟨i, p, j, x, v, h1, h2, _, rfl⟩ := (hmemW w).1 hw
      have hi : i < positions.length := (List.getElem?_eq_some_iff.1 h1).1
      exact hk3 i hi x (List.mem_of_getElem? h2) h.symm

example : ∃ s', continuation (fun q : ℚ => if q = 1 then "1".toList else "2".toList) "Optimization".toList
    [⟨"k".toList, "a".toList, 0, 5⟩, ⟨"l".toList, "b".toList, 0, 5⟩]
    ["Optimization.IndependentVariables.InitialParticlePositions.p7.a".toList]
    (newStore [("Optimization.IndependentVariables.InitialParticlePositions.p7.a".toList, "3".toList)] [])
    [[1, 2], [2, 2]] [1, 2] 1 = .ok s' ∧
    s'.dict = [("Optimization.IndependentVariables.InitialParticlePositions.bestPosition".toList, "1 2".toList),
      ("Optimization.IndependentVariables.InitialParticlePositions.bestCost".toList, "1".toList),
      ("Optimization.IndependentVariables.InitialParticlePositions.p0.a".toList, "1".toList),
      ("Optimization.IndependentVariables.InitialParticlePositions.p0.b".toList, "2".toList),
      ("Optimization.IndependentVariables.InitialParticlePositions.p1.a".toList, "2".toList),
      ("Optimization.IndependentVariables.InitialParticlePositions.p1.b".toList, "2".toList)] :=
  ⟨_, rfl, by decide +kernel⟩

/-! ## scipy -/

/-- **C62** The scipy runner starts in the middle of the bounds, and from a continuation file exactly at the solution
that was written: the new bounds are centred on it. -/
theorem scipy_restart [IsStrictOrderedRing K] (vars : List (IndepVar K)) (x : List K) (hl : x.length = vars.length) :
    ∃ vars', scipyContinue vars x = .ok vars' ∧ scipyStart vars' = x ∧
      vars'.map (fun v => (v.key, v.name)) = vars.map (fun v => (v.key, v.name)) ∧ ∀ v ∈ vars', v.lo < v.hi := by
  have key : ∀ (vs : List (IndepVar K)) (t : List K) (i : Nat), t.length = vs.length → t = x.drop i →
      ∃ vars', (vs.zipIdx i).mapM (fun (vi : IndepVar K × Nat) => match x[vi.2]? with
        | some c => Except.ok (ε := PyErr) { vi.1 with lo := c - 1 / 10 ^ 12, hi := c + 1 / 10 ^ 12 }
        | none => .error .indexError) = .ok vars' ∧ scipyStart vars' = t ∧
      vars'.map (fun v => (v.key, v.name)) = vs.map (fun v => (v.key, v.name)) ∧ ∀ v ∈ vars', v.lo < v.hi := by
    intro vs
    induction vs with
    | nil =>
      intro t i h _
      have : t = [] := List.eq_nil_of_length_eq_zero (by simpa using h)
      exact ⟨[], by simp [pure, Except.pure], by simp [scipyStart, this], rfl, by simp⟩
    | cons v vs ih =>
      intro t i h ht
      cases t with
      | nil => simp at h
      | cons c t =>
        have hx : x[i]? = some c := by
          have := congrArg (fun l => l[0]?) ht
          simpa using this.symm
        obtain ⟨vs', h1, h2, h3, h4⟩ := ih t (i + 1) (by simpa using h) (by
          have := congrArg (List.drop 1) ht
          simpa [List.drop_drop] using this)
        refine ⟨{ v with lo := c - 1 / 10 ^ 12, hi := c + 1 / 10 ^ 12 } :: vs', ?_, ?_, ?_, ?_⟩
        · rw [List.zipIdx_cons, List.mapM_cons, h1]
          simp [hx, bind, Except.bind, pure, Except.pure]
        · simp only [scipyStart, List.map_cons] at h2 ⊢
          rw [h2]
          congr 1
          ring
        · simp [h3]
        · intro u hu
          rcases List.mem_cons.1 hu with rfl | hu
          · simp only
            have : (0 : K) < 1 / 10 ^ 12 := by positivity
            linarith
          · exact h4 u hu
  exact key vars x 0 hl (by simp)

theorem scipy_midpoint (vars : List (IndepVar K)) (i : Nat) (v : IndepVar K) (h : vars[i]? = some v) :
    (scipyStart vars)[i]? = some ((v.lo + v.hi) / 2) := by
  simp [scipyStart, h]

omit [Field K] in
theorem maxOf_spec (x : K) (xs : List K) : maxOf x xs ∈ x :: xs ∧ ∀ y ∈ x :: xs, y ≤ maxOf x xs := by
  unfold maxOf
  induction xs generalizing x with
  | nil => simp
  | cons a xs ih =>
    rw [List.foldl_cons]
    obtain ⟨h1, h2⟩ := ih (max x a)
    constructor
    · rcases List.mem_cons.1 h1 with h | h
      · rw [h]
        rcases max_choice x a with h' | h' <;> rw [h'] <;> simp
      · simp [h]
    · intro y hy
      have hm := h2 (max x a) (by simp)
      simp only [List.mem_cons] at hy
      rcases hy with rfl | rfl | hy
      · exact (le_max_left _ _).trans hm
      · exact (le_max_right _ _).trans hm
      · exact h2 y (by simp [hy])

/-- **C63** A trial whose simulation succeeds gets its own cost. -/
theorem success_cost (history : List K) (c : K) :
    evaluateScipy history (.ok c) = .ok (c, history ++ [c]) := rfl

/-- **C63** The cost given to a crashed trial: the exception is passed on if there is no trial yet; otherwise it is
the largest cost so far, times 1.1 while there are at most five. -/
theorem crash_cost (history : List K) (e : PyErr) :
    (history = [] → evaluateScipy history (.error e) = .error e) ∧
    (∀ m ∈ history, (∀ y ∈ history, y ≤ m) →
      evaluateScipy history (.error e) =
        .ok (if history.length ≤ 5 then m * (11 / 10) else m,
          history ++ [if history.length ≤ 5 then m * (11 / 10) else m])) := by
  constructor
  · rintro rfl; rfl
  · intro m hm hmax
    match history, hm, hmax with
    | x :: xs, hm, hmax =>
      obtain ⟨h1, h2⟩ := maxOf_spec x xs
      have he : maxOf x xs = m := le_antisymm (hmax _ h1) (h2 m hm)
      simp only [evaluateScipy, he]
      by_cases h5 : 5 < (x :: xs).length
      · rw [if_pos h5, if_neg (by omega)]
      · rw [if_neg h5, if_pos (by omega)]

/-- **C63 (partial)** A crashed trial costs at least as much as every trial so far, if no more than five trials have
been made and one of them has a cost that is not negative, or if there are more than five.
Missing: all costs negative within the first five trials (`crash_violated`). -/
theorem crash_worst_partial [IsStrictOrderedRing K] (history : List K) (e : PyErr) (c : K) (h' : List K)
    (h : evaluateScipy history (.error e) = .ok (c, h'))
    (hpos : history.length ≤ 5 → ∃ y ∈ history, 0 ≤ y) : ∀ y ∈ history, y ≤ c := by
  match history, h, hpos with
  | x :: xs, h, hpos =>
    obtain ⟨h1, h2⟩ := maxOf_spec x xs
    rw [(crash_cost (x :: xs) e).2 _ h1 h2] at h
    simp only [Except.ok.injEq, Prod.mk.injEq] at h
    intro y hy
    rw [← h.1]
    split_ifs with h5
    · obtain ⟨z, hz, hz0⟩ := hpos h5
      have := h2 z hz
      have := h2 y hy
      linarith
    · exact h2 y hy

/-- **C63 fails** when costs are negative (the usual way to maximise something): early crashes are cheaper than every
trial so far, so the minimiser is drawn towards them. -/
theorem crash_violated [IsStrictOrderedRing K] (history : List K) (e : PyErr) (hne : history ≠ [])
    (h5 : history.length ≤ 5) (x : K) (hx : ∀ y ∈ history, y = x) (hneg : x < 0) :
    ∃ c h', evaluateScipy history (.error e) = .ok (c, h') ∧ ∀ y ∈ history, c < y := by
  match history, hne with
  | z :: zs, _ =>
    have hm := (crash_cost (z :: zs) e).2 z (by simp) (fun y hy => by rw [hx y hy, hx z (by simp)])
    rw [if_pos h5] at hm
    refine ⟨_, _, hm, fun y hy => ?_⟩
    rw [hx y hy, hx z (by simp)]
    linarith

example : evaluateScipy [(-5000 : ℚ)] (.error .valueError) = .ok (-5500, [-5000, -5500]) ∧
    evaluateScipy [(3 : ℚ), 10, 7] (.error .valueError) = .ok (11, [3, 10, 7, 11]) ∧
    evaluateScipy [(1 : ℚ), 2, 3, 4, 5, 6] (.error .valueError) = .ok (6, [1, 2, 3, 4, 5, 6, 6]) := by
  decide +kernel

end Mapleaf.Run.Opt
