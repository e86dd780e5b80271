import Verif.SimDef.UsageModel
import Verif.SimDef.StoreProps
import Verif.SimDef.WriterProps

/-! # C111: the report of default values -/

namespace Mapleaf.SimDef.Report
open Str

/-- Specification: reading `key` is answered by the default value `v`, which the defaults hold under `k`: either under the key itself, or
under the class of the smallest item around the key that has a class. -/
def FromDefault (dict defaults : Dict Str Str) (key k v : Str) : Prop :=
  Dict.get? dict key = none ∧
  ((Dict.get? defaults key = some v ∧ k = key) ∨
   (Dict.get? defaults key = none ∧ ∃ n c, 1 ≤ n ∧ n ≤ (dictPath key).length ∧
      Dict.get? dict (join ['.'] ((splitC '.' key).take n) ++ ".class".toList) = some c ∧
      (∀ m, n < m → m ≤ (dictPath key).length →
        Dict.get? dict (join ['.'] ((splitC '.' key).take m) ++ ".class".toList) = none) ∧
      k = c ++ '.' :: join ['.'] ((splitC '.' key).drop n) ∧ Dict.get? defaults k = some v))

theorem classLoop_keys (s : Store) (key v dk : Str) (N : Nat) :
    (∃ ck, classLoop s key N = some (v, ck, dk)) ↔
    ∃ n c, 1 ≤ n ∧ n ≤ N ∧
      Dict.get? s.dict (join ['.'] ((splitC '.' key).take n) ++ ".class".toList) = some c ∧
      (∀ m, n < m → m ≤ N → Dict.get? s.dict (join ['.'] ((splitC '.' key).take m) ++ ".class".toList) = none) ∧
      dk = c ++ '.' :: join ['.'] ((splitC '.' key).drop n) ∧ Dict.get? s.defaults dk = some v := by
  induction N with
  | zero =>
    constructor
    · rintro ⟨ck, h⟩; simp [classLoop] at h
    · rintro ⟨n, c, h1, h2, _⟩; omega
  | succ N ih =>
    have hn : ((N : Int) + 1).toNat = N + 1 := by omega
    unfold classLoop
    simp only [splitKeyAtLevel, hn, dotClass]
    cases hc : Dict.get? s.dict (join ['.'] ((splitC '.' key).take (N + 1)) ++ ".class".toList) with
    | some c =>
      simp only
      constructor
      · rintro ⟨ck, h⟩
        cases hd : Dict.get? s.defaults (c ++ '.' :: join ['.'] ((splitC '.' key).drop (N + 1))) with
        | none => rw [hd] at h; cases h
        | some w =>
          rw [hd] at h
          simp only [Option.some.injEq, Prod.mk.injEq] at h
          refine ⟨N + 1, c, by omega, le_refl _, hc, by intro m h1 h2; omega, h.2.2.symm, ?_⟩
          rw [← h.2.2, hd, h.1]
      · rintro ⟨n, c', h1, h2, h3, h4, rfl, h5⟩
        have hnN : n = N + 1 := by
          by_contra hne
          have := h4 (N + 1) (by omega) (le_refl _)
          rw [hc] at this; cases this
        subst hnN
        rw [hc] at h3; cases h3
        rw [h5]; exact ⟨_, rfl⟩
    | none =>
      simp only
      rw [ih]
      constructor
      · rintro ⟨n, c, h1, h2, h3, h4, h5⟩
        refine ⟨n, c, h1, by omega, h3, ?_, h5⟩
        intro m hm1 hm2
        by_cases hm : m = N + 1
        · subst hm; exact hc
        · exact h4 m hm1 (by omega)
      · rintro ⟨n, c, h1, h2, h3, h4, h5⟩
        have hnN : n ≠ N + 1 := by rintro rfl; rw [hc] at h3; cases h3
        exact ⟨n, c, h1, by omega, h3, fun m hm1 hm2 => h4 m hm1 (by omega), h5⟩

theorem mem_setAdd (l : List Str) (x k : Str) : k ∈ setAdd l x ↔ k ∈ l ∨ k = x := by
  unfold setAdd
  split
  · constructor
    · exact Or.inl
    · rintro (h | rfl)
      · exact h
      · assumption
  · simp

theorem nodup_setAdd (l : List Str) (x : Str) (h : l.Nodup) : (setAdd l x).Nodup := by
  unfold setAdd
  split
  · exact h
  · rename_i hx
    rw [List.nodup_append]
    exact ⟨h, by simp, fun a ha b hb e => hx (by rw [List.mem_singleton] at hb; rw [← hb, ← e]; exact ha)⟩

/-- **C111.** One read adds to the defaults used exactly the key under which its answer was found in the defaults. -/
theorem read_records (s : Store) (key k : Str) : k ∈ (getValue s key).2.defaultsUsed ↔
    k ∈ s.defaultsUsed ∨ ∃ v, FromDefault s.dict s.defaults (strip key) k v := by
  unfold getValue FromDefault
  simp only
  cases h1 : Dict.get? s.dict (strip key) with
  | some w => simp
  | none =>
    cases h2 : Dict.get? s.defaults (strip key) with
    | some w =>
      simp only [mem_setAdd, true_and, reduceCtorEq, false_and, or_false, Option.some.injEq]
      constructor
      · rintro (h | h)
        · exact Or.inl h
        · exact Or.inr ⟨w, rfl, h⟩
      · rintro (h | ⟨_, _, h⟩)
        · exact Or.inl h
        · exact Or.inr h
    | none =>
      have hl : (getKeyLevel (strip key) + 1).toNat = (dictPath (strip key)).length := by rw [getKeyLevel_eq]; omega
      simp only [true_and, reduceCtorEq, false_and, false_or]
      have hk := fun v => classLoop_keys s (strip key) v k (dictPath (strip key)).length
      cases h3 : classBased s (strip key) with
      | none =>
        constructor
        · exact Or.inl
        · rintro (h | ⟨v, h⟩)
          · exact h
          · obtain ⟨ck, e⟩ := (hk v).2 h
            unfold classBased at h3
            rw [hl, e] at h3; cases h3
      | some r =>
        obtain ⟨v, ck, dk⟩ := r
        unfold classBased at h3
        rw [hl] at h3
        simp only [mem_setAdd]
        constructor
        · rintro (h | rfl)
          · exact Or.inl h
          · exact Or.inr ⟨v, (hk v).1 ⟨ck, h3⟩⟩
        · rintro (h | ⟨v', h⟩)
          · exact Or.inl h
          · obtain ⟨ck', e⟩ := (hk v').2 h
            rw [h3] at e
            simp only [Option.some.injEq, Prod.mk.injEq] at e
            exact Or.inr e.2.2.symm

theorem read_nodup (s : Store) (key : Str) (h : s.defaultsUsed.Nodup) : (getValue s key).2.defaultsUsed.Nodup := by
  unfold getValue
  simp only
  split
  · exact h
  · split
    · exact nodup_setAdd _ _ h
    · split
      · exact nodup_setAdd _ _ h
      · exact h

theorem step_keeps (s : Store) (o : Op) : (step s o).defaults = s.defaults ∧ (s.defaultsUsed.Nodup → (step s o).defaultsUsed.Nodup) ∧
    ((∀ key, o ≠ .get key) → (step s o).defaultsUsed = s.defaultsUsed) := by
  cases o with
  | get k => exact ⟨(getValue_readonly s k).2, read_nodup s k, fun h => absurd rfl (h k)⟩
  | set k v => exact ⟨rfl, id, fun _ => rfl⟩
  | remove k =>
    unfold step removeKey
    simp only
    split <;> exact ⟨rfl, id, fun _ => rfl⟩
  | setIfAbsent k v =>
    unfold step setIfAbsent
    simp only
    split <;> exact ⟨rfl, id, fun _ => rfl⟩

theorem history_records (ops : List Op) (s : Store) (h : s.defaultsUsed.Nodup) :
    (ops.foldl step s).defaults = s.defaults ∧ (ops.foldl step s).defaultsUsed.Nodup ∧
    ∀ k, k ∈ (ops.foldl step s).defaultsUsed ↔ k ∈ s.defaultsUsed ∨ ∃ pre key post v, ops = pre ++ .get key :: post ∧
      FromDefault (pre.foldl step s).dict s.defaults (strip key) k v := by
  induction ops generalizing s with
  | nil => exact ⟨rfl, h, fun k => by simp⟩
  | cons o ops ih =>
    obtain ⟨k1, k2, k3⟩ := step_keeps s o
    obtain ⟨i1, i2, i3⟩ := ih (step s o) (k2 h)
    refine ⟨by rw [List.foldl_cons, i1, k1], i2, fun k => ?_⟩
    rw [List.foldl_cons, i3 k, k1]
    have hfirst : k ∈ (step s o).defaultsUsed ↔ k ∈ s.defaultsUsed ∨ ∃ key v, o = .get key ∧ FromDefault s.dict s.defaults (strip key) k v := by
      by_cases ho : ∀ key, o ≠ .get key
      · rw [k3 ho]
        constructor
        · exact Or.inl
        · rintro (h | ⟨key, v, e, -⟩)
          · exact h
          · exact absurd e (ho key)
      · push Not at ho
        obtain ⟨key, rfl⟩ := ho
        rw [show step s (.get key) = (getValue s key).2 from rfl, read_records]
        constructor
        · rintro (h | ⟨v, h⟩)
          · exact Or.inl h
          · exact Or.inr ⟨key, v, rfl, h⟩
        · rintro (h | ⟨key', v, e, h⟩)
          · exact Or.inl h
          · cases e; exact Or.inr ⟨v, h⟩
    rw [hfirst]
    constructor
    · rintro ((h | ⟨key, v, rfl, h⟩) | ⟨pre, key, post, v, rfl, h⟩)
      · exact Or.inl h
      · exact Or.inr ⟨[], key, ops, v, rfl, h⟩
      · exact Or.inr ⟨o :: pre, key, post, v, rfl, h⟩
    · rintro (h | ⟨pre, key, post, v, e, h⟩)
      · exact Or.inl (Or.inl h)
      · cases pre with
        | nil =>
          obtain ⟨rfl, rfl⟩ := List.cons.inj e
          exact Or.inl (Or.inr ⟨key, v, rfl, h⟩)
        | cons o' pre =>
          obtain ⟨rfl, rfl⟩ := List.cons.inj e
          exact Or.inr ⟨pre, key, post, v, rfl, h⟩

theorem rows_ok (d : Dict Str Str) (ks vs : List Str) (h : List.Forall₂ (fun k v => Dict.get? d k = some v) ks vs) :
    rows d ks = .ok (List.zipWith column ks vs) := by
  induction h with
  | nil => rfl
  | cons h _ ih => simp only [rows, h, ih, List.zipWith_cons_cons]

theorem rows_iff (d : Dict Str Str) (ks ls : List Str) :
    rows d ks = .ok ls ↔ ∃ vs, List.Forall₂ (fun k v => Dict.get? d k = some v) ks vs ∧ ls = List.zipWith column ks vs := by
  constructor
  · induction ks generalizing ls with
    | nil => intro h; obtain rfl := Except.ok.inj h; exact ⟨[], .nil, rfl⟩
    | cons k ks ih =>
      intro h
      unfold rows at h
      split at h
      · cases h
      rename_i v hv
      split at h
      · cases h
      rename_i ls' hl
      obtain rfl := Except.ok.inj h
      obtain ⟨vs, h1, rfl⟩ := ih ls' hl
      exact ⟨v :: vs, .cons hv h1, rfl⟩
  · rintro ⟨vs, h, rfl⟩
    exact rows_ok d ks vs h

instance leTotal : Std.Total (fun a b : Str => strLe a b = true) := ⟨fun a b => by simpa using strLe_total a b⟩
instance leTrans : IsTrans Str (fun a b => strLe a b = true) := ⟨strLe_trans⟩

theorem sortedKeys_sorted (ks : List Str) : (sortedKeys ks).Pairwise (fun a b => strLe a b = true) := List.pairwise_insertionSort _ ks
theorem sortedKeys_perm (ks : List Str) : (sortedKeys ks).Perm ks := List.perm_insertionSort _ ks

/-- **C111.** The report of default values never fails, and after any history of reads and writes its lines are exactly the defaults that
answered a read, each once, in alphabetical order, with the value the defaults hold; nothing is printed if no default was used. -/
theorem default_report (ops : List Op) (dict defaults : Dict Str Str) :
    ∃ ks vs : List Str, ks.Nodup ∧ ks.Pairwise (fun a b => strLe a b = true) ∧
      (∀ k, k ∈ ks ↔ ∃ pre key post v, ops = pre ++ .get key :: post ∧
        FromDefault (pre.foldl step (newStore dict defaults)).dict defaults (strip key) k v) ∧
      List.Forall₂ (fun k v => Dict.get? defaults k = some v) ks vs ∧
      defaultsText (ops.foldl step (newStore dict defaults)) = .ok (if ks = [] then [] else
        "\nWarning: The following default values were used in this simulation:".toList ::
          List.zipWith (fun k v => (k ++ [':']) ++ List.replicate (44 - k.length) ' ' ++ v) ks vs ++
        ["\nIf this was not intended, override the default values by adding the above information to your simulation definition file.\n".toList]) := by
  obtain ⟨h1, h2, h3⟩ := history_records ops (newStore dict defaults) (by simp [newStore, resetTrackers])
  generalize hs : ops.foldl step (newStore dict defaults) = s at h1 h2 h3
  have hp := sortedKeys_perm s.defaultsUsed
  have hmem : ∀ k, k ∈ sortedKeys s.defaultsUsed ↔ ∃ pre key post v, ops = pre ++ .get key :: post ∧
        FromDefault (pre.foldl step (newStore dict defaults)).dict defaults (strip key) k v := by
    intro k
    rw [hp.mem_iff, h3 k]
    constructor
    · rintro (h | h)
      · cases h
      · exact h
    · exact Or.inr
  have hvals : ∀ ks : List Str, (∀ k ∈ ks, ∃ v, Dict.get? defaults k = some v) →
      ∃ vs, List.Forall₂ (fun k v => Dict.get? defaults k = some v) ks vs := by
    intro ks
    induction ks with
    | nil => exact fun _ => ⟨[], .nil⟩
    | cons k ks ih =>
      intro h
      obtain ⟨v, hv⟩ := h k (by simp)
      obtain ⟨vs, hvs⟩ := ih fun k' hk' => h k' (by simp [hk'])
      exact ⟨v :: vs, .cons hv hvs⟩
  obtain ⟨vs, hvs⟩ := hvals (sortedKeys s.defaultsUsed) (by
    intro k hk
    obtain ⟨pre, key, post, v, -, -, h⟩ := (hmem k).1 hk
    rcases h with ⟨h, rfl⟩ | ⟨-, n, c, -, -, -, -, -, h⟩
    · exact ⟨v, h⟩
    · exact ⟨v, h⟩)
  refine ⟨sortedKeys s.defaultsUsed, vs, hp.nodup_iff.2 h2, sortedKeys_sorted _, hmem, hvs, ?_⟩
  have hd : s.defaults = defaults := h1
  have hcol : (fun k v : Str => (k ++ [':']) ++ List.replicate (44 - k.length) ' ' ++ v) = column := by
    funext k v
    unfold column
    rw [List.length_append, List.length_singleton, show 45 - (k.length + 1) = 44 - k.length by omega]
  unfold defaultsText
  rw [hd, rows_ok defaults _ vs hvs, hcol]
  by_cases he : s.defaultsUsed = []
  · rw [if_neg (by rw [he]; simp), he]; rfl
  · rw [if_pos (List.length_pos_iff.2 he), if_neg]
    intro h
    rw [h] at hp
    exact he (List.nil_perm.1 hp)

/-- **C111.** The value stands in column 45, after the key and a colon, if the key has at most 44 characters … -/
theorem column_value (k v : Str) (h : k.length ≤ 44) : (column k v).take (k.length + 1) = k ++ [':'] ∧ (column k v).drop 45 = v := by
  unfold column
  constructor
  · rw [List.append_assoc, List.take_append_of_le_length (by simp)]
    exact List.take_of_length_le (by simp)
  · exact List.drop_left' (by simp; omega)

/-- … and directly after the colon otherwise. -/
theorem column_long (k v : Str) (h : 44 ≤ k.length) : column k v = k ++ [':'] ++ v := by
  unfold column
  rw [List.length_append, List.length_singleton, show 45 - (k.length + 1) = 0 by omega]
  simp

/-- **C111, C57.** The report of unused keys shows the pairs of `printUnusedKeys` in alphabetical order, and nothing if there are none. -/
theorem unused_text (fileName : Str) (s : Store) : (∀ l, printUnusedKeys s = .ok l → ∃ ls : List (Str × Str), ls.Perm l ∧
      ls.Pairwise (fun a b => strLe a.1 b.1 = true) ∧ unusedText fileName s = .ok (if l = [] then [] else
        ("\nWarning: The following keys were loaded from: ".toList ++ fileName ++ " but never accessed:".toList) ::
          ls.map (fun kv => column kv.1 kv.2) ++ [[]])) ∧
    (∀ e, printUnusedKeys s = .error e → unusedText fileName s = .error .keyError) := by
  have key : ∀ ks : List Str,
      ((∀ k ∈ ks, ∃ v, Dict.get? s.dict k = some v) → ∃ l, ks.foldr (fun k acc => match Dict.get? s.dict k, acc with
        | some v, .ok l => .ok ((k, v) :: l)
        | none, _ => .error .keyError
        | _, .error e => .error e) (.ok [] : Except PyErr (List (Str × Str))) = .ok l ∧ l = ks.map (fun k => (k, (Dict.get? s.dict k).getD []))) ∧
      ((∃ k ∈ ks, Dict.get? s.dict k = none) → ∃ e, ks.foldr (fun k acc => match Dict.get? s.dict k, acc with
        | some v, .ok l => .ok ((k, v) :: l)
        | none, _ => .error .keyError
        | _, .error e => .error e) (.ok [] : Except PyErr (List (Str × Str))) = .error e) := by
    intro ks
    induction ks with
    | nil => exact ⟨fun _ => ⟨[], rfl, rfl⟩, by rintro ⟨k, hk, -⟩; cases hk⟩
    | cons k ks ih =>
      refine ⟨fun h => ?_, fun h => ?_⟩
      · obtain ⟨v, hv⟩ := h k (by simp)
        obtain ⟨l, hl, rfl⟩ := ih.1 fun k' hk' => h k' (by simp [hk'])
        exact ⟨_, by rw [List.foldr_cons, hl, hv], by simp [hv]⟩
      · rw [List.foldr_cons]
        cases hk : Dict.get? s.dict k with
        | none => exact ⟨_, rfl⟩
        | some v =>
          obtain ⟨k', hk', e⟩ := h
          rcases List.mem_cons.1 hk' with rfl | hk'
          · rw [hk] at e; cases e
          · obtain ⟨e', he⟩ := ih.2 ⟨k', hk', e⟩
            rw [he]; exact ⟨_, rfl⟩
  have rowsAll : ∀ ks : List Str, (∀ k ∈ ks, ∃ v, Dict.get? s.dict k = some v) →
      rows s.dict ks = .ok (ks.map fun k => column k ((Dict.get? s.dict k).getD [])) := by
    intro ks
    induction ks with
    | nil => exact fun _ => rfl
    | cons k ks ih =>
      intro h
      obtain ⟨v, hv⟩ := h k (by simp)
      simp only [rows, hv, ih fun k' hk' => h k' (by simp [hk']), List.map_cons, Option.getD_some]
  have rowsErr : ∀ ks : List Str, (∃ k ∈ ks, Dict.get? s.dict k = none) → rows s.dict ks = .error .keyError := by
    intro ks
    induction ks with
    | nil => rintro ⟨k, hk, -⟩; cases hk
    | cons k ks ih =>
      rintro ⟨k', hk', e⟩
      cases hk : Dict.get? s.dict k with
      | none => simp only [rows, hk]
      | some v =>
        rcases List.mem_cons.1 hk' with rfl | hk'
        · rw [hk] at e; cases e
        · simp only [rows, hk, ih ⟨k', hk', e⟩]
  have hp := sortedKeys_perm s.unaccessed
  by_cases hall : ∀ k ∈ s.unaccessed, ∃ v, Dict.get? s.dict k = some v
  · obtain ⟨l, hl, hl'⟩ := (key s.unaccessed).1 hall
    have hpr : printUnusedKeys s = .ok l := hl
    refine ⟨fun l2 h2 => ?_, fun e he => by rw [hpr] at he; cases he⟩
    rw [hpr] at h2
    obtain rfl := Except.ok.inj h2
    refine ⟨(sortedKeys s.unaccessed).map (fun k => (k, (Dict.get? s.dict k).getD [])), by rw [hl']; exact hp.map _,
      List.pairwise_map.2 (sortedKeys_sorted _), ?_⟩
    unfold unusedText
    rw [rowsAll _ fun k hk => hall k (hp.mem_iff.1 hk)]
    by_cases he : s.unaccessed = []
    · rw [if_neg (by rw [he]; simp), if_pos (by rw [hl', he]; rfl)]
    · rw [if_pos (List.length_pos_iff.2 he), if_neg (by rw [hl']; simpa using he)]
      simp only [List.map_map]
      rfl
  · push Not at hall
    obtain ⟨k, hk, hno⟩ := hall
    have hno' : Dict.get? s.dict k = none := by
      cases h : Dict.get? s.dict k with
      | none => rfl
      | some v => exact absurd h (hno v)
    obtain ⟨e, he⟩ := (key s.unaccessed).2 ⟨k, hk, hno'⟩
    have hpr : printUnusedKeys s = .error e := he
    refine ⟨fun l hl => (by rw [hpr] at hl; cases hl), fun _ _ => ?_⟩
    unfold unusedText
    rw [rowsErr _ ⟨k, hp.mem_iff.2 hk, hno'⟩, if_pos (List.length_pos_iff.2 (List.ne_nil_of_mem hk))]

/-! ## The advice at the end of the report -/

/-- **C111.** Following the advice at the end of the report works for a default that was found under the key itself: with the reported line
in the definition, the definition's value is used. -/
theorem advice_followed (s : Store) (key k v v' : Str) (h : FromDefault s.dict s.defaults (strip key) k v)
    (hg : Dict.get? s.defaults (strip key) ≠ none) : (getValue (setValue s k v') key).1 = .ok v' := by
  rcases h.2 with ⟨-, rfl⟩ | ⟨h2, -⟩
  · exact get_after_set s (strip key) key v' (strip_idem key).symm
  · exact absurd h2 hg

/-- **C111 fails** for the defaults of a class: the reported line `Class.name: value`, added to the definition as the report advises, with
whatever value, is not used: the read is answered by the same default as before. -/
theorem advice_class_violated (s : Store) (key k v v' : Str) (h : FromDefault s.dict s.defaults (strip key) k v)
    (hg : Dict.get? s.defaults (strip key) = none) (hk : strip k ≠ strip key) (hc : ¬ ".class".toList <:+ strip k) :
    (getValue (setValue s k v') key).1 = .ok v := by
  obtain ⟨h1, h2⟩ := h
  rcases h2 with ⟨h2, -⟩ | ⟨-, n, c, n1, n2, hn, hm, rfl, hv⟩
  · rw [hg] at h2; cases h2
  rw [getValue_ok_iff]
  have hget : ∀ x, strip (c ++ '.' :: join ['.'] ((splitC '.' (strip key)).drop n)) ≠ x →
      Dict.get? (setValue s (c ++ '.' :: join ['.'] ((splitC '.' (strip key)).drop n)) v').dict x = Dict.get? s.dict x := by
    intro x hx
    unfold setValue
    simp only
    rw [Dict.get?_set, if_neg hx]
  have hcl : ∀ p : Str, strip (c ++ '.' :: join ['.'] ((splitC '.' (strip key)).drop n)) ≠ p ++ ".class".toList :=
    fun p e => hc (e ▸ List.suffix_append _ _)
  refine Or.inr (Or.inr ⟨by rw [hget _ hk]; exact h1, hg, n, c, n1, n2, by rw [hget _ (hcl _)]; exact hn, fun m m1 m2 => ?_, hv⟩)
  rw [hget _ (hcl _)]
  exact hm m m1 m2

/-- **C111 fails** for the defaults that are written in the program: a `tryGet…` that finds its key nowhere goes on with the value given in
the call, and the report does not show it. -/
theorem code_default_violated {α : Type} (conv : Str → Except PyErr α) (s : Store) (path key : Str) (dflt : α)
    (h1 : ∀ v, ¬ Lookup s.dict s.defaults (strip (path ++ '.' :: key)) v) (h2 : ∀ v, ¬ Lookup s.dict s.defaults (strip key) v) :
    tryGet conv s path key dflt = (.ok dflt, s) := by
  have herr : ∀ k, (∀ v, ¬ Lookup s.dict s.defaults (strip k) v) → getValue s k = (.error .keyError, s) := by
    intro k hk
    have he := (getValue_error_iff s k .keyError).2 ⟨rfl, fun ⟨v, hv⟩ => hk v hv⟩
    unfold getValue at he ⊢
    simp only at he ⊢
    split at he
    · cases he
    · split at he
      · cases he
      · split at he
        · cases he
        · rfl
  unfold tryGet getParsed getString relKey
  rw [herr _ h1]
  simp only [herr _ h2]

/-- **C111.** A printed definition names its file and then shows every entry in a line of its own, in the order of the dictionary. -/
theorem printed_lines (fileName : Str) (s : Store) (hf : '\n' ∉ fileName) (hd : ∀ kv ∈ s.dict, '\n' ∉ kv.1 ∧ '\n' ∉ kv.2) :
    splitC '\n' (toStr fileName s) = ("File: ".toList ++ fileName) :: s.dict.map (fun kv => kv.1 ++ ':' :: ' ' :: kv.2) ++ [[], []] := by
  have h : toStr fileName s = unlines (("File: ".toList ++ fileName) :: s.dict.map (fun kv => kv.1 ++ ':' :: ' ' :: kv.2) ++ [[]]) := by
    unfold toStr unlines
    simp [List.flatMap_append, List.flatMap_map]
  rw [h, splitC_unlines]
  · simp
  · intro l hl
    simp only [List.cons_append, List.mem_cons, List.mem_append, List.mem_map, List.not_mem_nil, or_false] at hl
    rcases hl with rfl | ⟨kv, hkv, rfl⟩ | rfl
    · simp [hf]
    · obtain ⟨h1, h2⟩ := hd kv hkv
      simp [h1, h2]
    · simp

/-! ## An example -/

/-- a definition with a set of fins and a default for fins -/
def finStore : Store := newStore [("Rocket.F.class".toList, "FinSet".toList), ("Rocket.F.mass".toList, "1".toList)]
  [("FinSet.numFins".toList, "4".toList), ("SimControl.endCondition".toList, "Apogee".toList)]

/-- the definition in print -/
example : toStr "f".toList finStore = "File: f\nRocket.F.class: FinSet\nRocket.F.mass: 1\n\n".toList := by decide +kernel

/-- two reads answered by defaults, one of them of a class, and one answered by the definition -/
example : defaultsText ([Op.get "SimControl.endCondition".toList, .get "Rocket.F.numFins".toList, .get "Rocket.F.mass".toList].foldl step finStore) =
    .ok ["\nWarning: The following default values were used in this simulation:".toList,
      "FinSet.numFins:                              4".toList, "SimControl.endCondition:                     Apogee".toList,
      "\nIf this was not intended, override the default values by adding the above information to your simulation definition file.\n".toList] := by
  decide +kernel

/-- the advice is followed for the fins and nothing changes -/
example : (getValue finStore "Rocket.F.numFins".toList).1 = .ok "4".toList ∧
    (getValue (setValue finStore "FinSet.numFins".toList "3".toList) "Rocket.F.numFins".toList).1 = .ok "4".toList ∧
    (getValue (setValue finStore "SimControl.endCondition".toList "Time".toList) "SimControl.endCondition".toList).1 = .ok "Time".toList := by
  decide +kernel

/-- the hypotheses of `advice_class_violated` -/
example : FromDefault finStore.dict finStore.defaults (strip "Rocket.F.numFins".toList) "FinSet.numFins".toList "4".toList ∧
    Dict.get? finStore.defaults (strip "Rocket.F.numFins".toList) = none ∧
    strip "FinSet.numFins".toList ≠ strip "Rocket.F.numFins".toList ∧ ¬ ".class".toList <:+ strip "FinSet.numFins".toList := by
  refine ⟨⟨by decide +kernel, Or.inr ⟨by decide +kernel, 2, "FinSet".toList, by decide, by decide +kernel, by decide +kernel, ?_, by decide +kernel,
    by decide +kernel⟩⟩, by decide +kernel, by decide +kernel, by decide +kernel⟩
  intro m h1 h2
  have : m = 3 := by
    have h3 : (dictPath (strip "Rocket.F.numFins".toList)).length = 3 := by decide +kernel
    omega
  subst this
  decide +kernel

/-- the hypotheses of `code_default_violated`: a mass that is given nowhere -/
example : tryGet (fun t => .ok t) finStore "Rocket.G".toList "x".toList "0".toList = (.ok "0".toList, finStore) := by decide +kernel

end Mapleaf.SimDef.Report
