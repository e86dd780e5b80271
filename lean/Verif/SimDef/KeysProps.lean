import Verif.SimDef.KeysModel

/-! # C05: listing the contents of a sub-dictionary is exact

Specification: a key is a path, the list of its dot-separated segments; the empty string names the root (empty
path). `Below p k` says that dictionary `p` is a proper ancestor of key `k`. -/

namespace Mapleaf.SimDef
open Str

/-! ## Specification -/

/-- Path of a *dictionary* name: the root is the empty path. -/
def dictPath (p : Str) : List Str := if p = [] then [] else splitC '.' p

/-- `k` lies strictly below dictionary `p`. -/
def Below (p k : Str) : Prop := ∃ rest, rest ≠ [] ∧ splitC '.' k = dictPath p ++ rest

/-- `k` is a direct entry of dictionary `p`. -/
def DirectlyBelow (p k : Str) : Prop := ∃ name, splitC '.' k = dictPath p ++ [name]

/-! ## Helper lemmas -/

theorem splitC_append_dot (a b : Str) : splitC '.' (a ++ '.' :: b) = splitC '.' a ++ splitC '.' b := by
  have key : ∀ l : List Str, l ≠ [] → (∀ s ∈ l, '.' ∉ s) → ∀ b,
      splitC '.' (join ['.'] l ++ '.' :: b) = l ++ splitC '.' b := by
    intro l
    induction l with
    | nil => intro h; exact absurd rfl h
    | cons x l ih =>
      intro _ hs b
      have hx : ∀ c ∈ x, (decide (c = '.')) = false := by
        intro c hc; simp; rintro rfl; exact hs x (by simp) hc
      cases l with
      | nil => simp only [join]; exact splitP_append_sep hx (by simp) b
      | cons y t =>
        rw [join_cons _ _ (by simp), List.append_assoc, List.append_assoc, List.singleton_append]
        have := ih (by simp) (fun s h => hs s (by simp [h])) b
        unfold splitC at this ⊢
        rw [splitP_append_sep hx (by simp), this]; simp
  have := key (splitC '.' a) (splitC_ne_nil _ _) splitC_no_sep b
  rwa [join_splitC] at this

theorem splitC_prefix_iff (p k : Str) :
    (∃ rest, rest ≠ [] ∧ splitC '.' k = splitC '.' p ++ rest) ↔ ∃ b, k = p ++ '.' :: b := by
  constructor
  · rintro ⟨rest, hne, h⟩
    refine ⟨join ['.'] rest, ?_⟩
    have hmem : ∀ s ∈ rest, '.' ∉ s := fun s hs => splitC_no_sep s (by rw [h]; simp [hs])
    apply splitC_injective '.'
    rw [splitC_append_dot, splitC_join '.' hne hmem, h]
  · rintro ⟨b, rfl⟩
    exact ⟨splitC '.' b, splitC_ne_nil _ _, splitC_append_dot p b⟩

theorem join_take_splitC (k : Str) (n : Nat) (hn : 0 < n) :
    splitC '.' (join ['.'] ((splitC '.' k).take n)) = (splitC '.' k).take n := by
  apply splitC_join
  · have := splitC_ne_nil '.' k
    cases h : splitC '.' k with
    | nil => exact absurd h this
    | cons a t => cases n with
      | zero => omega
      | succ n => simp
  · intro s hs; exact splitC_no_sep s (List.mem_of_mem_take hs)

theorem dictPath_nil : dictPath [] = [] := rfl

theorem getKeyLevel_eq (p : Str) : getKeyLevel p = (dictPath p).length - 1 := by
  unfold getKeyLevel dictPath
  by_cases h : p = []
  · subst h; rfl
  · simp [h]

theorem join_dictPath (p : Str) : join ['.'] (dictPath p) = p := by
  unfold dictPath; split
  · subst_vars; rfl
  · exact join_splitC _ _

theorem mem_foldl_setAdd {α : Type} (f : α → Option Str) (l : List α) (acc : List Str) (x : Str) :
    x ∈ l.foldl (fun r a => match f a with | some y => setAdd r y | none => r) acc ↔
      x ∈ acc ∨ ∃ a ∈ l, f a = some x := by
  induction l generalizing acc with
  | nil => simp
  | cons a l ih =>
    rw [List.foldl_cons, ih]
    cases h : f a with
    | none => simp [h]
    | some y =>
      simp only [List.mem_cons, exists_eq_or_imp, h, Option.some.injEq, setAdd]
      by_cases hy : y ∈ acc
      · rw [if_pos hy]
        constructor
        · rintro (h1 | h1) <;> tauto
        · rintro (h1 | h1 | h1)
          · exact Or.inl h1
          · subst h1; exact Or.inl hy
          · exact Or.inr h1
      · rw [if_neg hy]
        simp only [List.mem_append, List.mem_singleton]
        constructor
        · rintro ((h1 | h1) | h1)
          · exact Or.inl h1
          · exact Or.inr (Or.inl h1.symm)
          · exact Or.inr (Or.inr h1)
        · rintro (h1 | h1 | h1)
          · exact Or.inl (Or.inl h1)
          · exact Or.inl (Or.inr h1.symm)
          · exact Or.inr h1

theorem nodup_foldl_setAdd {α : Type} (f : α → Option Str) (l : List α) (acc : List Str) (h : acc.Nodup) :
    (l.foldl (fun r a => match f a with | some y => setAdd r y | none => r) acc).Nodup := by
  induction l generalizing acc with
  | nil => simpa
  | cons a l ih =>
    rw [List.foldl_cons]
    apply ih
    cases f a with
    | none => exact h
    | some y =>
      simp only [setAdd]
      split
      · exact h
      · rename_i hy
        exact List.nodup_append.2 ⟨h, by simp, by
          intro a ha b hb e; simp at hb; subst hb; subst e; exact hy ha⟩

/-! ## Theorems -/

/-- C05. `isSubKey(p, k)` holds exactly when dictionary `p` is a proper ancestor of `k` in the path tree. -/
theorem isSubKey_iff (p k : Str) : isSubKey p k = true ↔ Below p k := by
  unfold Below
  by_cases hp : p = []
  · subst hp
    simp only [isSubKey, if_true, dictPath_nil, List.nil_append, true_iff]
    exact ⟨_, splitC_ne_nil _ _, rfl⟩
  · have : dictPath p = splitC '.' p := by simp [dictPath, hp]
    rw [this, splitC_prefix_iff]
    unfold isSubKey
    rw [if_neg hp]
    constructor
    · intro h
      split at h
      · simp at h
      · rename_i hlen
        split at h
        · rename_i hc
          obtain ⟨h1, h2⟩ := hc
          refine ⟨k.drop (p.length + 1), ?_⟩
          have hk : p.length < k.length := by omega
          have h3 : k.drop p.length = k[p.length] :: k.drop (p.length + 1) := List.drop_eq_getElem_cons hk
          rw [List.getElem?_eq_getElem hk] at h2
          simp only [Option.some.injEq] at h2
          conv_lhs => rw [← List.take_append_drop p.length k, h1, h3, h2]
        · simp at h
    · rintro ⟨b, rfl⟩
      simp

example : isSubKey "Rocket".toList "Rocket.name".toList = true ∧ isSubKey "Rocket".toList "Rocket2.name".toList = false ∧
    isSubKey "Rocket".toList "Rocket".toList = false := by decide

/-- C05. `getSubKeys` returns exactly the keys below the dictionary, each once, in dictionary order. -/
theorem mem_getSubKeys_iff (D : Dict Str Str) (p k : Str) :
    k ∈ getSubKeys D p ↔ k ∈ Dict.keys D ∧ Below p k := by
  simp [getSubKeys, isSubKey_iff]

theorem getSubKeys_sublist (D : Dict Str Str) (p : Str) : (getSubKeys D p).Sublist (Dict.keys D) :=
  List.filter_sublist

theorem getSubKeys_nodup (D : Dict Str Str) (hD : Dict.WF D) (p : Str) : (getSubKeys D p).Nodup :=
  List.Nodup.sublist (getSubKeys_sublist D p) hD

theorem getImmediateSubKey_ok {p k : Str} (h : Below p k) :
    ∃ s, getImmediateSubKey p k = .ok s ∧ splitC '.' s = (splitC '.' k).take ((dictPath p).length + 1) := by
  have h1 : isSubKey p k = true := (isSubKey_iff p k).2 h
  refine ⟨_, by simp [getImmediateSubKey, h1]; rfl, ?_⟩
  have : ((dictPath p).length - 1 + 1 + 1 : Int).toNat = (dictPath p).length + 1 := by omega
  simp only [splitKeyAtLevel, getKeyLevel_eq, this]
  exact join_take_splitC k _ (by omega)

/-- C05. Asking for the child step of a key that is not below the dictionary raises `ValueError`. -/
theorem getImmediateSubKey_error {p k : Str} (h : ¬ Below p k) :
    getImmediateSubKey p k = .error .valueError := by
  have h1 : isSubKey p k = false := by rw [← Bool.not_eq_true, isSubKey_iff]; exact h
  simp [getImmediateSubKey, h1]

theorem directlyBelow_below {p k : Str} (h : DirectlyBelow p k) : Below p k := by
  obtain ⟨n, hn⟩ := h; exact ⟨[n], by simp, hn⟩

/-- C05. Immediate sub-keys are exactly the entries of the definition directly in that dictionary, once each. -/
theorem mem_getImmediateSubKeys_iff (D : Dict Str Str) (p k : Str) :
    k ∈ getImmediateSubKeys D p ↔ k ∈ Dict.keys D ∧ DirectlyBelow p k := by
  have hfold : getImmediateSubKeys D p = (Dict.keys D).foldl (fun r a =>
      match (if isSubKey p a then (match getImmediateSubKey p a with
        | .ok s => if Dict.has D s then some s else none | .error _ => none) else none : Option Str) with
      | some y => setAdd r y | none => r) [] := by
    unfold getImmediateSubKeys
    congr 1
    funext r a
    by_cases h1 : isSubKey p a = true
    · simp only [h1, if_true]
      cases getImmediateSubKey p a with
      | error e => rfl
      | ok s => simp only []; split <;> rfl
    · simp [h1]
  rw [hfold, mem_foldl_setAdd]
  simp only [List.not_mem_nil, false_or]
  constructor
  · rintro ⟨a, ha, h⟩
    by_cases h1 : isSubKey p a = true
    · obtain ⟨s, hs, hseg⟩ := getImmediateSubKey_ok ((isSubKey_iff p a).1 h1)
      rw [if_pos h1, hs] at h
      simp only [] at h
      split at h
      · rename_i hh
        cases h
        refine ⟨(Dict.has_iff D _).1 hh, ?_⟩
        obtain ⟨rest, hne, hr⟩ := (isSubKey_iff p a).1 h1
        cases rest with
        | nil => exact absurd rfl hne
        | cons n t => exact ⟨n, by rw [hseg, hr, List.take_length_add_append]; simp⟩
      · simp at h
    · simp [h1] at h
  · rintro ⟨hk, hd⟩
    refine ⟨k, hk, ?_⟩
    have hb := directlyBelow_below hd
    have h1 := (isSubKey_iff p k).2 hb
    obtain ⟨s, hs, hseg⟩ := getImmediateSubKey_ok hb
    obtain ⟨n, hn⟩ := hd
    have : s = k := by
      apply splitC_injective '.'
      rw [hseg, List.take_of_length_le]; rw [hn]; simp
    subst this
    rw [if_pos h1, hs]
    simp [(Dict.has_iff D s).2 hk]

theorem getImmediateSubKeys_nodup (D : Dict Str Str) (p : Str) : (getImmediateSubKeys D p).Nodup := by
  have hfold : getImmediateSubKeys D p = (Dict.keys D).foldl (fun r a =>
      match (if isSubKey p a then (match getImmediateSubKey p a with
        | .ok s => if Dict.has D s then some s else none | .error _ => none) else none : Option Str) with
      | some y => setAdd r y | none => r) [] := by
    unfold getImmediateSubKeys
    congr 1
    funext r a
    by_cases h1 : isSubKey p a = true
    · simp only [h1, if_true]
      cases getImmediateSubKey p a with
      | error e => rfl
      | ok s => simp only []; split <;> rfl
    · simp [h1]
  rw [hfold]
  exact nodup_foldl_setAdd _ _ _ List.nodup_nil

theorem getImmediateSubDicts_eq_foldl (D : Dict Str Str) (p : Str) :
    getImmediateSubDicts D p = (getSubKeys D p).foldl (fun r a =>
      match (if getKeyLevel a - getKeyLevel p > 1 then some (getParentKeyAtLevel a (getKeyLevel p + 1)) else none :
        Option Str) with
      | some y => setAdd r y | none => r) [] := by
  unfold getImmediateSubDicts
  simp only []
  congr 1
  funext r a
  split <;> rfl

/-- C05. The immediate sub-dictionaries of `p` are exactly the dictionaries one level below `p` that contain
at least one key of the definition; each is listed once. -/
theorem mem_getImmediateSubDicts_iff (D : Dict Str Str) (p s : Str) :
    s ∈ getImmediateSubDicts D p ↔
      (∃ name, splitC '.' s = dictPath p ++ [name]) ∧ ∃ k ∈ Dict.keys D, ∃ rest, rest ≠ [] ∧
        splitC '.' k = splitC '.' s ++ rest := by
  rw [getImmediateSubDicts_eq_foldl, mem_foldl_setAdd]
  simp only [List.not_mem_nil, false_or]
  have hlvl : ((dictPath p).length - 1 + 1 + 1 : Int).toNat = (dictPath p).length + 1 := by omega
  constructor
  · rintro ⟨k, hk, h⟩
    obtain ⟨hkD, rest, hne, hr⟩ := (mem_getSubKeys_iff D p k).1 hk
    split at h
    · rename_i hlev
      simp only [Option.some.injEq] at h
      have hs : splitC '.' s = (splitC '.' k).take ((dictPath p).length + 1) := by
        rw [← h]; simp only [getParentKeyAtLevel, getKeyLevel_eq, hlvl]
        exact join_take_splitC k _ (by omega)
      cases rest with
      | nil => exact absurd rfl hne
      | cons n t =>
        have hsn : splitC '.' s = dictPath p ++ [n] := by
          rw [hs, hr, List.take_length_add_append]; simp
        refine ⟨⟨n, hsn⟩, k, hkD, t, ?_, by rw [hsn, hr]; simp⟩
        rintro rfl
        rw [getKeyLevel_eq, getKeyLevel_eq] at hlev
        have hlen : (dictPath k).length ≤ (splitC '.' k).length := by unfold dictPath; split <;> simp
        rw [hr] at hlen
        simp at hlen
        omega
    · simp at h
  · rintro ⟨⟨n, hn⟩, k, hk, rest, hne, hr⟩
    have hkp : splitC '.' k = dictPath p ++ (n :: rest) := by rw [hr, hn]; simp
    refine ⟨k, (mem_getSubKeys_iff D p k).2 ⟨hk, n :: rest, by simp, hkp⟩, ?_⟩
    have hrl : 0 < rest.length := List.length_pos_iff.2 hne
    have hk0 : dictPath k = splitC '.' k := by
      unfold dictPath; rw [if_neg]
      rintro rfl
      have : (splitC '.' ([] : Str)).length = 1 := rfl
      rw [hkp] at this; simp at this; omega
    rw [if_pos]
    · simp only [Option.some.injEq]
      apply splitC_injective '.'
      simp only [getParentKeyAtLevel, getKeyLevel_eq, hlvl]
      rw [join_take_splitC k _ (by omega), hkp, hn, List.take_length_add_append]; simp
    · rw [getKeyLevel_eq, getKeyLevel_eq, hk0, hkp]; simp; omega

theorem getImmediateSubDicts_nodup (D : Dict Str Str) (p : Str) : (getImmediateSubDicts D p).Nodup := by
  rw [getImmediateSubDicts_eq_foldl]; exact nodup_foldl_setAdd _ _ _ List.nodup_nil

theorem dictPath_of_ne_nil {s : Str} (hs : s ≠ []) :
    dictPath s = splitC '.' s := by simp [dictPath, hs]

/-- C05. Every key below a dictionary is either one of its immediate keys or below exactly one of its immediate
sub-dictionaries, never both (sub-dictionaries with an empty name at the root excepted, which the empty string
cannot name). -/
theorem subKeys_partition (D : Dict Str Str) (p k : Str) (hk : k ∈ getSubKeys D p)
    (hroot : ∀ s ∈ getImmediateSubDicts D p, s ≠ []) :
    (k ∈ getImmediateSubKeys D p ∧ ∀ s ∈ getImmediateSubDicts D p, k ∉ getSubKeys D s) ∨
    (k ∉ getImmediateSubKeys D p ∧ ∃ s ∈ getImmediateSubDicts D p, k ∈ getSubKeys D s ∧
      ∀ s' ∈ getImmediateSubDicts D p, k ∈ getSubKeys D s' → s' = s) := by
  obtain ⟨hkD, rest, hne, hr⟩ := (mem_getSubKeys_iff D p k).1 hk
  cases rest with
  | nil => exact absurd rfl hne
  | cons n t =>
    cases t with
    | nil =>
      left
      refine ⟨(mem_getImmediateSubKeys_iff D p k).2 ⟨hkD, n, hr⟩, ?_⟩
      intro s hs hks
      obtain ⟨⟨m, hm⟩, -⟩ := (mem_getImmediateSubDicts_iff D p s).1 hs
      obtain ⟨-, rest', hne', hr'⟩ := (mem_getSubKeys_iff D s k).1 hks
      rw [dictPath_of_ne_nil (hroot s hs), hm, hr] at hr'
      have h1 := congrArg List.length hr'
      have h2 := List.length_pos_iff.2 hne'
      simp only [List.length_append, List.length_cons, List.length_nil] at h1; omega
    | cons m t' =>
      right
      refine ⟨?_, ?_⟩
      · intro h
        obtain ⟨-, n', hn'⟩ := (mem_getImmediateSubKeys_iff D p k).1 h
        have := congrArg List.length (hr.symm.trans hn'); simp at this
      · have hnd : '.' ∉ n := splitC_no_sep (s := k) n (by rw [hr]; simp)
        have hpnd : ∀ x ∈ dictPath p ++ [n], '.' ∉ x := by
          intro x hx
          exact splitC_no_sep (s := k) x (by rw [hr]; simp at hx ⊢; tauto)
        have hseg : splitC '.' (join ['.'] (dictPath p ++ [n])) = dictPath p ++ [n] :=
          splitC_join '.' (by simp) hpnd
        have hmem : join ['.'] (dictPath p ++ [n]) ∈ getImmediateSubDicts D p :=
          (mem_getImmediateSubDicts_iff D p _).2
            ⟨⟨n, hseg⟩, k, hkD, m :: t', by simp, by rw [hseg, hr]; simp⟩
        refine ⟨_, hmem, (mem_getSubKeys_iff D _ k).2 ⟨hkD, m :: t', by simp, ?_⟩, ?_⟩
        · rw [dictPath_of_ne_nil (hroot _ hmem), hseg, hr]; simp
        · intro s' hs' hks'
          obtain ⟨⟨m', hm'⟩, -⟩ := (mem_getImmediateSubDicts_iff D p s').1 hs'
          obtain ⟨-, rest', hne', hr'⟩ := (mem_getSubKeys_iff D s' k).1 hks'
          rw [dictPath_of_ne_nil (hroot s' hs'), hm', hr] at hr'
          apply splitC_injective '.'
          rw [hseg, hm']
          have : n :: m :: t' = [m'] ++ rest' := by
            rw [List.append_assoc] at hr'; exact List.append_cancel_left hr'
          simp at this; rw [this.1]

/-- C05. `findKeysContaining` returns exactly the keys containing all the given pieces, `None` if there are none. -/
theorem findKeysContaining_spec (D : Dict Str Str) (pats : List Str) :
    match findKeysContaining D pats with
    | some l => l ≠ [] ∧ ∀ k, k ∈ l ↔ k ∈ Dict.keys D ∧ ∀ s ∈ pats, s <:+: k
    | none => ∀ k ∈ Dict.keys D, ∃ s ∈ pats, ¬ s <:+: k := by
  unfold findKeysContaining
  simp only []
  by_cases h : 0 < (List.filter (fun k => pats.all fun s => isIn s k) (Dict.keys D)).length
  · rw [if_pos h]
    refine ⟨List.length_pos_iff.1 h, fun k => ?_⟩
    simp [List.mem_filter, isIn_iff]
  · rw [if_neg h]
    intro k hk
    by_contra hcon
    push Not at hcon
    apply h
    apply List.length_pos_iff.2
    apply List.ne_nil_of_mem (a := k)
    simp only [List.mem_filter, hk, true_and, List.all_eq_true, isIn_iff]
    exact hcon

/-- Concrete non-trivial case: prefix-sharing names and two levels. -/
example :
    let D : Dict Str Str := [("R.a".toList, []), ("R.S1.m".toList, []), ("R.S10.m".toList, []), ("R.S1.T.z".toList, []), ("Q".toList, [])]
    getSubKeys D "R.S1".toList = ["R.S1.m".toList, "R.S1.T.z".toList] ∧
    getImmediateSubDicts D "R".toList = ["R.S1".toList, "R.S10".toList] ∧
    getImmediateSubKeys D "R".toList = ["R.a".toList] ∧ getImmediateSubDicts D [] = ["R".toList] := by decide

end Mapleaf.SimDef
