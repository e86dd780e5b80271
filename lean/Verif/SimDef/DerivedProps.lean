import Verif.SimDef.KeysProps
import Verif.SimDef.ParserMachine

/-! # C06: derived dictionaries -/

namespace Mapleaf.SimDef
open Str

/-! ## Dictionaries built by folding `set` -/

theorem fold_set_get? {α : Type} (f : α → Str × Str) (l : List α) (hnd : (l.map (fun a => (f a).1)).Nodup) :
    ∀ (acc : SDict) (k : Str), Dict.get? (l.foldl (fun acc a => Dict.set acc (f a).1 (f a).2) acc) k =
      (Dict.get? (l.map f) k).or (Dict.get? acc k) := by
  induction l with
  | nil => intro acc k; simp
  | cons a l ih =>
    intro acc k
    simp only [List.map_cons, List.nodup_cons] at hnd
    rw [List.foldl_cons, ih hnd.2, Dict.get?_set]
    simp only [List.map_cons, Dict.get?]
    by_cases h : (f a).1 = k
    · rw [if_pos h, if_pos h]
      have : Dict.get? (l.map f) k = none := by
        rw [Dict.get?_eq_none_iff, ← h]
        simpa [Dict.keys] using hnd.1
      rw [this]; rfl
    · rw [if_neg h, if_neg h]

theorem fold_set_WF {α : Type} (f : α → Str × Str) (l : List α) : ∀ (acc : SDict), Dict.WF acc →
    Dict.WF (l.foldl (fun acc a => Dict.set acc (f a).1 (f a).2) acc) := by
  induction l with
  | nil => intro acc h; simpa
  | cons a l ih => intro acc h; exact ih _ (Dict.WF_set h _ _)

theorem fold_set_keys {α : Type} (f : α → Str × Str) (l : List α) : ∀ (acc : SDict) (k : Str),
    k ∈ Dict.keys (l.foldl (fun acc a => Dict.set acc (f a).1 (f a).2) acc) ↔ k ∈ Dict.keys acc ∨ ∃ a ∈ l, (f a).1 = k := by
  induction l with
  | nil => intro acc k; simp
  | cons a l ih =>
    intro acc k
    rw [List.foldl_cons, ih, Dict.mem_keys_set]
    simp only [List.mem_cons, exists_eq_or_imp]
    constructor
    · rintro ((h | h) | h)
      · exact Or.inr (Or.inl h.symm)
      · exact Or.inl h
      · exact Or.inr (Or.inr h)
    · rintro (h | h | h)
      · exact Or.inl (Or.inr h)
      · exact Or.inl (Or.inl h.symm)
      · exact Or.inr h

/-- `relocate` as a fold over pairs. -/
theorem relocate_eq (src : SDict) (ks : List Str) (P N : Str) (h : ∀ k ∈ ks, k ∈ Dict.keys src) :
    relocate src ks P N =
      ks.foldl (fun acc k => Dict.set acc (replace k P N) ((Dict.get? src k).getD [])) [] := by
  unfold relocate
  have : ∀ (l : List Str) (acc : SDict), (∀ k ∈ l, k ∈ Dict.keys src) →
      l.foldl (fun acc k => match Dict.get? src k with
        | some v => Dict.set acc (replace k P N) v | none => acc) acc =
      l.foldl (fun acc k => Dict.set acc (replace k P N) ((Dict.get? src k).getD [])) acc := by
    intro l
    induction l with
    | nil => intro acc _; rfl
    | cons a l ih =>
      intro acc hl
      have ha : (Dict.get? src a).isSome = true := (Dict.get?_isSome_iff src a).2 (hl a (by simp))
      obtain ⟨v, hv⟩ := Option.isSome_iff_exists.1 ha
      simp only [List.foldl_cons, hv, Option.getD_some]
      exact ih _ (fun k hk => hl k (by simp [hk]))
  exact this ks [] h

/-! ## Textual replacement -/

theorem replaceAux_not_in {old new s : Str} (h : ¬ old <:+: s) : replaceAux old new 0 s = s := by
  induction s with
  | nil => simp [replaceAux]
  | cons x xs ih =>
    rw [List.infix_cons_iff, not_or] at h
    rw [replaceAux, if_neg (by rw [List.isPrefixOf_iff_prefix]; exact h.1), ih h.2]

theorem replaceAux_skip (old new : Str) : ∀ (s t : Str), replaceAux old new s.length (s ++ t) = replaceAux old new 0 t := by
  intro s
  induction s with
  | nil => intro t; rfl
  | cons x s ih => intro t; rw [List.cons_append, List.length_cons, replaceAux, ih]

/-- Replacing a leading occurrence and whatever follows. -/
theorem replace_prefix {old : Str} (hne : old ≠ []) (new s : Str) :
    replace (old ++ s) old new = new ++ replace s old new := by
  unfold replace
  rw [if_neg hne, if_neg hne]
  cases old with
  | nil => exact absurd rfl hne
  | cons x old =>
    rw [List.cons_append, replaceAux, if_pos (by rw [List.isPrefixOf_iff_prefix]; exact ⟨s, rfl⟩)]
    congr 1
    simp only [List.length_cons, Nat.add_sub_cancel]
    exact replaceAux_skip _ _ old s

/-- Without a further occurrence the key is exactly re-rooted. -/
theorem replace_reroots {P s : Str} (hne : P ≠ []) (h : ¬ P <:+: s) (N : Str) : replace (P ++ s) P N = N ++ s := by
  rw [replace_prefix hne]
  unfold replace
  rw [if_neg hne, replaceAux_not_in h]

/-! ## Relocation -/

theorem subkey_form {P k : Str} (hP : P ≠ []) (h : isSubKey P k = true) : ∃ s, k = P ++ '.' :: s := by
  rw [isSubKey_iff] at h
  obtain ⟨rest, h1, h2⟩ := h
  rw [dictPath_of_ne_nil hP] at h2
  exact (splitC_prefix_iff P k).1 ⟨rest, h1, h2⟩

theorem isSubKey_form {P : Str} (s : Str) (hP : P ≠ []) : isSubKey P (P ++ '.' :: s) = true := by
  rw [isSubKey_iff]
  obtain ⟨rest, h1, h2⟩ := (splitC_prefix_iff P (P ++ '.' :: s)).2 ⟨s, rfl⟩
  exact ⟨rest, h1, by rw [dictPath_of_ne_nil hP]; exact h2⟩

/-- **C06** The copied dictionary is the parent re-rooted, entry by entry, with nothing added. Missing part: keys in
which the parent's path occurs again below it, see `derived_repeat_violated`. -/
theorem relocate_spec_partial (D : SDict) (hD : Dict.WF D) (P N : Str) (hP : P ≠ [])
    (hocc : ∀ s, P ++ '.' :: s ∈ Dict.keys D → ¬ P <:+: '.' :: s) :
    (∀ s, Dict.get? (relocate D (getSubKeys D P) P N) (N ++ '.' :: s) = Dict.get? D (P ++ '.' :: s)) ∧
    (∀ k ∈ Dict.keys (relocate D (getSubKeys D P) P N), ∃ s, k = N ++ '.' :: s) ∧
    Dict.WF (relocate D (getSubKeys D P) P N) := by
  have hsub : ∀ k ∈ getSubKeys D P, k ∈ Dict.keys D := fun k hk => ((mem_getSubKeys_iff D P k).1 hk).1
  rw [relocate_eq D _ P N hsub]
  have hform : ∀ k ∈ getSubKeys D P, ∃ s, k = P ++ '.' :: s ∧ replace k P N = N ++ '.' :: s := by
    intro k hk
    have hk' := hk
    unfold getSubKeys at hk
    obtain ⟨s, rfl⟩ := subkey_form hP (List.mem_filter.1 hk).2
    exact ⟨s, rfl, replace_reroots hP (hocc s (hsub _ hk')) N⟩
  have hnd : ((getSubKeys D P).map (fun k => (replace k P N, (Dict.get? D k).getD []).1)).Nodup := by
    apply List.Nodup.map_on _ (getSubKeys_nodup D hD P)
    intro a ha b hb hab
    obtain ⟨s, rfl, e1⟩ := hform a ha
    obtain ⟨t, rfl, e2⟩ := hform b hb
    simp only [e1, e2] at hab
    have := List.append_cancel_left hab
    rw [this]
  refine ⟨?_, ?_, ?_⟩
  · intro s
    rw [fold_set_get? (fun k => (replace k P N, (Dict.get? D k).getD [])) _ hnd]
    simp only [Dict.get?_nil, Option.or_none]
    cases hg : Dict.get? D (P ++ '.' :: s) with
    | some v =>
      have hmem : P ++ '.' :: s ∈ getSubKeys D P := by
        unfold getSubKeys
        exact List.mem_filter.2 ⟨Dict.mem_keys_of_mem (Dict.mem_of_get? hg), isSubKey_form s hP⟩
      apply Dict.get?_of_mem
      · simpa [Dict.WF, Dict.keys, List.map_map, Function.comp_def] using hnd
      · refine List.mem_map.2 ⟨_, hmem, ?_⟩
        obtain ⟨t, e0, e1⟩ := hform _ hmem
        have : s = t := by have := List.append_cancel_left e0; simpa using this
        rw [this] at hg ⊢
        rw [hg] at *
        have e1' : replace (P ++ '.' :: t) P N = N ++ '.' :: t := by rw [← this]; rw [e1, this]
        rw [e1']; rfl
    | none =>
      rw [Dict.get?_eq_none_iff]
      intro hmem
      simp only [Dict.keys, List.map_map, List.mem_map, Function.comp] at hmem
      obtain ⟨k, hk, e⟩ := hmem
      obtain ⟨t, e0, e1⟩ := hform k hk
      rw [e1] at e
      have : t = s := by have := List.append_cancel_left e; simpa using this
      subst this
      rw [Dict.get?_eq_none_iff] at hg
      exact hg (e0 ▸ hsub k hk)
  · intro k hk
    rw [fold_set_keys (fun k => (replace k P N, (Dict.get? D k).getD []))] at hk
    rcases hk with hk | ⟨a, ha, e⟩
    · simp at hk
    · obtain ⟨t, _, e1⟩ := hform a ha
      exact ⟨t, by rw [← e]; exact e1⟩
  · exact fold_set_WF (fun k => (replace k P N, (Dict.get? D k).getD [])) _ [] Dict.WF_nil

/-! ## Edit commands -/

/-- Specification of one edit command. -/
inductive Edit
  | replace (old new : Str)
  | remove (s : Str)

def applyEdit (d : SDict) : Edit → SDict
  | .replace o n => replaceInDict d o n
  | .remove s => removeKeysContaining d s

/-- A line is the given edit command. -/
def IsEdit (l : Line) : Edit → Prop
  | .replace o n => ∃ a1 args, shlexSplit l = .ok ("!replace".toList :: a1 :: args) ∧ o = removeQuotes a1 ∧
      n = removeQuotes (("!replace".toList :: a1 :: args).getLast (by simp))
  | .remove s => ∃ args, shlexSplit l = .ok ("!removeKeysContaining".toList :: s :: args)

/-- **C06** The command lines are consumed in order, each performing its edit; the first line that is no command
starts the regular contents. -/
theorem commands_spec (ls : List Line) : ∀ (d d' : SDict) (rest : List Line),
    applyDerivedCommands d ls = .ok (d', rest) →
    ∃ cmds edits, ls = cmds ++ rest ∧ List.Forall₂ IsEdit cmds edits ∧ d' = edits.foldl applyEdit d := by
  induction ls with
  | nil => intro d d' rest h; simp [applyDerivedCommands] at h; exact ⟨[], [], by simp [h.2], .nil, h.1.symm⟩
  | cons l ls ih =>
    intro d d' rest h
    unfold applyDerivedCommands at h
    split at h
    · simp at h
    · simp at h
    · rename_i c0 args hs
      split at h
      · rename_i hc
        subst hc
        split at h
        · simp at h
        · rename_i a1 as
          obtain ⟨cmds, edits, e1, e2, e3⟩ := ih _ _ _ h
          exact ⟨l :: cmds, .replace _ _ :: edits, by simp [e1], .cons ⟨a1, as, hs, rfl, rfl⟩ e2, e3⟩
      · split at h
        · rename_i hc
          subst hc
          split at h
          · simp at h
          · rename_i a1 as
            obtain ⟨cmds, edits, e1, e2, e3⟩ := ih _ _ _ h
            exact ⟨l :: cmds, .remove _ :: edits, by simp [e1], .cons ⟨as, hs⟩ e2, e3⟩
        · split at h
          · simp at h; exact ⟨[], [], by simp [h.2], .nil, h.1.symm⟩
          · simp at h

theorem fold_erase (ks : List Str) : ∀ (d : SDict), Dict.WF d →
    Dict.WF (ks.foldl Dict.erase d) ∧ ∀ k, Dict.get? (ks.foldl Dict.erase d) k = if k ∈ ks then none else Dict.get? d k := by
  induction ks with
  | nil => intro d h; simp [h]
  | cons a ks ih =>
    intro d h
    obtain ⟨h1, h2⟩ := ih (Dict.erase d a) (Dict.WF_erase h a)
    refine ⟨h1, fun k => ?_⟩
    rw [List.foldl_cons, h2, Dict.get?_erase h]
    by_cases hk : k ∈ ks
    · simp [hk]
    · by_cases hak : a = k
      · subst hak; simp
      · simp [hk, hak, Ne.symm hak]

/-- **C06** `!removeKeysContaining s` removes exactly the entries whose key contains `s`. -/
theorem removeKeysContaining_spec (d : SDict) (hd : Dict.WF d) (s : Str) :
    Dict.WF (removeKeysContaining d s) ∧
    (∀ k, s <:+: k → Dict.get? (removeKeysContaining d s) k = none) ∧
    (∀ k, ¬ s <:+: k → Dict.get? (removeKeysContaining d s) k = Dict.get? d k) := by
  unfold removeKeysContaining
  obtain ⟨h1, h2⟩ := fold_erase ((Dict.keys d).filter (fun k => isIn s k)) d hd
  refine ⟨h1, ?_, ?_⟩
  · intro k hk
    rw [h2]
    split
    · rfl
    · rename_i hn
      rw [Dict.get?_eq_none_iff]
      intro hmem
      exact hn (List.mem_filter.2 ⟨hmem, (isIn_iff s k).2 hk⟩)
  · intro k hk
    rw [h2, if_neg]
    intro hmem
    exact hk ((isIn_iff s k).1 (List.mem_filter.1 hmem).2)

/-- **C06** `!replace old new` rewrites every key and every value, losing nothing provided no two keys become equal
(otherwise an entry is silently lost, see `derived_replace_collision_violated`). -/
theorem replaceInDict_spec_partial (d : SDict) (hd : Dict.WF d) (old new : Str)
    (hinj : ∀ a ∈ Dict.keys d, ∀ b ∈ Dict.keys d, replace a old new = replace b old new → a = b) :
    Dict.WF (replaceInDict d old new) ∧
    (∀ k v, Dict.get? d k = some v → Dict.get? (replaceInDict d old new) (replace k old new) = some (replace v old new)) ∧
    (∀ k ∈ Dict.keys (replaceInDict d old new), ∃ k0 ∈ Dict.keys d, k = replace k0 old new) := by
  unfold replaceInDict
  have hnd : (d.map (fun p => (replace p.1 old new, replace p.2 old new).1)).Nodup := by
    have : d.map (fun p => (replace p.1 old new, replace p.2 old new).1) =
        (Dict.keys d).map (fun k => replace k old new) := by simp [Dict.keys, Function.comp_def]
    rw [this]
    exact List.Nodup.map_on hinj hd
  refine ⟨fold_set_WF (fun p : Str × Str => (replace p.1 old new, replace p.2 old new)) d [] Dict.WF_nil, ?_, ?_⟩
  · intro k v hkv
    rw [fold_set_get? (fun p : Str × Str => (replace p.1 old new, replace p.2 old new)) d hnd]
    simp only [Dict.get?_nil, Option.or_none]
    apply Dict.get?_of_mem
    · simpa [Dict.WF, Dict.keys, List.map_map, Function.comp_def] using hnd
    · exact List.mem_map.2 ⟨(k, v), Dict.mem_of_get? hkv, rfl⟩
  · intro k hk
    rw [fold_set_keys (fun p : Str × Str => (replace p.1 old new, replace p.2 old new))] at hk
    rcases hk with hk | ⟨a, ha, e⟩
    · simp at hk
    · exact ⟨a.1, Dict.mem_keys_of_mem ha, e.symm⟩

theorem edit_WF (d : SDict) (hd : Dict.WF d) (e : Edit) : Dict.WF (applyEdit d e) := by
  cases e with
  | replace o n => exact fold_set_WF (fun p : Str × Str => (replace p.1 o n, replace p.2 o n)) d [] Dict.WF_nil
  | remove s => exact (removeKeysContaining_spec d hd s).1

theorem edits_WF (es : List Edit) : ∀ (d : SDict), Dict.WF d → Dict.WF (es.foldl applyEdit d) := by
  induction es with
  | nil => intro d h; simpa
  | cons e es ih => intro d h; exact ih _ (edit_WF d h e)

/-! ## Adding the derived entries -/

theorem addDerived_spec (d : SDict) : ∀ (D D' : SDict), Dict.WF d → addDerived D d = .ok D' →
    D' = D ++ d ∧ ∀ k ∈ Dict.keys d, k ∉ Dict.keys D := by
  induction d with
  | nil => intro D D' _ h; simp [addDerived] at h; simp [h]
  | cons p d ih =>
    obtain ⟨k, v⟩ := p
    intro D D' hwf h
    unfold addDerived at h
    split at h
    · simp at h
    · rename_i hno
      rw [Dict.has_iff] at hno
      have hwf' : k ∉ Dict.keys d ∧ Dict.WF d := by simpa [Dict.WF] using hwf
      obtain ⟨h1, h2⟩ := ih _ _ hwf'.2 h
      rw [Dict.set_of_not_mem _ _ hno] at h1 h2
      refine ⟨by simp [h1], ?_⟩
      intro k' hk'
      rcases List.mem_cons.1 hk' with rfl | hk'
      · exact hno
      · have := h2 k' hk'
        intro hc
        apply this
        unfold Dict.keys at hc ⊢
        rw [List.map_append, List.mem_append]; exact Or.inl hc

/-- Getting from an appended dictionary. -/
theorem get?_append (d e : SDict) (k : Str) : Dict.get? (d ++ e) k = (Dict.get? d k).or (Dict.get? e k) := by
  induction d with
  | nil => simp
  | cons p d ih =>
    obtain ⟨a, b⟩ := p
    simp only [List.cons_append, Dict.get?, ih]
    split <;> rfl

/-- Header of a derived dictionary taken from the same file: `!create N from P{`. -/
def IsHeader (l : Line) (n P : Str) : Prop :=
  ∃ c0 mid last, shlexSplit l = .ok (c0 :: n :: (mid ++ [last])) ∧ derivedSource last = .ok P ∧ ':' ∉ P

/-- What a derived dictionary from the same file adds: the relocated parent with the edits applied. -/
theorem derivedHead_spec {load : Str → Except PyErr SDict} {D : SDict} {l : Line} {ls : List Line}
    {curr : Str} {D' : SDict} {rest : List Line} {name n P : Str} (hh : IsHeader l n P)
    (h : derivedHead load D l ls curr = .ok (D', rest, name)) :
    name = qualify curr n ∧ ∃ cmds edits, ls = cmds ++ rest ∧ List.Forall₂ IsEdit cmds edits ∧
      D' = D ++ edits.foldl applyEdit (relocate D (getSubKeys D P) P name) ∧
      (∀ k ∈ Dict.keys (edits.foldl applyEdit (relocate D (getSubKeys D P) P name)), k ∉ Dict.keys D) := by
  obtain ⟨c0, mid, last, hs, hsrc, hcol⟩ := hh
  unfold derivedHead at h
  rw [hs] at h
  have hlast : (c0 :: n :: (mid ++ [last])).getLast (by simp) = last := by simp
  simp only [hlast, hsrc, if_neg hcol] at h
  split at h
  · cases h
  · split at h
    · cases h
    · rename_i hap
      split at h
      · cases h
      · rename_i hadd
        cases h
        refine ⟨rfl, ?_⟩
        obtain ⟨cmds, edits, e1, e2, e3⟩ := commands_spec _ _ _ _ hap
        have hsub : ∀ k ∈ getSubKeys D P, k ∈ Dict.keys D := fun k hk => ((mem_getSubKeys_iff D P k).1 hk).1
        have hwf : Dict.WF (edits.foldl applyEdit (relocate D (getSubKeys D P) P (qualify curr n))) := by
          apply edits_WF
          rw [relocate_eq D _ P _ hsub]
          exact fold_set_WF (fun k => (replace k P (qualify curr n), (Dict.get? D k).getD [])) _ [] Dict.WF_nil
        rw [e3] at hadd
        obtain ⟨h1, h2⟩ := addDerived_spec _ _ _ hwf hadd
        exact ⟨cmds, edits, e1, e2, h1, h2⟩

/-- **C06** (whatever the commands) Everything that was in the definition before is still there with its value: the
parent is unchanged and no derived key overwrites an existing one. -/
theorem derived_preserves {load : Str → Except PyErr SDict} {D : SDict} {l : Line} {ls : List Line}
    {curr : Str} {D' : SDict} {rest : List Line} {name n P : Str} (hh : IsHeader l n P)
    (h : derivedHead load D l ls curr = .ok (D', rest, name)) (k v : Str) (hk : Dict.get? D k = some v) :
    Dict.get? D' k = some v := by
  obtain ⟨_, cmds, edits, _, _, h1, _⟩ := derivedHead_spec hh h
  rw [h1, get?_append, hk]; rfl

/-- **C06** (no edit commands, parent path not repeated inside its keys) After `!create N from P{` the definition
holds, for every entry `P.s` of the parent, the entry `N.s` with the same value, and nothing else new. -/
theorem derived_copy_partial {load : Str → Except PyErr SDict} {D : SDict} (hD : Dict.WF D) {l l1 : Line} {ls : List Line}
    {curr : Str} {D' : SDict} {rest : List Line} {name n P : Str} (hh : IsHeader l n P) (hP : P ≠ [])
    (hocc : ∀ s, P ++ '.' :: s ∈ Dict.keys D → ¬ P <:+: '.' :: s)
    (h : derivedHead load D l (l1 :: ls) curr = .ok (D', rest, name))
    (hnc : ∀ e, ¬ IsEdit l1 e) :
    name = qualify curr n ∧ rest = l1 :: ls ∧
    (∀ s v, Dict.get? D (P ++ '.' :: s) = some v → Dict.get? D' (name ++ '.' :: s) = some v) ∧
    (∀ k, Dict.get? D' k ≠ Dict.get? D k → ∃ s, k = name ++ '.' :: s ∧ Dict.get? D' k = Dict.get? D (P ++ '.' :: s)) := by
  obtain ⟨hn, cmds, edits, e1, e2, h1, h2⟩ := derivedHead_spec hh h
  have hc : cmds = [] ∧ edits = [] := by
    cases e2 with
    | nil => exact ⟨rfl, rfl⟩
    | cons hc _ =>
      simp only [List.cons_append, List.cons.injEq] at e1
      rw [← e1.1] at hc
      exact absurd hc (hnc _)
  obtain ⟨rfl, rfl⟩ := hc
  simp only [List.foldl_nil] at h1 h2
  obtain ⟨r1, r2, _⟩ := relocate_spec_partial D hD P name hP hocc
  refine ⟨hn, by simpa using e1.symm, ?_, ?_⟩
  · intro s v hv
    have hr : Dict.get? (relocate D (getSubKeys D P) P name) (name ++ '.' :: s) = some v := by rw [r1, hv]
    have hno := h2 _ (Dict.mem_keys_of_mem (Dict.mem_of_get? hr))
    rw [h1, get?_append, (Dict.get?_eq_none_iff D _).2 hno, hr]; rfl
  · intro k hk
    rw [h1, get?_append] at hk
    cases hg : Dict.get? D k with
    | some v => rw [hg] at hk; exact absurd rfl hk
    | none =>
      rw [hg] at hk
      simp only [Option.none_or] at hk
      have hmem : k ∈ Dict.keys (relocate D (getSubKeys D P) P name) := by
        by_contra hc; exact hk ((Dict.get?_eq_none_iff _ _).2 hc)
      obtain ⟨s, rfl⟩ := r2 k hmem
      refine ⟨s, rfl, ?_⟩
      rw [h1, get?_append, hg]
      simp only [Option.none_or]
      exact r1 s

/-! ## Violations -/

/-- **C06 fails** when the parent's name occurs again inside a key: the copy is filed under a mangled name. -/
theorem derived_repeat_violated :
    parseLines (fun _ => .error .fileNotFound)
      ["Rocket{".toList, "RocketMotor.mass 5".toList, "}".toList, "!create R2 from Rocket{".toList, "}".toList] =
      .ok [("Rocket.RocketMotor.mass".toList, "5".toList), ("R2.R2Motor.mass".toList, "5".toList)] := by
  decide +kernel

/-- **C06 fails** when the bracket is separated by a space: the source path is taken to be empty and every key of the
file is copied under a mangled name. -/
theorem derived_bracket_violated :
    parseLines (fun _ => .error .fileNotFound)
      ["A{".toList, "x 5".toList, "}".toList, "!create B from A {".toList, "}".toList] =
      .ok [("A.x".toList, "5".toList), ("BAB.BxB".toList, "5".toList)] := by
  decide +kernel

/-- **C06 fails** when a replacement makes two keys equal: one parent entry is silently lost. -/
theorem derived_replace_collision_violated :
    parseLines (fun _ => .error .fileNotFound)
      ["A{".toList, "x 1".toList, "y 2".toList, "}".toList, "!create B from A{".toList, "!replace x y".toList, "}".toList] =
      .ok [("A.x".toList, "1".toList), ("A.y".toList, "2".toList), ("B.y".toList, "2".toList)] := by
  decide +kernel

-- Non-vacuity: a derived dictionary with both edit commands and an explicit override.
example : parseLines (fun _ => .error .fileNotFound)
      ["A{".toList, "x1 1".toList, "x2 2".toList, "y foo".toList, "}".toList, "!create B from A{".toList,
       "!replace foo bar".toList, "!removeKeysContaining x2".toList, "x1 7".toList, "}".toList] =
      .ok [("A.x1".toList, "1".toList), ("A.x2".toList, "2".toList), ("A.y".toList, "foo".toList),
        ("B.x1".toList, "7".toList), ("B.y".toList, "bar".toList)] := by
  decide +kernel

example : IsHeader "!create B from A{".toList "B".toList "A".toList :=
  ⟨"!create".toList, ["from".toList], "A{".toList, by decide +kernel, by decide +kernel, by decide⟩

example : ∀ e, ¬ IsEdit "x1 7".toList e := by
  have hs : shlexSplit "x1 7".toList = .ok ["x1".toList, "7".toList] := by decide +kernel
  intro e
  cases e with
  | replace o n => rintro ⟨a1, args, h, _⟩; rw [hs] at h; simp at h
  | remove s => rintro ⟨args, h⟩; rw [hs] at h; simp at h

end Mapleaf.SimDef
