import Mathlib.Data.List.Basic
import Mathlib.Data.List.Nodup

/-! # Python dictionaries

An insertion-ordered Python `dict` as an association list. Assignment to an existing key keeps its place,
assignment to a new key appends, deletion removes. Python semantics, not MAPLEAF code. -/

set_option linter.unusedSectionVars false

namespace Mapleaf

/-- Exceptions the modelled code can raise. `circular` is the `ValueError` raised for circular includes and
`duplicateKey` the `ValueError` raised for duplicate keys (kept apart so that theorems can name them). -/
inductive PyErr
  | valueError | typeError | keyError | indexError | zeroDivision | attributeError | fileNotFound
  | circular | duplicateKey | runtimeError | outOfFuel
  deriving DecidableEq, Repr

/-- A Python dictionary: keys in insertion order. -/
abbrev Dict (κ ν : Type) := List (κ × ν)

namespace Dict
variable {κ ν : Type} [DecidableEq κ]

/-- `d.get(k)` -/
def get? : Dict κ ν → κ → Option ν
  | [], _ => none
  | (k', v) :: d, k => if k' = k then some v else get? d k

/-- `d[k] = v` -/
def set : Dict κ ν → κ → ν → Dict κ ν
  | [], k, v => [(k, v)]
  | (k', v') :: d, k, v => if k' = k then (k', v) :: d else (k', v') :: set d k v

/-- `del d[k]` / `d.pop(k)` (no effect when absent; callers guard) -/
def erase : Dict κ ν → κ → Dict κ ν
  | [], _ => []
  | (k', v') :: d, k => if k' = k then d else (k', v') :: erase d k

/-- `list(d.keys())` -/
def keys (d : Dict κ ν) : List κ := d.map Prod.fst

/-- `k in d` -/
def has (d : Dict κ ν) (k : κ) : Bool := (get? d k).isSome

/-- Well-formed: no key twice (always true of a Python dict). -/
def WF (d : Dict κ ν) : Prop := (keys d).Nodup

@[simp] theorem get?_nil (k : κ) : get? ([] : Dict κ ν) k = none := rfl
@[simp] theorem keys_nil : keys ([] : Dict κ ν) = [] := rfl
@[simp] theorem keys_cons (p : κ × ν) (d : Dict κ ν) : keys (p :: d) = p.1 :: keys d := rfl
theorem WF_nil : WF ([] : Dict κ ν) := List.nodup_nil

theorem get?_set (d : Dict κ ν) (k : κ) (v : ν) (k' : κ) :
    get? (set d k v) k' = if k = k' then some v else get? d k' := by
  induction d with
  | nil => simp [set, get?]
  | cons p d ih =>
    obtain ⟨a, b⟩ := p
    by_cases h : a = k
    · subst h; simp only [set, if_true, get?]; split <;> rfl
    · simp only [set, if_neg h, get?, ih]
      by_cases h2 : a = k'
      · subst h2; simp [Ne.symm h]
      · simp [h2]

@[simp] theorem get?_set_self (d : Dict κ ν) (k : κ) (v : ν) : get? (set d k v) k = some v := by
  simp [get?_set]

theorem get?_set_ne (d : Dict κ ν) {k k' : κ} (v : ν) (h : k ≠ k') :
    get? (set d k v) k' = get? d k' := by simp [get?_set, h]

theorem get?_eq_none_iff (d : Dict κ ν) (k : κ) : get? d k = none ↔ k ∉ keys d := by
  induction d with
  | nil => simp
  | cons p d ih =>
    obtain ⟨a, b⟩ := p
    by_cases h : a = k
    · subst h; simp [get?]
    · simp [get?, h, ih, Ne.symm h]

theorem get?_isSome_iff (d : Dict κ ν) (k : κ) : (get? d k).isSome = true ↔ k ∈ keys d := by
  rw [← not_iff_not, ← get?_eq_none_iff]; simp

theorem has_iff (d : Dict κ ν) (k : κ) : has d k = true ↔ k ∈ keys d := get?_isSome_iff d k

theorem has_false_iff (d : Dict κ ν) (k : κ) : has d k = false ↔ k ∉ keys d := by
  rw [← has_iff]; simp

theorem keys_set_of_mem (d : Dict κ ν) {k : κ} (v : ν) (h : k ∈ keys d) : keys (set d k v) = keys d := by
  induction d with
  | nil => simp at h
  | cons p d ih =>
    obtain ⟨a, b⟩ := p
    by_cases hk : a = k
    · subst hk; simp [set]
    · have : k ∈ keys d := by simpa [Ne.symm hk] using h
      simp [set, hk, ih this]

theorem set_of_not_mem (d : Dict κ ν) {k : κ} (v : ν) (h : k ∉ keys d) : set d k v = d ++ [(k, v)] := by
  induction d with
  | nil => rfl
  | cons p d ih =>
    obtain ⟨a, b⟩ := p
    simp only [keys_cons, List.mem_cons, not_or] at h
    simp [set, Ne.symm h.1, ih h.2]

theorem keys_set_of_not_mem (d : Dict κ ν) {k : κ} (v : ν) (h : k ∉ keys d) :
    keys (set d k v) = keys d ++ [k] := by
  rw [set_of_not_mem d v h]; simp [keys]

theorem mem_keys_set (d : Dict κ ν) (k : κ) (v : ν) (k' : κ) :
    k' ∈ keys (set d k v) ↔ k' = k ∨ k' ∈ keys d := by
  by_cases h : k ∈ keys d
  · rw [keys_set_of_mem d v h]
    constructor
    · exact Or.inr
    · rintro (rfl | h') <;> assumption
  · rw [keys_set_of_not_mem d v h]; simp [or_comm]

theorem WF_set {d : Dict κ ν} (hd : WF d) (k : κ) (v : ν) : WF (set d k v) := by
  unfold WF at *
  by_cases h : k ∈ keys d
  · rw [keys_set_of_mem d v h]; exact hd
  · rw [keys_set_of_not_mem d v h]
    exact List.nodup_append.2 ⟨hd, by simp, by
      intro a ha b hb e; simp at hb; subst hb; subst e; exact h ha⟩

theorem keys_erase_sublist (d : Dict κ ν) (k : κ) : (keys (erase d k)).Sublist (keys d) := by
  induction d with
  | nil => simp [erase]
  | cons p d ih =>
    obtain ⟨a, b⟩ := p
    by_cases h : a = k
    · simp [erase, h]
    · simp [erase, h, ih]

theorem WF_erase {d : Dict κ ν} (hd : WF d) (k : κ) : WF (erase d k) :=
  List.Nodup.sublist (keys_erase_sublist d k) hd

theorem get?_erase {d : Dict κ ν} (hd : WF d) (k k' : κ) :
    get? (erase d k) k' = if k = k' then none else get? d k' := by
  induction d with
  | nil => simp [erase]
  | cons p d ih =>
    obtain ⟨a, b⟩ := p
    have hd' : a ∉ keys d ∧ WF d := by simpa [WF] using hd
    by_cases h : a = k
    · subst h
      simp only [erase, if_true, get?]
      by_cases h2 : a = k'
      · subst h2; simpa using (get?_eq_none_iff d a).2 hd'.1
      · simp [h2]
    · simp only [erase, if_neg h, get?, ih hd'.2]
      by_cases h2 : a = k'
      · subst h2; simp [Ne.symm h]
      · simp [h2]

theorem mem_of_get? {d : Dict κ ν} {k : κ} {v : ν} (h : get? d k = some v) : (k, v) ∈ d := by
  induction d with
  | nil => simp at h
  | cons p d ih =>
    obtain ⟨a, b⟩ := p
    by_cases hk : a = k
    · subst hk; simp [get?] at h; simp [h]
    · simp [get?, hk] at h; exact List.mem_cons_of_mem _ (ih h)

theorem get?_of_mem {d : Dict κ ν} (hd : WF d) {k : κ} {v : ν} (h : (k, v) ∈ d) : get? d k = some v := by
  induction d with
  | nil => simp at h
  | cons p d ih =>
    obtain ⟨a, b⟩ := p
    have hd' : a ∉ keys d ∧ WF d := by simpa [WF] using hd
    rcases List.mem_cons.1 h with h | h
    · cases h; simp [get?]
    · have hk : k ∈ keys d := List.mem_map.2 ⟨_, h, rfl⟩
      have : a ≠ k := fun e => hd'.1 (e ▸ hk)
      simp [get?, this, ih hd'.2 h]

theorem mem_keys_of_mem {d : Dict κ ν} {p : κ × ν} (h : p ∈ d) : p.1 ∈ keys d := List.mem_map.2 ⟨p, h, rfl⟩

/-- Two dictionaries compare equal in Python iff they agree as maps. -/
def Equiv (d e : Dict κ ν) : Prop := ∀ k, get? d k = get? e k

theorem get?_perm {d e : Dict κ ν} (hd : WF d) (h : d.Perm e) (k : κ) : get? d k = get? e k := by
  have he : WF e := by
    unfold WF keys at *
    exact (h.map Prod.fst).nodup_iff.1 hd
  cases hv : get? d k with
  | some v => exact (get?_of_mem he (h.mem_iff.1 (mem_of_get? hv))).symm
  | none =>
    rw [get?_eq_none_iff] at hv
    refine ((get?_eq_none_iff e k).2 fun hk => hv ?_).symm
    exact ((h.map Prod.fst).mem_iff).2 hk

end Dict
end Mapleaf
