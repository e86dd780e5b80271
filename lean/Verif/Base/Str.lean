import Mathlib.Data.List.Basic
import Mathlib.Data.List.Infix
import Mathlib.Data.List.TakeDrop

/-! # Python string operations used by MAPLEAF

Strings are lists of characters. White space is ASCII white space as recognised by Python's `str.strip` and
`str.split` (Unicode spaces are not modelled). -/

namespace Mapleaf

abbrev Str := List Char

namespace Str

/-- Python `str.isspace` on ASCII. -/
def isWs (c : Char) : Bool :=
  c = ' ' || c = '\t' || c = '\n' || c = '\r' || c = '\x0b' || c = '\x0c' || c = '\x1c' || c = '\x1d' ||
  c = '\x1e' || c = '\x1f'

/-- Split at every element satisfying `p`; never returns the empty list. -/
def splitP (p : Char → Bool) : Str → List Str
  | [] => [[]]
  | x :: xs =>
    if p x then [] :: splitP p xs
    else match splitP p xs with
      | h :: t => (x :: h) :: t
      | [] => [[x]]

/-- `s.split(c)` -/
def splitC (c : Char) (s : Str) : List Str := splitP (fun x => decide (x = c)) s

/-- `s.split()` -/
def wsSplit (s : Str) : List Str := (splitP isWs s).filter (fun t => !t.isEmpty)

/-- `sep.join(parts)` -/
def join (sep : Str) : List Str → Str
  | [] => []
  | [a] => a
  | a :: b :: t => a ++ sep ++ join sep (b :: t)

/-- `s.lstrip()` -/
def lstrip (s : Str) : Str := s.dropWhile isWs
/-- `s.rstrip()` -/
def rstrip (s : Str) : Str := (s.reverse.dropWhile isWs).reverse
/-- `s.strip()` -/
def strip (s : Str) : Str := rstrip (lstrip s)

/-- `pat in s` -/
def isIn (pat : Str) : Str → Bool
  | [] => pat.isEmpty
  | x :: xs => List.isPrefixOf pat (x :: xs) || isIn pat xs

/-- `s.replace(old, new)`: left-to-right, non-overlapping, all occurrences; for an empty `old` Python inserts
`new` before every character and at the end. `skip` counts characters of a match still to be dropped. -/
def replaceAux (old new : Str) : Nat → Str → Str
  | _, [] => []
  | k + 1, _ :: xs => replaceAux old new k xs
  | 0, x :: xs =>
    if List.isPrefixOf old (x :: xs) then new ++ replaceAux old new (old.length - 1) xs
    else x :: replaceAux old new 0 xs

/-- `s.replace("", new)` -/
def interleave (new : Str) : Str → Str
  | [] => new
  | x :: xs => new ++ x :: interleave new xs

def replace (s old new : Str) : Str := if old = [] then interleave new s else replaceAux old new 0 s

/-! ## Lemmas -/

theorem splitP_ne_nil (p : Char → Bool) (s : Str) : splitP p s ≠ [] := by
  cases s with
  | nil => simp [splitP]
  | cons x xs => unfold splitP; split; · simp
                 split <;> simp

theorem splitC_ne_nil (c : Char) (s : Str) : splitC c s ≠ [] := splitP_ne_nil _ s

theorem splitP_no_sep {p : Char → Bool} {s : Str} (h : ∀ c ∈ s, p c = false) : splitP p s = [s] := by
  induction s with
  | nil => rfl
  | cons x xs ih =>
    have hx : p x = false := h x (by simp)
    have ih' := ih (fun c hc => h c (by simp [hc]))
    simp [splitP, hx, ih']

theorem splitP_append_sep {p : Char → Bool} {a : Str} (h : ∀ c ∈ a, p c = false) {c : Char} (hc : p c = true)
    (b : Str) : splitP p (a ++ c :: b) = a :: splitP p b := by
  induction a with
  | nil => simp [splitP, hc]
  | cons x xs ih =>
    have hx : p x = false := h x (by simp)
    have ih' := ih (fun c hc => h c (by simp [hc]))
    simp [splitP, hx, ih']

theorem mem_splitP_no_sep {p : Char → Bool} {s t : Str} (h : t ∈ splitP p s) : ∀ c ∈ t, p c = false := by
  induction s generalizing t with
  | nil => simp [splitP] at h; subst h; simp
  | cons x xs ih =>
    unfold splitP at h
    split at h
    · rcases List.mem_cons.1 h with h | h
      · subst h; simp
      · exact ih h
    · rename_i hx
      split at h
      · rename_i hd tl he
        rcases List.mem_cons.1 h with h | h
        · subst h
          intro c hc
          rcases List.mem_cons.1 hc with hc | hc
          · subst hc; simpa using hx
          · exact ih (t := hd) (by rw [he]; simp) c hc
        · exact ih (by rw [he]; simp [h])
      · simp at h; subst h; simpa using hx

theorem join_cons (sep a : Str) {l : List Str} (h : l ≠ []) : join sep (a :: l) = a ++ sep ++ join sep l := by
  cases l with
  | nil => exact absurd rfl h
  | cons b t => rfl

/-- `'.'.join(s.split('.')) == s` -/
theorem join_splitC (c : Char) (s : Str) : join [c] (splitC c s) = s := by
  induction s with
  | nil => rfl
  | cons x xs ih =>
    unfold splitC at ih ⊢
    by_cases hx : x = c
    · subst hx
      have : splitP (fun y => decide (y = x)) (x :: xs) = [] :: splitP (fun y => decide (y = x)) xs := by
        simp [splitP]
      rw [this, join_cons _ _ (splitP_ne_nil _ _), ih]; simp
    · have hne := splitP_ne_nil (fun y => decide (y = c)) xs
      cases hs : splitP (fun y => decide (y = c)) xs with
      | nil => exact absurd hs hne
      | cons h t =>
        rw [hs] at ih
        have : splitP (fun y => decide (y = c)) (x :: xs) = (x :: h) :: t := by
          simp [splitP, hx, hs]
        rw [this]
        cases t with
        | nil => simpa [join] using ih
        | cons b t' => simpa [join] using ih

/-- Splitting a joined list of separator-free parts gives the parts back. -/
theorem splitC_join (c : Char) {l : List Str} (hne : l ≠ []) (h : ∀ s ∈ l, c ∉ s) :
    splitC c (join [c] l) = l := by
  induction l with
  | nil => exact absurd rfl hne
  | cons a l ih =>
    have ha : ∀ x ∈ a, (decide (x = c)) = false := by
      intro x hx; simp; rintro rfl; exact h a (by simp) hx
    cases l with
    | nil => exact splitP_no_sep ha
    | cons b t =>
      have := ih (by simp) (fun s hs => h s (by simp [hs]))
      unfold splitC at this ⊢
      rw [join_cons _ _ (by simp), List.append_assoc, List.singleton_append,
        splitP_append_sep ha (by simp), this]

theorem splitC_no_sep {c : Char} {s : Str} : ∀ t ∈ splitC c s, c ∉ t := by
  intro t ht hc
  have := mem_splitP_no_sep ht c hc
  simp at this

theorem splitC_injective (c : Char) {s t : Str} (h : splitC c s = splitC c t) : s = t := by
  rw [← join_splitC c s, h, join_splitC]

theorem isIn_iff (pat s : Str) : isIn pat s = true ↔ pat <:+: s := by
  induction s with
  | nil => simp [isIn]
  | cons x xs ih =>
    simp only [isIn, Bool.or_eq_true, List.isPrefixOf_iff_prefix, ih, List.infix_cons_iff]

end Str
end Mapleaf
