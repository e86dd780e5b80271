import Verif.SimDef.ParserModel

/-! # Text preparation of `.mapleaf` files: helper lemmas for C01, C02

Specification: the content of one line is what stands before its first unescaped comment marker, with the escape
characters removed. -/

namespace Mapleaf.SimDef
open Str

/-- The part of a line before the first `#` that is not preceded by a backslash (`p`: preceding character). -/
def cutComment : (p : Char) → Str → Str
  | _, [] => []
  | p, c :: cs => if c = '#' ∧ p ≠ '\\' then [] else c :: cutComment c cs

/-- Meaning of one line of text. -/
def content (l : Line) : Line := unescape (cutComment ' ' l)

theorem cutComment_prev {p q : Char} (hp : p ≠ '\\') (hq : q ≠ '\\') (s : Str) :
    cutComment p s = cutComment q s := by
  cases s <;> simp [cutComment, hp, hq]

theorem splitC_cons_self (c : Char) (s : Str) : splitC c (c :: s) = [] :: splitC c s := by
  simp [splitC, splitP]

theorem head_map_tail {α β : Type} (f : α → β) {l : List α} (h : l ≠ []) : f (l.head h) :: l.tail.map f = l.map f := by
  cases l with
  | nil => exact absurd rfl h
  | cons a t => rfl

theorem splitC_cons_ne {c x : Char} (h : x ≠ c) (s : Str) :
    splitC c (x :: s) = (x :: (splitC c s).head (splitC_ne_nil c s)) :: (splitC c s).tail := by
  show splitP _ _ = (x :: (splitP _ s).head _) :: (splitP _ s).tail
  rw [splitP]
  simp only [h, decide_false, Bool.false_eq_true, if_false]
  split
  · rename_i hs; simp [hs]
  · rename_i hs; exact absurd hs (splitP_ne_nil _ _)

theorem splitC_nil (c : Char) : splitC c [] = [[]] := rfl

theorem splitC_stripComments (s : Str) : ∀ (p : Char),
    splitC '\n' (stripComments false p s) =
      cutComment p ((splitC '\n' s).head (splitC_ne_nil _ _)) :: (splitC '\n' s).tail.map (cutComment ' ') ∧
    splitC '\n' (stripComments true p s) = [] :: (splitC '\n' s).tail.map (cutComment ' ') := by
  induction s with
  | nil => intro p; simp [stripComments, splitC_nil, cutComment]
  | cons c cs ih =>
    intro p
    obtain ⟨ihf, iht⟩ := ih c
    by_cases hc : c = '\n'
    · subst hc
      have hnl : ('\n' : Char) ≠ '#' := by decide
      have hn2 : ('\n' : Char) ≠ '\\' := by decide
      constructor
      · rw [stripComments, if_neg (by simp [hnl]), splitC_cons_self, ihf]
        simp only [splitC_cons_self, List.head_cons, List.tail_cons, cutComment]
        rw [cutComment_prev hn2 (by decide : (' ' : Char) ≠ '\\')]
        congr 1
        exact head_map_tail _ _
      · rw [stripComments, if_pos rfl, splitC_cons_self, ihf]
        simp only [splitC_cons_self, List.tail_cons]
        rw [cutComment_prev hn2 (by decide : (' ' : Char) ≠ '\\')]
        congr 1
        exact head_map_tail _ _
    · constructor
      · rw [stripComments]
        simp only [splitC_cons_ne hc, List.head_cons, List.tail_cons, cutComment]
        by_cases hh : c = '#' ∧ p ≠ '\\'
        · rw [if_pos hh, if_pos hh, iht]
        · rw [if_neg hh, if_neg hh, splitC_cons_ne hc]
          simp [ihf]
      · rw [stripComments, if_neg hc, iht]
        simp [splitC_cons_ne hc]

theorem splitC_unescape (s : Str) : splitC '\n' (unescape s) = (splitC '\n' s).map unescape := by
  induction s with
  | nil => simp [unescape, splitC_nil]
  | cons c cs ih =>
    rw [unescape]
    by_cases hc : c = '\n'
    · subst hc
      rw [if_neg (by simp), splitC_cons_self, splitC_cons_self, ih]; simp [unescape]
    · by_cases hh : c = '\\' ∧ cs.head? = some '#'
      · rw [if_pos hh, ih, splitC_cons_ne hc]
        obtain ⟨rfl, hh⟩ := hh
        cases cs with
        | nil => simp at hh
        | cons d ds =>
          simp at hh; subst hh
          simp only [splitC_cons_ne (by decide : ('#' : Char) ≠ '\n'), List.head_cons, List.map_cons, List.tail_cons]
          simp [unescape]
      · rw [if_neg hh, splitC_cons_ne hc, splitC_cons_ne hc]
        simp only [ih, List.map_cons]
        congr 1
        · have hne := splitC_ne_nil '\n' cs
          rw [unescape, if_neg]
          · simp
          · rintro ⟨rfl, h2⟩
            apply hh
            refine ⟨rfl, ?_⟩
            cases cs with
            | nil => simp [splitC_nil] at h2
            | cons d ds =>
              by_cases hd : d = '\n'
              · subst hd; simp [splitC_cons_self] at h2
              · simpa [splitC_cons_ne hd] using h2
        · simp

/-- The lines handed to the parser are the contents of the text's lines, blank ones dropped. -/
theorem prepLines_spec (text : Str) : prepLines text = ((splitC '\n' text).map content).filter nonBlank := by
  unfold prepLines content
  rw [splitC_unescape, (splitC_stripComments text ' ').1]
  congr 1
  rw [head_map_tail (cutComment ' ') (splitC_ne_nil '\n' text), List.map_map]
  rfl

theorem cutComment_of_no_hash {s : Str} (h : '#' ∉ s) (p : Char) : cutComment p s = s := by
  induction s generalizing p with
  | nil => rfl
  | cons c cs ih =>
    simp at h
    rw [cutComment, if_neg (by rintro ⟨rfl, _⟩; exact h.1 rfl), ih h.2]

theorem unescape_of_no_hash {s : Str} (h : '#' ∉ s) : unescape s = s := by
  induction s with
  | nil => rfl
  | cons c cs ih =>
    simp at h
    rw [unescape, if_neg, ih h.2]
    rintro ⟨_, hh⟩
    cases cs with
    | nil => simp at hh
    | cons d ds => simp at hh; subst hh; exact h.2 (by simp)

theorem content_of_no_hash {s : Str} (h : '#' ∉ s) : content s = s := by
  rw [content, cutComment_of_no_hash h, unescape_of_no_hash h]

/-- Text consisting of newline-terminated lines. -/
theorem splitC_unlines {ls : List Line} (h : ∀ l ∈ ls, '\n' ∉ l) : splitC '\n' (unlines ls) = ls ++ [[]] := by
  induction ls with
  | nil => rfl
  | cons l ls ih =>
    have h1 : ∀ c ∈ l, (decide (c = '\n')) = false := by
      intro c hc; simp; rintro rfl; exact h l (by simp) hc
    have ih := ih (fun l hl => h l (by simp [hl]))
    unfold splitC unlines at *
    rw [List.flatMap_cons, List.append_assoc, List.singleton_append, splitP_append_sep h1 (by simp), ih]
    rfl

theorem prepLines_unlines {ls : List Line} (h : ∀ l ∈ ls, '\n' ∉ l) :
    prepLines (unlines ls) = (ls.map content).filter nonBlank := by
  rw [prepLines_spec, splitC_unlines h]
  simp [content, cutComment, unescape, nonBlank, strip, lstrip, rstrip]

end Mapleaf.SimDef
