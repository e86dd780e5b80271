import Verif.SimDef.ParserModel

/-!
# Words of a command line

`shlex.split` cuts the lines `!create … from …`, `!replace …`, `!removeKeysContaining …` of a simulation definition into words
(simDefinition.py:321, 364). Words end at a space, a tab, a carriage return or a line feed and at nothing else;
what stands between quotes belongs to the word whatever it is.
-/

namespace Mapleaf.SimDef

open Mapleaf

/-- A character with no meaning of its own on a command line. -/
def PlainChar (c : Char) : Prop := c ∉ [' ', '\t', '\r', '\n', '\'', '"', '\\']

theorem shlexWs_iff (c : Char) : shlexWs c = true ↔ c ∈ [' ', '\t', '\r', '\n'] := by
  simp [shlexWs, or_assoc]

theorem shlex_step_ws {c : Char} (h : shlexWs c = true) (cs acc : Str) (b : Bool) :
    shlexAux (c :: cs) acc b none =
      if b then (shlexAux cs [] false none).map (acc.reverse :: ·) else shlexAux cs [] false none := by
  rw [shlexAux.eq_def]; dsimp only; rw [if_pos h]

theorem shlex_step_quote {c : Char} (h : ¬ shlexWs c = true) (hq : c = '\'' ∨ c = '"') (cs acc : Str) (b : Bool) :
    shlexAux (c :: cs) acc b none = shlexAux cs acc true (some c) := by
  rw [shlexAux.eq_def]; dsimp only; rw [if_neg h, if_pos hq]

theorem shlex_step_char {c : Char} (h : ¬ shlexWs c = true) (hq : ¬ (c = '\'' ∨ c = '"')) (hb : ¬ c = '\\')
    (cs acc : Str) (b : Bool) : shlexAux (c :: cs) acc b none = shlexAux cs (c :: acc) true none := by
  rw [shlexAux.eq_def]; dsimp only; rw [if_neg h, if_neg hq, if_neg hb]

theorem shlex_step_close (q : Char) (cs acc : Str) (b : Bool) :
    shlexAux (q :: cs) acc b (some q) = shlexAux cs acc true none := by
  rw [shlexAux.eq_def]; dsimp only; rw [if_pos rfl]

theorem shlex_step_in {c q : Char} (h : ¬ c = q) (hb : ¬ (c = '\\' ∧ q = '"')) (cs acc : Str) (b : Bool) :
    shlexAux (c :: cs) acc b (some q) = shlexAux cs (c :: acc) true (some q) := by
  rw [shlexAux.eq_def]; dsimp only; rw [if_neg h, if_neg hb]

theorem shlex_plain {w : Str} (hw : ∀ c ∈ w, PlainChar c) (rest acc : Str) (b : Bool) :
    shlexAux (w ++ rest) acc b none = shlexAux rest (w.reverse ++ acc) (b || !w.isEmpty) none := by
  induction w generalizing acc b with
  | nil => simp
  | cons c w ih =>
    have hc : PlainChar c := hw c (by simp)
    have h1 : ¬ shlexWs c = true := fun h => hc (by have := (shlexWs_iff c).1 h; simp at this ⊢; tauto)
    have h2 : ¬ (c = '\'' ∨ c = '"') := fun h => hc (by simp; tauto)
    have h3 : ¬ c = '\\' := fun h => hc (by simp; tauto)
    rw [List.cons_append, shlex_step_char h1 h2 h3, ih (fun d hd => hw d (by simp [hd]))]
    simp

/-- The last word of a line. -/
theorem shlex_last {w : Str} (hw : ∀ c ∈ w, PlainChar c) :
    shlexSplit w = .ok (if w = [] then [] else [w]) := by
  have := shlex_plain hw [] [] false
  rw [List.append_nil] at this
  rw [shlexSplit, this]
  cases w <;> simp [shlexAux]

/-- A word ends at each of the four white space characters; white space without a word before it is passed over. -/
theorem shlex_word {w : Str} (hw : ∀ c ∈ w, PlainChar c) {c : Char} (hc : c ∈ [' ', '\t', '\r', '\n']) (rest : Str) :
    shlexSplit (w ++ c :: rest) = (shlexSplit rest).map (fun ts => if w = [] then ts else w :: ts) := by
  rw [shlexSplit, shlex_plain hw, shlex_step_ws ((shlexWs_iff c).2 hc)]
  cases w with
  | nil => cases h : shlexAux rest [] false none <;> simp [shlexSplit, Except.map, h]
  | cons d w => simp [shlexSplit]

theorem shlex_single {w : Str} (hw : '\'' ∉ w) (rest acc : Str) (b : Bool) :
    shlexAux (w ++ '\'' :: rest) acc b (some '\'') = shlexAux rest (w.reverse ++ acc) true none := by
  induction w generalizing acc b with
  | nil => simp [shlex_step_close]
  | cons c w ih =>
    have h : c ≠ '\'' ∧ '\'' ∉ w := by simp at hw; exact ⟨fun h => hw.1 h.symm, hw.2⟩
    rw [List.cons_append, shlex_step_in h.1 (by simp), ih h.2]
    simp

theorem shlex_double {w : Str} (hw : '"' ∉ w) (hb : '\\' ∉ w) (rest acc : Str) (b : Bool) :
    shlexAux (w ++ '"' :: rest) acc b (some '"') = shlexAux rest (w.reverse ++ acc) true none := by
  induction w generalizing acc b with
  | nil => simp [shlex_step_close]
  | cons c w ih =>
    have h : c ≠ '"' ∧ '"' ∉ w := by simp at hw; exact ⟨fun h => hw.1 h.symm, hw.2⟩
    have h' : c ≠ '\\' ∧ '\\' ∉ w := by simp at hb; exact ⟨fun h => hb.1 h.symm, hb.2⟩
    rw [List.cons_append, shlex_step_in h.1 (by simp [h'.1]), ih h.2 h'.2]
    simp

/-- Between quotes everything belongs to the word, white space, `!` and `#` included; the quotes do not. -/
theorem shlex_quoted {w : Str} {c : Char} (hc : c ∈ [' ', '\t', '\r', '\n']) (rest : Str) :
    ('\'' ∉ w → shlexSplit ('\'' :: w ++ '\'' :: c :: rest) = (shlexSplit rest).map (w :: ·)) ∧
    ('"' ∉ w → '\\' ∉ w → shlexSplit ('"' :: w ++ '"' :: c :: rest) = (shlexSplit rest).map (w :: ·)) := by
  constructor
  · intro hw
    rw [shlexSplit, List.cons_append, shlex_step_quote (by decide) (by simp), shlex_single hw,
      shlex_step_ws ((shlexWs_iff c).2 hc)]
    simp [shlexSplit]
  · intro hw hb
    rw [shlexSplit, List.cons_append, shlex_step_quote (by decide) (by simp), shlex_double hw hb,
      shlex_step_ws ((shlexWs_iff c).2 hc)]
    simp [shlexSplit]

/-- A quote that is never closed is a `ValueError`. -/
theorem shlex_open {w : Str} (hw : '\'' ∉ w) : shlexSplit ('\'' :: w) = .error .valueError := by
  have : ∀ (acc : Str) b, shlexAux w acc b (some '\'') = .error .valueError := by
    induction w with
    | nil => intro acc b; rfl
    | cons c w ih =>
      intro acc b
      have h : c ≠ '\'' ∧ '\'' ∉ w := by simp at hw; exact ⟨fun h => hw.1 h.symm, hw.2⟩
      rw [shlex_step_in h.1 (by simp), ih h.2]
  rw [shlexSplit, shlex_step_quote (by decide) (by simp), this]

example : shlexSplit "!replace 'a b' \"c\"".toList = .ok ["!replace".toList, "a b".toList, "c".toList] := by
  decide +kernel

example : (∀ c ∈ "Rocket".toList, PlainChar c) ∧ '\'' ∉ "a b".toList := by
  constructor
  · intro c hc; simp at hc; rcases hc with rfl | rfl | rfl | rfl | rfl | rfl <;> simp [PlainChar]
  · decide +kernel

end Mapleaf.SimDef
