import Verif.Motion.VecModel

/-! # C13: parsing the text form of a vector -/

namespace Mapleaf.Motion
open Str

/-! ## Specification -/

/-- A number token: non-empty, no white space, no separator, no opening bracket. -/
def Token (t : Str) : Prop :=
  t ≠ [] ∧ ∀ c ∈ t, isWs c = false ∧ c ≠ ',' ∧ c ≠ ';' ∧ c ≠ '(' ∧ c ≠ '[' ∧ c ≠ '{'

/-- The documented separators: `', '`, `'; '`, `','`, `';'` and white space (any non-empty run). -/
def Separator (s : Str) : Prop :=
  s = [',', ' '] ∨ s = [';', ' '] ∨ s = [','] ∨ s = [';'] ∨ (s ≠ [] ∧ ∀ c ∈ s, isWs c = true)

/-- The documented brackets: none, `()`, `[]`, `{}`. -/
def Brackets (o c : Str) : Prop :=
  (o = [] ∧ c = []) ∨ (o = ['('] ∧ c = [')']) ∨ (o = ['['] ∧ c = [']']) ∨ (o = ['{'] ∧ c = ['}'])

/-- Only white space. -/
def Blank (s : Str) : Prop := ∀ c ∈ s, isWs c = true

/-! ## Lemmas -/

theorem vt_strip_pad {a s b : Str} (ha : Blank a) (hb : Blank b) (hh : ∀ c, s.head? = some c → isWs c = false)
    (hl : ∀ c, s.getLast? = some c → isWs c = false) : strip (a ++ s ++ b) = s := by
  have hdrop : ∀ (w t : Str), Blank w → (∀ c, t.head? = some c → isWs c = false) → (w ++ t).dropWhile isWs = t := by
    intro w t hw ht
    induction w with
    | nil => cases t with
      | nil => rfl
      | cons c cs => simp [ht c rfl]
    | cons c cs ih => simp [hw c (by simp), ih (fun c hc => hw c (by simp [hc]))]
  have hrev : (b.reverse ++ s.reverse).dropWhile isWs = s.reverse := by
    apply hdrop
    · intro c hc; exact hb c (by simpa using hc)
    · intro c hc; exact hl c (by simpa using hc)
  unfold strip lstrip rstrip
  by_cases hs : s = []
  · subst hs
    have : (a ++ [] ++ b).dropWhile isWs = [] := by
      have := hdrop (a ++ b) [] (fun c hc => (List.mem_append.1 hc).elim (ha c) (hb c)) (by simp)
      simpa using this
    rw [this]; rfl
  · rw [List.append_assoc, hdrop a (s ++ b) ha, List.reverse_append, hrev, List.reverse_reverse]
    intro c hc
    cases s with
    | nil => exact absurd rfl hs
    | cons d ds => exact hh c (by simpa using hc)

theorem splitS_no_first {c d : Char} : ∀ {s : Str}, (∀ e ∈ s, e ≠ c) → splitS [c, d] 0 s = [s]
  | [], _ => rfl
  | e :: s, h => by
    have he : e ≠ c := h e (by simp)
    have ih := splitS_no_first (d := d) (s := s) (fun e he => h e (by simp [he]))
    unfold splitS
    rw [if_neg (by simp [List.isPrefixOf, Ne.symm he]), ih]

theorem splitS_no_second {c d : Char} : ∀ {s : Str}, (∀ e ∈ s, e ≠ d) → splitS [c, d] 0 s = [s]
  | [], _ => rfl
  | [e], _ => by
    unfold splitS
    rw [if_neg (by simp [List.isPrefixOf])]
    rfl
  | e :: f :: s, h => by
    have hf : f ≠ d := h f (by simp)
    have ih := splitS_no_second (c := c) (s := f :: s) (fun e he => h e (by simp [he]))
    unfold splitS
    rw [if_neg (by simp [List.isPrefixOf, Ne.symm hf]), ih]

theorem splitS_append {c d : Char} {b : Str} : ∀ {a : Str}, (∀ e ∈ a, e ≠ c) →
    splitS [c, d] 0 (a ++ c :: d :: b) = a :: splitS [c, d] 0 b
  | [], _ => by
    rw [List.nil_append]
    conv => lhs; unfold splitS
    rw [if_pos (by simp [List.isPrefixOf])]
    show [] :: splitS [c, d] 1 (d :: b) = _
    conv => lhs; unfold splitS
  | e :: a, h => by
    have he : e ≠ c := h e (by simp)
    have ih := splitS_append (d := d) (b := b) (a := a) (fun e he => h e (by simp [he]))
    rw [List.cons_append]
    conv => lhs; unfold splitS
    rw [if_neg (by simp [List.isPrefixOf, Ne.symm he]), ih]

theorem wsSplit_token {t : Str} (h : Token t) : wsSplit t = [t] := by
  unfold wsSplit
  rw [splitP_no_sep (fun c hc => (h.2 c hc).1)]
  simp [h.1]

theorem wsSplit_blank_append {w s : Str} (h : Blank w) : wsSplit (w ++ s) = wsSplit s := by
  induction w with
  | nil => rfl
  | cons c cs ih =>
    have hc : isWs c = true := h c (by simp)
    have ih' := ih (fun c hc => h c (by simp [hc]))
    unfold wsSplit at ih' ⊢
    simp only [List.cons_append, splitP, hc, if_true, List.filter_cons, List.isEmpty_nil, Bool.not_true]
    simpa using ih'

theorem wsSplit_token_append {t w s : Str} (h : Token t) (hw : Blank w) (hne : w ≠ []) :
    wsSplit (t ++ w ++ s) = t :: wsSplit s := by
  cases w with
  | nil => exact absurd rfl hne
  | cons c cs =>
    have hc : isWs c = true := hw c (by simp)
    have h2 := wsSplit_blank_append (w := cs) (s := s) (fun c hc => hw c (by simp [hc]))
    unfold wsSplit at h2 ⊢
    rw [List.append_assoc, List.cons_append, splitP_append_sep (fun c hc => (h.2 c hc).1) hc]
    rw [List.filter_cons, if_pos (by simp [h.1]), h2]

theorem token_mem {t : Str} (h : Token t) {c d : Char} (hc : c ∈ t) (hd : isWs d = true ∨ d = ',' ∨ d = ';') : c ≠ d := by
  obtain ⟨h1, h2, h3, _⟩ := h.2 c hc
  rcases hd with hd | rfl | rfl
  · intro h; rw [h, hd] at h1; cases h1
  · exact h2
  · exact h3

/-- Three tokens joined by any documented separator are split into exactly these tokens. -/
theorem splitComponents_spec {a b c sep : Str} (ha : Token a) (hb : Token b) (hc : Token c) (hs : Separator sep) :
    splitComponents (a ++ sep ++ b ++ sep ++ c) = [a, b, c] := by
  have mem5 : ∀ {e : Char}, e ∈ a ++ sep ++ b ++ sep ++ c → e ∈ a ∨ e ∈ b ∨ e ∈ c ∨ e ∈ sep := by
    intro e he; simp only [List.mem_append] at he; tauto
  have no : ∀ {d : Char}, (isWs d = true ∨ d = ',' ∨ d = ';') → d ∉ sep → ∀ e ∈ a ++ sep ++ b ++ sep ++ c, e ≠ d := by
    intro d hd hsep e he
    rcases mem5 he with h | h | h | h
    · exact token_mem ha h hd
    · exact token_mem hb h hd
    · exact token_mem hc h hd
    · rintro rfl; exact hsep h
  have hcomma : isWs ',' = false := rfl
  have hsemi : isWs ';' = false := rfl
  have split3 : ∀ d : Char, (isWs d = true ∨ d = ',' ∨ d = ';') → splitC d (a ++ [d] ++ b ++ [d] ++ c) = [a, b, c] := by
    intro d hd
    unfold splitC
    rw [show a ++ [d] ++ b ++ [d] ++ c = a ++ d :: (b ++ d :: c) by simp]
    rw [splitP_append_sep (fun e he => by simpa using token_mem ha he hd) (by simp),
      splitP_append_sep (fun e he => by simpa using token_mem hb he hd) (by simp),
      splitP_no_sep (fun e he => by simpa using token_mem hc he hd)]
  rcases hs with rfl | rfl | rfl | rfl | ⟨hne, hw⟩
  · have h1 : splitS [',', ' '] 0 (a ++ [',', ' '] ++ b ++ [',', ' '] ++ c) = [a, b, c] := by
      rw [show a ++ [',', ' '] ++ b ++ [',', ' '] ++ c = a ++ ',' :: ' ' :: (b ++ ',' :: ' ' :: c) by simp]
      rw [splitS_append (fun e he => token_mem ha he (by simp)), splitS_append (fun e he => token_mem hb he (by simp)),
        splitS_no_first (fun e he => token_mem hc he (by simp))]
    unfold splitComponents
    rw [h1]; rfl
  · have h0 : splitS [',', ' '] 0 (a ++ [';', ' '] ++ b ++ [';', ' '] ++ c) = [a ++ [';', ' '] ++ b ++ [';', ' '] ++ c] :=
      splitS_no_first (no (by simp) (by decide))
    have h1 : splitS [';', ' '] 0 (a ++ [';', ' '] ++ b ++ [';', ' '] ++ c) = [a, b, c] := by
      rw [show a ++ [';', ' '] ++ b ++ [';', ' '] ++ c = a ++ ';' :: ' ' :: (b ++ ';' :: ' ' :: c) by simp]
      rw [splitS_append (fun e he => token_mem ha he (by simp)), splitS_append (fun e he => token_mem hb he (by simp)),
        splitS_no_first (fun e he => token_mem hc he (by simp))]
    unfold splitComponents
    rw [h0]
    simp only [List.length_singleton, if_true, List.headD_cons]
    rw [h1]; rfl
  · have nows : ∀ e ∈ a ++ [','] ++ b ++ [','] ++ c, isWs e = false := by
      intro e he
      rcases mem5 he with h | h | h | h
      · exact (ha.2 e h).1
      · exact (hb.2 e h).1
      · exact (hc.2 e h).1
      · simp at h; subst h; exact hcomma
    have h0 : splitS [',', ' '] 0 (a ++ [','] ++ b ++ [','] ++ c) = [a ++ [','] ++ b ++ [','] ++ c] :=
      splitS_no_second (no (by decide) (by decide))
    have h1 : splitS [';', ' '] 0 (a ++ [','] ++ b ++ [','] ++ c) = [a ++ [','] ++ b ++ [','] ++ c] :=
      splitS_no_second (no (by decide) (by decide))
    have h2 : wsSplit (a ++ [','] ++ b ++ [','] ++ c) = [a ++ [','] ++ b ++ [','] ++ c] := by
      unfold wsSplit; rw [splitP_no_sep nows]; simp
    unfold splitComponents
    rw [h0]
    simp only [List.length_singleton, if_true, List.headD_cons]
    rw [h1]
    simp only [List.length_singleton, if_true, List.headD_cons]
    rw [h2]
    simp only [List.length_singleton, if_true, List.headD_cons]
    rw [split3 ',' (by simp)]; rfl
  · have nows : ∀ e ∈ a ++ [';'] ++ b ++ [';'] ++ c, isWs e = false := by
      intro e he
      rcases mem5 he with h | h | h | h
      · exact (ha.2 e h).1
      · exact (hb.2 e h).1
      · exact (hc.2 e h).1
      · simp at h; subst h; exact hsemi
    have h0 : splitS [',', ' '] 0 (a ++ [';'] ++ b ++ [';'] ++ c) = [a ++ [';'] ++ b ++ [';'] ++ c] :=
      splitS_no_second (no (by decide) (by decide))
    have h1 : splitS [';', ' '] 0 (a ++ [';'] ++ b ++ [';'] ++ c) = [a ++ [';'] ++ b ++ [';'] ++ c] :=
      splitS_no_second (no (by decide) (by decide))
    have h2 : wsSplit (a ++ [';'] ++ b ++ [';'] ++ c) = [a ++ [';'] ++ b ++ [';'] ++ c] := by
      unfold wsSplit; rw [splitP_no_sep nows]; simp
    have h3 : splitC ',' (a ++ [';'] ++ b ++ [';'] ++ c) = [a ++ [';'] ++ b ++ [';'] ++ c] := by
      unfold splitC
      exact splitP_no_sep (fun e he => by simpa using no (d := ',') (by simp) (by decide) e he)
    unfold splitComponents
    rw [h0]
    simp only [List.length_singleton, if_true, List.headD_cons]
    rw [h1]
    simp only [List.length_singleton, if_true, List.headD_cons]
    rw [h2]
    simp only [List.length_singleton, if_true, List.headD_cons]
    rw [h3]
    simp only [List.length_singleton, if_true, List.headD_cons]
    rw [split3 ';' (by simp)]
  · have hc1 : ',' ∉ sep := fun h => by rw [hw _ h] at hcomma; cases hcomma
    have hc2 : ';' ∉ sep := fun h => by rw [hw _ h] at hsemi; cases hsemi
    have h0 : splitS [',', ' '] 0 (a ++ sep ++ b ++ sep ++ c) = [a ++ sep ++ b ++ sep ++ c] :=
      splitS_no_first (no (by simp) hc1)
    have h1 : splitS [';', ' '] 0 (a ++ sep ++ b ++ sep ++ c) = [a ++ sep ++ b ++ sep ++ c] :=
      splitS_no_first (no (by simp) hc2)
    have h2 : wsSplit (a ++ sep ++ b ++ sep ++ c) = [a, b, c] := by
      rw [show a ++ sep ++ b ++ sep ++ c = a ++ sep ++ (b ++ sep ++ c) by simp]
      rw [wsSplit_token_append ha hw hne, wsSplit_token_append hb hw hne, wsSplit_token hc]
    unfold splitComponents
    rw [h0]
    simp only [List.length_singleton, if_true, List.headD_cons]
    rw [h1]
    simp only [List.length_singleton, if_true, List.headD_cons]
    rw [h2]; rfl

theorem head_token {a s : Str} (ha : Token a) : ∃ c cs, a ++ s = c :: cs ∧ isWs c = false ∧ c ≠ '(' ∧ c ≠ '[' ∧ c ≠ '{' := by
  cases a with
  | nil => exact absurd rfl ha.1
  | cons c cs =>
    obtain ⟨h1, _, _, h2, h3, h4⟩ := ha.2 c (by simp)
    exact ⟨c, cs ++ s, rfl, h1, h2, h3, h4⟩

theorem last_token {a s : Str} (ha : Token a) : ∀ c, (s ++ a).getLast? = some c → isWs c = false := by
  intro c hc
  cases h : a.getLast? with
  | none => exact absurd (List.getLast?_eq_none_iff.1 h) ha.1
  | some d =>
    rw [List.getLast?_append, h] at hc
    simp at hc; subst hc
    exact (ha.2 d (List.mem_of_getLast? h)).1

/-- **C13, parsing.** Every documented text form is read back: three number tokens, joined by any documented separator,
in any documented brackets (or none), with any white space around the text and just inside the brackets. -/
theorem parseVector_spec {K : Type} (float : Str → Option K) {tx ty tz sep o c p1 p2 p3 p4 : Str} {x y z : K}
    (hx : Token tx) (hy : Token ty) (hz : Token tz) (fx : float tx = some x) (fy : float ty = some y)
    (fz : float tz = some z) (hs : Separator sep) (hb : Brackets o c) (h1 : Blank p1) (h2 : Blank p2) (h3 : Blank p3)
    (h4 : Blank p4) :
    parseVector float (p1 ++ (o ++ (p2 ++ (tx ++ sep ++ ty ++ sep ++ tz) ++ p3) ++ c) ++ p4) = .ok ⟨x, y, z⟩ := by
  have hsplit := splitComponents_spec hx hy hz hs
  obtain ⟨d, ds, hd, hdw, hd1, hd2, hd3⟩ := head_token (s := sep ++ ty ++ sep ++ tz) hx
  have hbody : tx ++ sep ++ ty ++ sep ++ tz = d :: ds := by rw [← hd]; simp
  have hlast : ∀ e, (tx ++ sep ++ ty ++ sep ++ tz).getLast? = some e → isWs e = false :=
    last_token (s := tx ++ sep ++ ty ++ sep) hz
  have inner : ∀ q1 q2 : Str, Blank q1 → Blank q2 →
      strip (q1 ++ (tx ++ sep ++ ty ++ sep ++ tz) ++ q2) = tx ++ sep ++ ty ++ sep ++ tz := by
    intro q1 q2 hq1 hq2
    apply vt_strip_pad hq1 hq2 _ hlast
    rw [hbody]; intro e he; simp at he; subst he; exact hdw
  have blank_append : ∀ {u v : Str}, Blank u → Blank v → Blank (u ++ v) := by
    intro u v hu hv e he
    rcases List.mem_append.1 he with h | h
    · exact hu e h
    · exact hv e h
  have bracketed : ∀ (oc cc : Char), isWs oc = false → isWs cc = false → (oc = '[' ∨ oc = '(' ∨ oc = '{') →
      dropBrackets (p1 ++ ([oc] ++ (p2 ++ (tx ++ sep ++ ty ++ sep ++ tz) ++ p3) ++ [cc]) ++ p4)
        = .ok (tx ++ sep ++ ty ++ sep ++ tz) := by
    intro oc cc ho hc hoc
    have hst : strip (p1 ++ ([oc] ++ (p2 ++ (tx ++ sep ++ ty ++ sep ++ tz) ++ p3) ++ [cc]) ++ p4)
        = oc :: ((p2 ++ (tx ++ sep ++ ty ++ sep ++ tz) ++ p3) ++ [cc]) := by
      rw [vt_strip_pad h1 h4]
      · rfl
      · intro e he; simp at he; subst he; exact ho
      · intro e he; rw [List.getLast?_concat] at he; simp at he; subst he; exact hc
    unfold dropBrackets
    rw [hst]
    simp only
    rw [if_pos hoc, List.dropLast_concat, inner p2 p3 h2 h3]
  have final : ∀ s, dropBrackets s = .ok (tx ++ sep ++ ty ++ sep ++ tz) → parseVector float s = .ok ⟨x, y, z⟩ := by
    intro s h
    unfold parseVector
    rw [h]; simp only; rw [hsplit]; simp only; rw [fx, fy, fz]
  apply final
  rcases hb with ⟨rfl, rfl⟩ | ⟨rfl, rfl⟩ | ⟨rfl, rfl⟩ | ⟨rfl, rfl⟩
  · have : p1 ++ ([] ++ (p2 ++ (tx ++ sep ++ ty ++ sep ++ tz) ++ p3) ++ []) ++ p4
        = (p1 ++ p2) ++ (tx ++ sep ++ ty ++ sep ++ tz) ++ (p3 ++ p4) := by simp
    unfold dropBrackets
    rw [this, inner _ _ (blank_append h1 h2) (blank_append h3 h4), hbody]
    simp only
    rw [if_neg (by simp [hd1, hd2, hd3])]
  · exact bracketed '(' ')' rfl rfl (by simp)
  · exact bracketed '[' ']' rfl rfl (by simp)
  · exact bracketed '{' '}' rfl rfl (by simp)

/-- **C13, round trip.** Reading back what `str(v)` or `format(v)` printed gives `v` again, for every number formatting
whose output is one token that `float` reads back. -/
theorem parse_print {K : Type} (float : Str → Option K) (fmt : K → Str) (v : V3 K)
    (hf : ∀ k ∈ [v.x, v.y, v.z], Token (fmt k)) (hr : ∀ k ∈ [v.x, v.y, v.z], float (fmt k) = some k) :
    parseVector float (vecStr fmt v) = .ok v ∧ parseVector float (vecFormat fmt v) = .ok v := by
  have hnil : Blank [] := fun c hc => by cases hc
  have hsp : Separator [' '] := Or.inr (Or.inr (Or.inr (Or.inr ⟨by simp, fun c hc => by simp at hc; subst hc; rfl⟩)))
  constructor
  · have := parseVector_spec float (hf v.x (by simp)) (hf v.y (by simp)) (hf v.z (by simp)) (hr v.x (by simp)) (hr v.y (by simp))
      (hr v.z (by simp)) hsp
      (Or.inr (Or.inl ⟨rfl, rfl⟩)) hnil hnil hnil hnil
    simpa [vecStr] using this
  · have := parseVector_spec float (hf v.x (by simp)) (hf v.y (by simp)) (hf v.z (by simp)) (hr v.x (by simp)) (hr v.y (by simp))
      (hr v.z (by simp)) hsp
      (Or.inl ⟨rfl, rfl⟩) hnil hnil hnil hnil
    simpa [vecFormat] using this

/-- Anything that does not split into three readable numbers is refused: acceptance means exactly three components. -/
theorem parseVector_ok {K : Type} (float : Str → Option K) (s : Str) (v : V3 K) (h : parseVector float s = .ok v) :
    ∃ body a b c, dropBrackets s = .ok body ∧ splitComponents body = [a, b, c] ∧ float a = some v.x ∧
      float b = some v.y ∧ float c = some v.z := by
  unfold parseVector at h
  split at h
  · cases h
  · rename_i body hbody
    split at h
    · rename_i a b c hs
      split at h
      · rename_i x y z hx hy hz
        cases h
        exact ⟨body, a, b, c, hbody, hs, hx, hy, hz⟩
      · cases h
    · cases h

/-- A small `float` for the examples: decimal digits, optional minus sign. -/
def floatEx (s : Str) : Option Int :=
  match s with
  | '-' :: ds => if ds.isEmpty || !ds.all Char.isDigit then none
                 else some (-(ds.foldl (fun n c => 10 * n + (c.toNat - 48 : Nat)) 0))
  | ds => if ds.isEmpty || !ds.all Char.isDigit then none
          else some (ds.foldl (fun n c => 10 * n + (c.toNat - 48 : Nat)) 0)

example : Token "-12".toList ∧ Separator "\t ".toList ∧ Brackets ['{'] ['}'] ∧ floatEx "-12".toList = some (-12) := by
  refine ⟨⟨by decide, by decide⟩, Or.inr (Or.inr (Or.inr (Or.inr ⟨by decide, by decide⟩))),
    Or.inr (Or.inr (Or.inr ⟨rfl, rfl⟩)), by decide⟩
example : parseVector floatEx " { -12;3;45 } ".toList = .ok ⟨-12, 3, 45⟩ := by decide +kernel
example : parseVector floatEx "1, 2, 3, 4".toList = .error .valueError := by decide +kernel

/-- A text whose closing bracket is missing is not refused: its last character is dropped instead, and
`"(1 2 34"` is read as (1 2 3). -/
theorem parse_unclosed_violated : parseVector floatEx "(1 2 34".toList = .ok ⟨1, 2, 3⟩ := by decide +kernel

end Mapleaf.Motion
