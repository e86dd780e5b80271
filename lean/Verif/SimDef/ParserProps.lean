import Verif.SimDef.ParserText
import Verif.SimDef.ParserMachine

/-! # C02, C03, C56: reading a `.mapleaf` text -/

namespace Mapleaf.SimDef
open Str

/-! ## C02: comments, blank lines, white space -/

theorem join_nl_split {ls : List Line} (hne : ls ≠ []) (h : ∀ l ∈ ls, '\n' ∉ l) :
    splitC '\n' (join ['\n'] ls) = ls := splitC_join '\n' hne h

/-- **C02** A line that is blank once its comment is removed can be inserted anywhere (or deleted). -/
theorem blank_or_comment_line_ignored (load : Str → Except PyErr SDict) (pre post : List Line) (l : Line)
    (hne : pre ++ post ≠ []) (hnl : ∀ x ∈ pre ++ l :: post, '\n' ∉ x) (hb : strip (content l) = []) :
    parseText load (join ['\n'] (pre ++ l :: post)) = parseText load (join ['\n'] (pre ++ post)) := by
  have h2 : ∀ x ∈ pre ++ post, '\n' ∉ x := by
    intro x hx; apply hnl; simp at hx ⊢; tauto
  unfold parseText
  rw [prepLines_spec, prepLines_spec, join_nl_split (by simp) hnl, join_nl_split hne h2]
  have : nonBlank (content l) = false := by simp [nonBlank, hb]
  simp [this]

theorem strip_nil : strip [] = [] := rfl

theorem strip_of_all_ws {s : Str} (h : ∀ c ∈ s, isWs c = true) : strip s = [] := by
  have : lstrip s = [] := by
    unfold lstrip
    induction s with
    | nil => rfl
    | cons c cs ih => simp [h c (by simp), ih (fun c hc => h c (by simp [hc]))]
  rw [strip, this]; rfl

/-- A comment-only line (white space, then `#…`) is such a line. -/
theorem comment_line_blank (ws : Str) (hw : ∀ c ∈ ws, isWs c = true) (cmt : Str) :
    strip (content (ws ++ '#' :: cmt)) = [] := by
  have hcut : ∀ p, p ≠ '\\' → cutComment p (ws ++ '#' :: cmt) = ws := by
    induction ws with
    | nil => intro p hp; simp [cutComment, hp]
    | cons c cs ih =>
      intro p hp
      have hc := hw c (by simp)
      have h1 : c ≠ '#' := by rintro rfl; revert hc; decide
      have h2 : c ≠ '\\' := by rintro rfl; revert hc; decide
      rw [List.cons_append, cutComment, if_neg (by tauto), ih (fun c hc => hw c (by simp [hc])) c h2]
  have hno : '#' ∉ ws := by intro hm; have := hw _ hm; revert this; decide
  rw [content, hcut ' ' (by decide), unescape_of_no_hash hno]
  exact strip_of_all_ws hw

theorem cutComment_append_comment (l cmt : Str) (p : Char) (hp : (p :: l).getLast (by simp) ≠ '\\') :
    cutComment p (l ++ '#' :: cmt) = cutComment p l := by
  induction l generalizing p with
  | nil => simp at hp; simp [cutComment, hp]
  | cons c cs ih =>
    rw [List.cons_append, cutComment, cutComment]
    split
    · rfl
    · rw [ih c (by simpa using hp)]

/-- **C02** Comment text appended to any line of a file changes nothing (the marker must not be escaped, i.e. the
line must not end in a backslash). -/
theorem trailing_comment_ignored (load : Str → Except PyErr SDict) (pre post : List Line) (l cmt : Line)
    (hnl : ∀ x ∈ pre ++ (l ++ '#' :: cmt) :: post, '\n' ∉ x) (hesc : (' ' :: l).getLast (by simp) ≠ '\\') :
    parseText load (join ['\n'] (pre ++ (l ++ '#' :: cmt) :: post)) =
      parseText load (join ['\n'] (pre ++ l :: post)) := by
  have h2 : ∀ x ∈ pre ++ l :: post, '\n' ∉ x := by
    intro x hx
    simp only [List.mem_append, List.mem_cons] at hx
    rcases hx with hx | rfl | hx
    · exact hnl x (by simp [hx])
    · have := hnl (x ++ '#' :: cmt) (by simp); simp at this; exact this.1
    · exact hnl x (by simp [hx])
  unfold parseText
  rw [prepLines_spec, prepLines_spec, join_nl_split (by simp) hnl, join_nl_split (by simp) h2]
  have : content (l ++ '#' :: cmt) = content l := by
    rw [content, content, cutComment_append_comment l cmt ' ' hesc]
  simp [this]

/-- Specification of escaping: every `#` is preceded by a backslash. -/
def escape : Str → Str
  | [] => []
  | c :: cs => if c = '#' then '\\' :: '#' :: escape cs else c :: escape cs

/-- **C02** An escaped comment marker stays part of the line: whatever text is escaped is read back unchanged. -/
theorem content_escape (s : Str) : content (escape s) = s := by
  have hcut : ∀ p, cutComment p (escape s) = escape s := by
    induction s with
    | nil => intro p; rfl
    | cons c cs ih =>
      intro p
      rw [escape]
      split
      · simp [cutComment, ih]
      · rename_i h; simp [cutComment, h, ih]
  rw [content, hcut]
  have hhead : ∀ t : Str, (escape t).head? ≠ some '#' := by
    intro t
    cases t with
    | nil => simp [escape]
    | cons c cs => rw [escape]; split <;> simp_all
  clear hcut
  induction s with
  | nil => rfl
  | cons c cs ih =>
    rw [escape]
    split
    · rename_i h
      rw [unescape, if_pos (by simp), unescape, if_neg (by simp), ih, h]
    · rw [unescape, if_neg (by rintro ⟨_, h⟩; exact hhead _ h), ih]

/-- First word of a line. -/
def firstWord (l : Line) : Option Str := (wsSplit (strip l)).head?

theorem run_strip_congr (load : Str → Except PyErr SDict) : ∀ (ls ls' : List Line) (D : SDict)
    (stk : List (Str × Bool)), ls.map strip = ls'.map strip →
    (∀ l ∈ ls, firstWord l ≠ some "!create".toList) → run load ls D stk = run load ls' D stk := by
  intro ls
  induction ls with
  | nil =>
    intro ls' D stk h _
    have : ls' = [] := by simpa using h.symm
    subst this; rfl
  | cons l ls ih =>
    intro ls' D stk h hc
    cases ls' with
    | nil => simp at h
    | cons l' ls' =>
      simp only [List.map_cons, List.cons.injEq] at h
      obtain ⟨hl, hr⟩ := h
      cases stk with
      | nil => rw [run_closed, run_closed]
      | cons top stk =>
        obtain ⟨curr, allow⟩ := top
        have hc1 := hc l (by simp)
        have ih' := fun D stk => ih ls' D stk hr (fun x hx => hc x (by simp [hx]))
        rw [run_cons, run_cons, ← hl]
        unfold firstWord at hc1
        cases hs : wsSplit (strip l) with
        | nil => rfl
        | cons tok toks =>
          rw [hs] at hc1
          have : tok ≠ "!create".toList := by simpa using hc1
          simp only [this, if_false, ih']

/-- **C02** (leading and trailing white space) Two texts whose lines agree after removing comments, blank lines and
the white space around each line define the same dictionary. Missing part: derived dictionaries (`!create`), see
`derived_indentation_violated`. -/
theorem whitespace_irrelevant_partial (load : Str → Except PyErr SDict) (t1 t2 : Str)
    (h : ((splitC '\n' t1).map (fun l => strip (content l))).filter (fun l => !l.isEmpty) =
         ((splitC '\n' t2).map (fun l => strip (content l))).filter (fun l => !l.isEmpty))
    (hc : ∀ l ∈ splitC '\n' t1, firstWord (content l) ≠ some "!create".toList) :
    parseText load t1 = parseText load t2 := by
  unfold parseText
  rw [parseLines_eq_run, parseLines_eq_run]
  have key : ∀ t, (prepLines t).map strip =
      ((splitC '\n' t).map (fun l => strip (content l))).filter (fun l => !l.isEmpty) := by
    intro t
    rw [prepLines_spec, List.filter_map, List.map_map, List.filter_map]
    rfl
  apply run_strip_congr
  · rw [key, key, h]
  · intro l hl
    rw [prepLines_spec] at hl
    simp only [List.mem_filter, List.mem_map] at hl
    obtain ⟨⟨x, hx, rfl⟩, _⟩ := hl
    exact hc x hx

/-- **C02 fails** for indentation inside derived dictionaries: an unknown command is refused when it starts in the
first column, but silently becomes an ordinary key when it is indented. -/
theorem derived_indentation_violated :
    ∃ t1 t2 : Str, (splitC '\n' t1).map strip = (splitC '\n' t2).map strip ∧
      parseText (fun _ => .error .fileNotFound) t1 = .error .valueError ∧
      parseText (fun _ => .error .fileNotFound) t2 =
        .ok [("A.x".toList, "1".toList), ("B.x".toList, "1".toList), ("B.!foo".toList, "bar".toList)] := by
  refine ⟨"A{\nx 1\n}\n!create B from A{\n!foo bar\n}".toList,
    "A{\nx 1\n}\n!create B from A{\n\t!foo bar\n}".toList, by decide, ?_, ?_⟩ <;> decide +kernel

-- Non-vacuity: a file with comments, blank lines, escapes and indentation.
example : parseText (fun _ => .error .fileNotFound)
    "# head\nA{   # open\n\n  x  1 2 # c\n\ty \\#3\n}\n".toList =
    .ok [("A.x".toList, "1 2".toList), ("A.y".toList, "#3".toList)] := by decide +kernel

/-! ## C03: duplicates are rejected -/

/-- What a plain (command-free) line says. -/
inductive LineKind
  | openDict (name : Str)
  | closeDict
  | pair (key value : Str)
  | bad
deriving DecidableEq

/-- Specification of the plain line grammar. -/
def classify (l : Line) : LineKind :=
  if (strip l).getLast? = some '{' then .openDict (strip l).dropLast
  else if strip l = ['}'] then .closeDict
  else match wsSplit (strip l) with
    | k :: v :: vs => .pair k (join [' '] (v :: vs))
    | _ => .bad

/-- Specification: the assignments a plain file makes, in order, given the open dictionaries (innermost first).
Nothing is said about duplicates here. -/
def assignments : List Line → List Str → List (Str × Str)
  | _, [] => []
  | [], _ :: _ => []
  | l :: ls, d :: stk =>
    match classify l with
    | .openDict n => assignments ls (qualify d n :: d :: stk)
    | .closeDict => assignments ls stk
    | .pair k v => (qualify d k, v) :: assignments ls (d :: stk)
    | .bad => assignments ls (d :: stk)

/-- A line without `!create` / `!include`. -/
def Plain (l : Line) : Prop := firstWord l ≠ some "!create".toList ∧ firstWord l ≠ some "!include".toList

instance (l : Line) : Decidable (Plain l) := by unfold Plain; infer_instance

/-- One step of `run` on a plain line, in terms of `classify`. -/
theorem run_plain (load : Str → Except PyErr SDict) {l : Line} (hp : Plain l) (ls : List Line) (D : SDict) (curr : Str)
    (allow : Bool) (stk : List (Str × Bool)) :
    (∃ e, run load (l :: ls) D ((curr, allow) :: stk) = .error e) ∨
    run load (l :: ls) D ((curr, allow) :: stk) =
      match classify l with
      | .openDict n => run load ls D ((qualify curr n, allow) :: (curr, allow) :: stk)
      | .closeDict => run load ls D stk
      | .pair k v => if Dict.has D (qualify curr k) = false ∨ allow = true then
            run load ls (Dict.set D (qualify curr k) v) ((curr, allow) :: stk) else .error .duplicateKey
      | .bad => .error .valueError := by
  obtain ⟨h1, h2⟩ := hp
  unfold firstWord at h1 h2
  rw [run_cons]
  unfold classify
  cases hs : wsSplit (strip l) with
  | nil => left; exact ⟨_, rfl⟩
  | cons tok toks =>
    rw [hs] at h1 h2
    right
    have h1 : tok ≠ "!create".toList := by simpa using h1
    have h2 : tok ≠ "!include".toList := by simpa using h2
    simp only [h1, h2, if_false]
    by_cases h3 : (strip l).getLast? = some '{'
    · simp [h3]
    · by_cases h4 : strip l = ['}']
      · simp [h4]
      · simp only [h3, h4, if_false]
        cases toks with
        | nil => simp
        | cons v vs => simp [Bool.or_eq_true]

/-- Generalisation of `C03` to any point of a file. -/
theorem run_assignments (load : Str → Except PyErr SDict) : ∀ (ls : List Line) (D D' : SDict) (stk : List Str),
    (∀ l ∈ ls, Plain l) → Dict.WF D →
    run load ls D (stk.map (fun d => (d, false))) = .ok D' →
    D' = D ++ assignments ls stk ∧ Dict.WF D' := by
  intro ls
  induction ls with
  | nil =>
    intro D D' stk _ hwf h
    cases stk with
    | nil => rw [List.map_nil, run_closed] at h; cases h; simp [assignments, hwf]
    | cons d stk =>
      rw [List.map_cons, run_nil] at h
      split at h
      · cases h; simp [assignments, hwf]
      · cases h
  | cons l ls ih =>
    intro D D' stk hp hwf h
    cases stk with
    | nil => rw [List.map_nil, run_closed] at h; cases h; simp [assignments, hwf]
    | cons d stk =>
      have hpl := hp l (by simp)
      have hpr : ∀ l ∈ ls, Plain l := fun x hx => hp x (by simp [hx])
      rw [List.map_cons] at h
      rcases run_plain load hpl ls D d false (stk.map (fun d => (d, false))) with ⟨e, he⟩ | he
      · rw [he] at h; cases h
      · rw [he] at h
        rw [assignments]
        cases hcl : classify l with
        | openDict n =>
          rw [hcl] at h; simp only at h ⊢
          exact ih D D' (qualify d n :: d :: stk) hpr hwf (by simpa using h)
        | closeDict =>
          rw [hcl] at h; simp only at h ⊢
          exact ih D D' stk hpr hwf h
        | pair k v =>
          rw [hcl] at h; simp only at h ⊢
          split at h
          · rename_i hh
            have hno : Dict.has D (qualify d k) = false := by simpa using hh
            rw [Dict.has_false_iff] at hno
            have := ih (Dict.set D (qualify d k) v) D' (d :: stk) hpr (Dict.WF_set hwf _ _) (by simpa using h)
            rw [Dict.set_of_not_mem _ _ hno] at this
            simpa using this
          · cases h
        | bad =>
          rw [hcl] at h; cases h

/-- **C03** If a plain file loads, the result is exactly the list of assignments it makes, and no key was assigned
twice: nothing is ever overwritten. -/
theorem load_is_assignments (load : Str → Except PyErr SDict) (ls : List Line) (D : SDict)
    (hp : ∀ l ∈ ls, Plain l) (h : parseLines load ls = .ok D) :
    D = assignments ls [[]] ∧ ((assignments ls [[]]).map Prod.fst).Nodup := by
  rw [parseLines_eq_run] at h
  have := run_assignments load ls [] D [[]] hp Dict.WF_nil (by simpa using h)
  simp only [List.nil_append] at this
  obtain ⟨h1, h2⟩ := this
  exact ⟨h1, by rw [← h1]; exact h2⟩

/-- **C03** A plain file that assigns a key twice is rejected. -/
theorem duplicate_rejected (load : Str → Except PyErr SDict) (ls : List Line) (hp : ∀ l ∈ ls, Plain l)
    (hd : ¬ ((assignments ls [[]]).map Prod.fst).Nodup) : ∃ e, parseLines load ls = .error e := by
  cases h : parseLines load ls with
  | error e => exact ⟨e, rfl⟩
  | ok D => exact absurd (load_is_assignments load ls D hp h).2 hd

/-- **C03** every key written in a plain file holds the value written for it. -/
theorem loaded_value (load : Str → Except PyErr SDict) (ls : List Line) (D : SDict)
    (hp : ∀ l ∈ ls, Plain l) (h : parseLines load ls = .ok D) (k v : Str) :
    (k, v) ∈ assignments ls [[]] ↔ Dict.get? D k = some v := by
  obtain ⟨h1, h2⟩ := load_is_assignments load ls D hp h
  rw [← h1]
  have hwf : Dict.WF D := by rw [h1]; exact h2
  exact ⟨fun hm => Dict.get?_of_mem hwf hm, Dict.mem_of_get?⟩

example : (∀ l ∈ ["A{".toList, "x 1".toList, "B{".toList, "x 2".toList, "}".toList, "}".toList], Plain l) ∧
    parseLines (fun _ => .error .fileNotFound)
      ["A{".toList, "x 1".toList, "B{".toList, "x 2".toList, "}".toList, "}".toList] =
    .ok [("A.x".toList, "1".toList), ("A.B.x".toList, "2".toList)] := by decide +kernel

example : ¬ ((assignments ["A{".toList, "x 1".toList, "}".toList, "A.x 2".toList] [[]]).map Prod.fst).Nodup := by
  decide +kernel

/-- **C03 fails** across `!include`: a key of the including file is silently overwritten. -/
theorem include_overwrites_violated :
    parseLines (fun _ => .ok [("x".toList, "2".toList)]) ["x 1".toList, "!include f.mapleaf".toList] =
      .ok [("x".toList, "2".toList)] := by decide +kernel

/-- **C03 fails** inside derived dictionaries: two lines of the file assign the same key, the first is lost. -/
theorem derived_duplicate_violated :
    parseLines (fun _ => .error .fileNotFound)
      ["A{".toList, "x 1".toList, "}".toList, "!create B from A{".toList, "y 1".toList, "y 2".toList, "}".toList] =
      .ok [("A.x".toList, "1".toList), ("B.x".toList, "1".toList), ("B.y".toList, "2".toList)] := by
  decide +kernel

/-! ## C56: no part of a file is silently ignored -/

/-- **C56 fails**: after a stray closing bracket the rest of the file is ignored without an error. -/
theorem stray_bracket_violated :
    parseLines (fun _ => .error .fileNotFound) ["a 1".toList, "}".toList, "b 2".toList] =
      .ok [("a".toList, "1".toList)] := by decide +kernel

/-- Depth of dictionary nesting after some plain lines, starting at `n`; `none` once a bracket closes the root. -/
def depthAfter : List Line → Nat → Option Nat
  | [], n => some n
  | l :: ls, n =>
    match classify l with
    | .openDict _ => depthAfter ls (n + 1)
    | .closeDict => match n with
      | 0 => none
      | n + 1 => depthAfter ls n
    | _ => depthAfter ls n

theorem run_depth (load : Str → Except PyErr SDict) : ∀ (ls : List Line) (D D' : SDict) (stk : List Str) (d : Str)
    (n : Nat), (∀ l ∈ ls, Plain l) → depthAfter ls stk.length = some n →
    run load ls D ((d :: stk).map (fun d => (d, false))) = .ok D' →
    n = 0 ∧ (∀ l ∈ ls, classify l ≠ .bad) ∧
    ∀ l ∈ ls, ∀ k v, classify l = .pair k v → ∃ dict, (qualify dict k, v) ∈ assignments ls (d :: stk) := by
  intro ls
  induction ls with
  | nil =>
    intro D D' stk d n _ hn h
    rw [List.map_cons, run_nil] at h
    split at h
    · rename_i hs
      have : stk = [] := by simpa using hs
      subst this
      simp [depthAfter] at hn
      simp [hn]
    · cases h
  | cons l ls ih =>
    intro D D' stk d n hp hn h
    have hpl := hp l (by simp)
    have hpr : ∀ l ∈ ls, Plain l := fun x hx => hp x (by simp [hx])
    rw [List.map_cons] at h
    rcases run_plain load hpl ls D d false (stk.map (fun d => (d, false))) with ⟨e, he⟩ | he
    · rw [he] at h; cases h
    · rw [he] at h
      simp only [assignments, depthAfter] at hn ⊢
      cases hcl : classify l with
      | openDict m =>
        rw [hcl] at h hn; simp only at h hn ⊢
        obtain ⟨h1, h2, h3⟩ := ih D D' (d :: stk) (qualify d m) n hpr (by simpa using hn) (by simpa using h)
        refine ⟨h1, ?_, ?_⟩
        · simp [hcl]; exact h2
        · simp [hcl]; exact h3
      | closeDict =>
        rw [hcl] at h hn; simp only at h hn ⊢
        cases stk with
        | nil => simp at hn
        | cons d' stk' =>
          obtain ⟨h1, h2, h3⟩ := ih D D' stk' d' n hpr (by simpa using hn) h
          refine ⟨h1, ?_, ?_⟩
          · simp [hcl]; exact h2
          · simp [hcl]; exact h3
      | pair k v =>
        rw [hcl] at h hn; simp only at h hn ⊢
        split at h
        · obtain ⟨h1, h2, h3⟩ := ih _ D' stk d n hpr hn (by simpa using h)
          refine ⟨h1, ?_, ?_⟩
          · simp [hcl]; exact h2
          · intro x hx k' v' hx'
            rcases List.mem_cons.1 hx with rfl | hx
            · rw [hcl] at hx'; cases hx'; exact ⟨d, by simp⟩
            · obtain ⟨dict, hd⟩ := h3 x hx k' v' hx'
              exact ⟨dict, by simp [hd]⟩
        · cases h
      | bad => rw [hcl] at h; cases h

/-- **C56** (without stray closing brackets) If a plain file loads, all its dictionaries were closed, every line
was understood and every key/value line is in the result with its value. Missing part: files with a closing
bracket too many, see `stray_bracket_violated`. -/
theorem every_line_counts_partial (load : Str → Except PyErr SDict) (ls : List Line) (D : SDict) (n : Nat)
    (hp : ∀ l ∈ ls, Plain l) (hb : depthAfter ls 0 = some n) (h : parseLines load ls = .ok D) :
    n = 0 ∧ (∀ l ∈ ls, classify l ≠ .bad) ∧
    ∀ l ∈ ls, ∀ k v, classify l = .pair k v → ∃ dict, Dict.get? D (qualify dict k) = some v := by
  have h' := h
  rw [parseLines_eq_run] at h
  obtain ⟨h1, h2, h3⟩ := run_depth load ls [] D [] [] n hp (by simpa using hb) (by simpa using h)
  refine ⟨h1, h2, fun l hl k v hlk => ?_⟩
  obtain ⟨dict, hd⟩ := h3 l hl k v hlk
  exact ⟨dict, (loaded_value load ls D hp h' _ _).1 hd⟩

/-- **C56** A plain file with an unclosed dictionary is rejected. -/
theorem unclosed_rejected (load : Str → Except PyErr SDict) (ls : List Line) (n : Nat)
    (hp : ∀ l ∈ ls, Plain l) (hb : depthAfter ls 0 = some (n + 1)) : ∃ e, parseLines load ls = .error e := by
  cases h : parseLines load ls with
  | error e => exact ⟨e, rfl⟩
  | ok D => have := (every_line_counts_partial load ls D _ hp hb h).1; omega

example : depthAfter ["A{".toList, "x 1".toList, "}".toList] 0 = some 0 ∧
    depthAfter ["A{".toList, "x 1".toList] 0 = some 1 := by decide +kernel

end Mapleaf.SimDef
