import Verif.SimDef.ParserModel

/-! # The recursive parser as a stack machine

`run` processes the lines one by one with an explicit stack of open dictionaries. `parseLines_eq_run` shows that
the recursive parser of the code computes the same function; the properties C01, C03, C06, C07 are proved
through it. -/

namespace Mapleaf.SimDef
open Str

theorem applyDerivedCommands_length {d : SDict} {ls : List Line} {d' : SDict} {rest : List Line}
    (h : applyDerivedCommands d ls = .ok (d', rest)) : rest.length ≤ ls.length := by
  induction ls generalizing d with
  | nil => simp [applyDerivedCommands] at h; simp [← h.2]
  | cons l ls ih =>
    unfold applyDerivedCommands at h
    split at h
    · simp at h
    · simp at h
    · split at h
      · split at h
        · simp at h
        · have := ih h; simp; omega
      · split at h
        · split at h
          · simp at h
          · have := ih h; simp; omega
        · split at h
          · simp at h; simp [← h.2]
          · simp at h

theorem derivedHead_length {load : Str → Except PyErr SDict} {D : SDict} {l : Line} {ls : List Line} {curr : Str}
    {D' : SDict} {rest : List Line} {name : Str}
    (h : derivedHead load D l ls curr = .ok (D', rest, name)) : rest.length ≤ ls.length := by
  unfold derivedHead at h
  split at h
  · simp at h
  · split at h
    · simp only at h
      split at h
      · simp at h
      · split at h
        · simp at h
        · split at h
          · simp at h
          · split at h
            · simp at h
            · rename_i hc
              split at h
              · simp at h
              · simp at h
                have := applyDerivedCommands_length hc
                rw [← h.2.1]; exact this
    · simp at h

/-- Line-by-line parser with the stack of open dictionaries (innermost first). An empty stack means the root
dictionary was closed by a stray `}`. -/
def run (load : Str → Except PyErr SDict) (lines : List Line) (D : SDict) (stack : List (Str × Bool)) :
    Except PyErr SDict :=
  match stack with
  | [] => .ok D
  | (curr, allow) :: stk =>
    match lines with
    | [] => if stk = [] then .ok D else .error .typeError
    | l :: ls =>
      match wsSplit (strip l) with
      | [] => .error .indexError
      | tok :: toks =>
        if tok = "!create".toList then
          match _h : derivedHead load D l ls curr with
          | .error e => .error e
          | .ok (D', rest, name) => run load rest D' ((name, true) :: (curr, allow) :: stk)
        else if tok = "!include".toList then
          match includePath (strip l) with
          | .error e => .error e
          | .ok path =>
            match load path with
            | .error e => .error e
            | .ok sub => run load ls (includeInto D sub curr) ((curr, allow) :: stk)
        else if (strip l).getLast? = some '{' then
          run load ls D ((qualify curr (strip l).dropLast, allow) :: (curr, allow) :: stk)
        else if strip l = ['}'] then run load ls D stk
        else if toks ≠ [] then
          if !Dict.has D (qualify curr tok) || allow then
            run load ls (Dict.set D (qualify curr tok) (join [' '] toks)) ((curr, allow) :: stk)
          else .error .duplicateKey
        else .error .valueError
termination_by lines.length
decreasing_by
  all_goals first
    | (have := derivedHead_length _h; simp; omega)
    | simp

/-- What one line does (the equation of `run` for a non-empty stack and text). -/
theorem run_cons (load : Str → Except PyErr SDict) (l : Line) (ls : List Line) (D : SDict) (curr : Str)
    (allow : Bool) (stk : List (Str × Bool)) :
    run load (l :: ls) D ((curr, allow) :: stk) =
      match wsSplit (strip l) with
      | [] => .error .indexError
      | tok :: toks =>
        if tok = "!create".toList then
          match derivedHead load D l ls curr with
          | .error e => .error e
          | .ok (D', rest, name) => run load rest D' ((name, true) :: (curr, allow) :: stk)
        else if tok = "!include".toList then
          match includePath (strip l) with
          | .error e => .error e
          | .ok path =>
            match load path with
            | .error e => .error e
            | .ok sub => run load ls (includeInto D sub curr) ((curr, allow) :: stk)
        else if (strip l).getLast? = some '{' then
          run load ls D ((qualify curr (strip l).dropLast, allow) :: (curr, allow) :: stk)
        else if strip l = ['}'] then run load ls D stk
        else if toks ≠ [] then
          if !Dict.has D (qualify curr tok) || allow then
            run load ls (Dict.set D (qualify curr tok) (join [' '] toks)) ((curr, allow) :: stk)
          else .error .duplicateKey
        else .error .valueError := by
  rw [run]
  cases wsSplit (strip l) with
  | nil => rfl
  | cons tok toks =>
    simp only
    congr 1
    split
    · rename_i h; rw [h]
    · rename_i h; rw [h]

theorem run_nil (load : Str → Except PyErr SDict) (D : SDict) (curr : Str) (allow : Bool)
    (stk : List (Str × Bool)) :
    run load [] D ((curr, allow) :: stk) = if stk = [] then .ok D else .error .typeError := by rw [run]

theorem run_closed (load : Str → Except PyErr SDict) (lines : List Line) (D : SDict) :
    run load lines D [] = .ok D := by rw [run]

theorem parseContents_rest_length (load : Str → Except PyErr SDict) (fuel : Nat) : ∀ (lines : List Line) (D : SDict)
    (curr : Str) (allow : Bool) (D' : SDict) (rest : List Line),
    parseContents load fuel lines D curr allow = .ok (D', some rest) → rest.length < lines.length := by
  induction fuel with
  | zero => intro lines D curr allow D' rest h; simp [parseContents] at h
  | succ fuel ih =>
    intro lines D curr allow D' rest h
    cases lines with
    | nil => simp [parseContents] at h
    | cons l ls =>
      unfold parseContents at h
      simp only at h
      split at h
      · simp at h
      · split at h
        · split at h
          · simp at h
          · rename_i hd
            split at h
            · simp at h
            · simp at h
            · rename_i hp
              have h1 := ih _ _ _ _ _ _ hp
              have h2 := ih _ _ _ _ _ _ h
              have h3 := derivedHead_length hd
              simp; omega
        · split at h
          · split at h
            · simp at h
            · split at h
              · simp at h
              · have := ih _ _ _ _ _ _ h; simp; omega
          · split at h
            · split at h
              · simp at h
              · simp at h
              · rename_i hp
                have h1 := ih _ _ _ _ _ _ hp
                have h2 := ih _ _ _ _ _ _ h
                simp; omega
            · split at h
              · simp at h; simp [← h.2]
              · split at h
                · split at h
                  · have := ih _ _ _ _ _ _ h; simp; omega
                  · simp at h
                · simp at h

/-- What happens to the result of a nested call. -/
def resume (load : Str → Except PyErr SDict) (r : Except PyErr (SDict × Option (List Line)))
    (stk : List (Str × Bool)) : Except PyErr SDict :=
  match r with
  | .error e => .error e
  | .ok (D, none) => if stk = [] then .ok D else .error .typeError
  | .ok (D, some rest) => run load rest D stk

theorem parseContents_run (load : Str → Except PyErr SDict) (fuel : Nat) : ∀ (lines : List Line) (D : SDict)
    (curr : Str) (allow : Bool) (stk : List (Str × Bool)), lines.length < fuel →
    resume load (parseContents load fuel lines D curr allow) stk = run load lines D ((curr, allow) :: stk) := by
  induction fuel with
  | zero => intro lines D curr allow stk h; omega
  | succ fuel ih =>
    intro lines D curr allow stk hf
    cases lines with
    | nil => unfold parseContents run resume; rfl
    | cons l ls =>
      simp at hf
      rw [parseContents, run_cons]
      simp only
      cases hs : wsSplit (strip l) with
      | nil => rfl
      | cons tok toks =>
        simp only
        by_cases h1 : tok = "!create".toList
        · simp only [h1, if_true]
          cases hd : derivedHead load D l ls curr with
          | error e => rfl
          | ok r =>
              obtain ⟨D', rest, name⟩ := r
              simp only
              have hl := derivedHead_length hd
              rw [← ih rest D' name true ((curr, allow) :: stk) (by omega)]
              cases hp : parseContents load fuel rest D' name true with
              | error e => rfl
              | ok r =>
                obtain ⟨D2, ro⟩ := r
                cases ro with
                | none => rfl
                | some rest2 =>
                  have hl2 := parseContents_rest_length _ _ _ _ _ _ _ _ hp
                  show resume load (parseContents load fuel rest2 D2 curr allow) stk = run load rest2 D2 _
                  exact ih _ _ _ _ _ (by omega)
        · simp only [h1, if_false]
          by_cases h2 : tok = "!include".toList
          · simp only [h2, if_true]
            cases includePath (strip l) with
            | error e => rfl
            | ok path =>
              simp only
              cases load path with
              | error e => rfl
              | ok sub => exact ih _ _ _ _ _ (by omega)
          · simp only [h2, if_false]
            by_cases h3 : (strip l).getLast? = some '{'
            · simp only [h3, if_true]
              rw [← ih ls D (qualify curr (strip l).dropLast) allow ((curr, allow) :: stk) (by omega)]
              cases hp : parseContents load fuel ls D (qualify curr (strip l).dropLast) allow with
              | error e => rfl
              | ok r =>
                obtain ⟨D2, ro⟩ := r
                cases ro with
                | none => rfl
                | some rest2 =>
                  have hl2 := parseContents_rest_length _ _ _ _ _ _ _ _ hp
                  show resume load (parseContents load fuel rest2 D2 curr allow) stk = run load rest2 D2 _
                  exact ih _ _ _ _ _ (by omega)
            · simp only [h3, if_false]
              by_cases h4 : strip l = ['}']
              · simp only [h4, if_true]; rfl
              · simp only [h4, if_false]
                by_cases h5 : toks ≠ []
                · rw [if_pos h5, if_pos h5]
                  by_cases h6 : (!Dict.has D (qualify curr tok) || allow) = true
                  · rw [if_pos h6, if_pos h6]; exact ih _ _ _ _ _ (by omega)
                  · rw [if_neg h6, if_neg h6]; rfl
                · rw [if_neg h5, if_neg h5]; rfl

/-- The recursive parser and the stack machine agree on every text; in particular the fuel never runs out. -/
theorem parseLines_eq_run (load : Str → Except PyErr SDict) (lines : List Line) :
    parseLines load lines = run load lines [] [([], false)] := by
  rw [← parseContents_run load (lines.length + 1) lines [] [] false [] (by omega)]
  unfold parseLines resume
  cases parseContents load (lines.length + 1) lines [] [] false with
  | error e => rfl
  | ok r =>
    obtain ⟨D, ro⟩ := r
    cases ro with
    | none => rfl
    | some rest => simp [Except.map, run]

end Mapleaf.SimDef
