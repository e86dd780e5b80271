import Verif.SimDef.ParserMachine
import Verif.SimDef.ParserProps
import Mathlib.Logic.Relation

/-! # C07: loading terminates, circular includes are detected -/

namespace Mapleaf.SimDef
open Str

/-! ## Specification: which files a text refers to -/

/-- The file a `!create X from file:dict{` line refers to, if any. -/
def CreateRef (l : Line) (p : Str) : Prop :=
  ∃ toks last path rest, shlexSplit l = .ok toks ∧ toks.getLast? = some last ∧ derivedSource last = .ok path ∧
    ':' ∈ path ∧ splitC ':' path = p :: rest

/-- `l` is a line referring to the file with (unresolved) path `p`. -/
def References (l : Line) (p : Str) : Prop :=
  (firstWord l = some "!include".toList ∧ includePath (strip l) = .ok p) ∨
  (firstWord l = some "!create".toList ∧ CreateRef l p)

/-- File `a` refers to file `b`. -/
def Includes (fs : Dict Str Str) (resolve : Str → Str → Str) (a b : Str) : Prop :=
  ∃ text l p, Dict.get? fs a = some text ∧ l ∈ prepLines text ∧ References l p ∧ resolve a p = b

/-! ## Helper lemmas: only `load` can fail with these errors -/

def Special (e : PyErr) : Prop := e = .outOfFuel ∨ e = .circular

theorem shlexAux_error (s acc : Str) (b : Bool) (q : Option Char) (e : PyErr)
    (h : shlexAux s acc b q = .error e) : e = .valueError := by
  fun_induction shlexAux s acc b q <;> simp_all [Except.map]
  all_goals (split at h <;> simp_all)

theorem applyDerivedCommands_error (d : SDict) (ls : List Line) (e : PyErr)
    (h : applyDerivedCommands d ls = .error e) : ¬ Special e := by
  induction ls generalizing d with
  | nil => simp [applyDerivedCommands] at h
  | cons l ls ih =>
    unfold applyDerivedCommands at h
    split at h
    · rename_i he
      have := shlexAux_error _ _ _ _ _ he
      simp at h; subst h; subst this; simp [Special]
    · simp at h; subst h; simp [Special]
    · split at h
      · split at h
        · simp at h; subst h; simp [Special]
        · exact ih _ h
      · split at h
        · split at h
          · simp at h; subst h; simp [Special]
          · exact ih _ h
        · split at h
          · simp at h
          · simp at h; subst h; simp [Special]

theorem applyDerivedCommands_suffix {d : SDict} {ls : List Line} {d' : SDict} {rest : List Line}
    (h : applyDerivedCommands d ls = .ok (d', rest)) : rest <:+ ls := by
  induction ls generalizing d with
  | nil => simp [applyDerivedCommands] at h; simp [← h.2]
  | cons l ls ih =>
    unfold applyDerivedCommands at h
    split at h
    · simp at h
    · simp at h
    · split at h
      · split at h
        · simp at h
        · exact (ih h).trans (List.suffix_cons _ _)
      · split at h
        · split at h
          · simp at h
          · exact (ih h).trans (List.suffix_cons _ _)
        · split at h
          · simp at h; rw [← h.2]
          · simp at h

theorem addDerived_error (D d : SDict) (e : PyErr) (h : addDerived D d = .error e) : e = .valueError := by
  induction d generalizing D with
  | nil => simp [addDerived] at h
  | cons p d ih =>
    obtain ⟨k, v⟩ := p
    unfold addDerived at h
    split at h
    · simp at h; exact h.symm
    · exact ih _ h

theorem derivedSource_error (t : Str) (e : PyErr) (h : derivedSource t = .error e) : e = .indexError := by
  unfold derivedSource at h
  split at h <;> simp at h
  exact h.symm

theorem derivedHead_suffix {load : Str → Except PyErr SDict} {D : SDict} {l : Line} {ls : List Line} {curr : Str}
    {D' : SDict} {rest : List Line} {name : Str}
    (h : derivedHead load D l ls curr = .ok (D', rest, name)) : rest <:+ ls := by
  unfold derivedHead at h
  split at h
  · simp at h
  · split at h
    · simp only at h
      split at h
      · simp at h
      · split at h
        · simp at h
        · split at h
          · simp at h
          · split at h
            · simp at h
            · rename_i hc
              split at h
              · simp at h
              · simp at h
                have := applyDerivedCommands_suffix hc
                rw [← h.2.1]; exact this
    · simp at h

theorem derivedHead_special {load : Str → Except PyErr SDict} {D : SDict} {l : Line} {ls : List Line} {curr : Str}
    {e : PyErr} (he : Special e) (h : derivedHead load D l ls curr = .error e) :
    ∃ p, CreateRef l p ∧ load p = .error e := by
  unfold derivedHead at h
  split at h
  · rename_i hs
    have := shlexAux_error _ _ _ _ _ hs
    simp at h; subst h; subst this; simp [Special] at he
  · rename_i toks hs
    split at h
    · rename_i c0 n1 more
      simp only at h
      split at h
      · rename_i hd
        have := derivedSource_error _ _ hd
        simp at h; subst h; subst this; simp [Special] at he
      · rename_i path hd
        by_cases hc : ':' ∈ path
        · rw [if_pos hc] at h
          cases hsp : splitC ':' path with
          | nil => exact absurd hsp (splitC_ne_nil _ _)
          | cons f r =>
            have href : CreateRef l f := ⟨_, _, path, r, hs, List.getLast?_eq_getLast_of_ne_nil (by simp), hd, hc, hsp⟩
            rw [hsp] at h
            cases r with
            | nil =>
              simp only at h; cases h
              simp [Special] at he
            | cons p r' =>
              simp only at h
              cases hl : load f with
              | error e' =>
                rw [hl] at h; simp only at h; cases h
                exact ⟨f, href, hl⟩
              | ok sub =>
                rw [hl] at h
                simp only at h
                split at h
                · cases h; simp [Special] at he
                · split at h
                  · rename_i hap
                    cases h
                    exact absurd he (applyDerivedCommands_error _ _ _ hap)
                  · split at h
                    · rename_i had
                      cases h
                      rw [addDerived_error _ _ _ had] at he
                      simp [Special] at he
                    · cases h
        · rw [if_neg hc] at h
          simp only at h
          split at h
          · cases h; simp [Special] at he
          · split at h
            · rename_i hap
              cases h
              exact absurd he (applyDerivedCommands_error _ _ _ hap)
            · split at h
              · rename_i had
                cases h
                rw [addDerived_error _ _ _ had] at he
                simp [Special] at he
              · cases h
    · cases h; simp [Special] at he

theorem run_special (load : Str → Except PyErr SDict) {e : PyErr} (he : Special e) : ∀ (n : Nat) (ls : List Line)
    (D : SDict) (stk : List (Str × Bool)), ls.length ≤ n → run load ls D stk = .error e →
    ∃ l ∈ ls, ∃ p, References l p ∧ load p = .error e := by
  intro n
  induction n with
  | zero =>
    intro ls D stk hn h
    have : ls = [] := by simpa using hn
    subst this
    cases stk with
    | nil => rw [run_closed] at h; cases h
    | cons t stk =>
      obtain ⟨c, a⟩ := t
      rw [run_nil] at h
      split at h
      · cases h
      · cases h; simp [Special] at he
  | succ n ih =>
    intro ls D stk hn h
    cases stk with
    | nil => rw [run_closed] at h; cases h
    | cons t stk =>
      obtain ⟨curr, allow⟩ := t
      cases ls with
      | nil =>
        rw [run_nil] at h
        split at h
        · cases h
        · cases h; simp [Special] at he
      | cons l ls =>
        simp at hn
        have lift : (∃ x ∈ ls, ∃ p, References x p ∧ load p = .error e) →
            ∃ x ∈ l :: ls, ∃ p, References x p ∧ load p = .error e := by
          rintro ⟨x, hx, r⟩; exact ⟨x, by simp [hx], r⟩
        rw [run_cons] at h
        cases hs : wsSplit (strip l) with
        | nil => rw [hs] at h; cases h; simp [Special] at he
        | cons tok toks =>
          rw [hs] at h
          simp only at h
          by_cases h1 : tok = "!create".toList
          · rw [if_pos h1] at h
            have hfw : firstWord l = some "!create".toList := by simp [firstWord, hs, h1]
            cases hd : derivedHead load D l ls curr with
            | error e' =>
              rw [hd] at h; cases h
              obtain ⟨p, hp1, hp2⟩ := derivedHead_special he hd
              exact ⟨l, by simp, p, Or.inr ⟨hfw, hp1⟩, hp2⟩
            | ok r =>
              obtain ⟨D', rest, name⟩ := r
              rw [hd] at h
              simp only at h
              have hsuf := derivedHead_suffix hd
              obtain ⟨x, hx, r⟩ := ih rest D' _ (by have := hsuf.length_le; omega) h
              exact lift ⟨x, hsuf.subset hx, r⟩
          · rw [if_neg h1] at h
            by_cases h2 : tok = "!include".toList
            · rw [if_pos h2] at h
              have hfw : firstWord l = some "!include".toList := by simp [firstWord, hs, h2]
              cases hi : includePath (strip l) with
              | error e' =>
                rw [hi] at h; cases h
                unfold includePath at hi
                split at hi <;> cases hi
                simp [Special] at he
              | ok path =>
                rw [hi] at h
                simp only at h
                cases hl : load path with
                | error e' =>
                  rw [hl] at h; cases h
                  exact ⟨l, by simp, path, Or.inl ⟨hfw, hi⟩, hl⟩
                | ok sub =>
                  rw [hl] at h
                  exact lift (ih _ _ _ (by omega) h)
            · rw [if_neg h2] at h
              split at h
              · exact lift (ih _ _ _ (by omega) h)
              · split at h
                · exact lift (ih _ _ _ (by omega) h)
                · split at h
                  · split at h
                    · exact lift (ih _ _ _ (by omega) h)
                    · cases h; simp [Special] at he
                  · cases h; simp [Special] at he

theorem parseText_special (load : Str → Except PyErr SDict) {e : PyErr} (he : Special e) (text : Str)
    (h : parseText load text = .error e) : ∃ l ∈ prepLines text, ∃ p, References l p ∧ load p = .error e := by
  unfold parseText at h
  rw [parseLines_eq_run] at h
  exact run_special load he _ _ _ _ (le_refl _) h

/-! ## Termination -/

variable (fs : Dict Str Str) (resolve : Str → Str → Str) (post : Str → SDict → Except PyErr SDict)

/-- Number of existing files not yet on the parse stack. -/
def unseen (stack : List Str) : Nat := ((Dict.keys fs).filter (fun f => f ∉ stack)).length

theorem filter_cons_lt (stack : List Str) (f : Str) (hn : f ∉ stack) (l : List Str) :
    (l.filter (fun g => decide (g ∉ f :: stack))).length ≤ (l.filter (fun g => decide (g ∉ stack))).length ∧
    (f ∈ l → (l.filter (fun g => decide (g ∉ f :: stack))).length < (l.filter (fun g => decide (g ∉ stack))).length) := by
  induction l with
  | nil => simp
  | cons a l ih =>
    obtain ⟨ih1, ih2⟩ := ih
    by_cases ha : a = f
    · subst ha
      rw [List.filter_cons_of_neg (by simp), List.filter_cons_of_pos (by simpa using hn)]
      simp only [List.length_cons]
      exact ⟨by omega, fun _ => by omega⟩
    · have hm : f ∈ a :: l ↔ f ∈ l := by
        rw [List.mem_cons]
        exact ⟨fun h => h.resolve_left (fun h => ha h.symm), Or.inr⟩
      rw [hm]
      by_cases hs : a ∈ stack
      · rw [List.filter_cons_of_neg (by simp [hs]), List.filter_cons_of_neg (by simp [hs])]; exact ⟨ih1, ih2⟩
      · rw [List.filter_cons_of_pos (by simp [hs, ha]), List.filter_cons_of_pos (by simp [hs])]
        simp only [List.length_cons]
        exact ⟨by omega, fun h => by have := ih2 h; omega⟩

theorem unseen_lt {stack : List Str} {f : Str} (hf : f ∈ Dict.keys fs) (hn : f ∉ stack) :
    unseen fs (f :: stack) < unseen fs stack := (filter_cons_lt stack f hn _).2 hf

/-- **C07** Loading terminates for every finite file system and every include graph: the recursion depth needed is
bounded by the number of files, whatever the files contain. -/
theorem load_terminates (hpost : ∀ f D, post f D ≠ .error .outOfFuel) : ∀ (fuel : Nat) (stack : List Str) (file : Str),
    unseen fs stack + 1 < fuel → loadFile fs resolve post fuel stack file ≠ .error .outOfFuel := by
  intro fuel
  induction fuel with
  | zero => intro stack file h; omega
  | succ fuel ih =>
    intro stack file hfuel h
    rw [loadFile] at h
    cases hg : Dict.get? fs file with
    | none => rw [hg] at h; cases h
    | some text =>
      rw [hg] at h
      simp only at h
      split at h
      · rename_i e hp
        cases h
        obtain ⟨l, _, p, _, hl⟩ := parseText_special _ (Or.inl rfl) text hp
        split at hl
        · cases hl
        · rename_i hns
          by_cases hf : resolve file p ∈ Dict.keys fs
          · exact ih _ _ (by have := unseen_lt fs hf hns; omega) hl
          · cases fuel with
            | zero => omega
            | succ fuel =>
              rw [loadFile] at hl
              have : Dict.get? fs (resolve file p) = none := (Dict.get?_eq_none_iff _ _).2 hf
              rw [this] at hl; cases hl
      · exact hpost _ _ h

/-- The entry point: the stack holds the file itself, depth bounded by the number of files plus two. -/
theorem load_top_terminates (hpost : ∀ f D, post f D ≠ .error .outOfFuel) (file : Str) :
    loadFile fs resolve post (fs.length + 2) [file] file ≠ .error .outOfFuel := by
  apply load_terminates fs resolve post hpost
  have : unseen fs [file] ≤ fs.length := by
    unfold unseen
    refine (List.length_filter_le _ _).trans ?_
    simp [Dict.keys]
  omega

/-! ## A circularity error is only raised for a real cycle -/

/-- **C07** If loading reports a circular reference then the include graph really has a cycle reachable from the
file; acyclic graphs (diamonds included) are never rejected as circular. -/
theorem circular_is_cycle (hpost : ∀ f D, post f D ≠ .error .circular) : ∀ (fuel : Nat) (stack : List Str) (file : Str),
    (∀ s ∈ stack, Relation.ReflTransGen (Includes fs resolve) s file) →
    loadFile fs resolve post fuel stack file = .error .circular →
    ∃ x, Relation.ReflTransGen (Includes fs resolve) file x ∧ Relation.TransGen (Includes fs resolve) x x := by
  intro fuel
  induction fuel with
  | zero => intro stack file _ h; rw [loadFile] at h; cases h
  | succ fuel ih =>
    intro stack file hstk h
    rw [loadFile] at h
    cases hg : Dict.get? fs file with
    | none => rw [hg] at h; cases h
    | some text =>
      rw [hg] at h
      simp only at h
      split at h
      · rename_i e hp
        cases h
        obtain ⟨l, hl, p, href, hld⟩ := parseText_special _ (Or.inr rfl) text hp
        have hinc : Includes fs resolve file (resolve file p) := ⟨text, l, p, hg, hl, href, rfl⟩
        split at hld
        · rename_i hin
          refine ⟨resolve file p, Relation.ReflTransGen.single hinc, ?_⟩
          exact Relation.TransGen.tail' (hstk _ hin) hinc
        · obtain ⟨x, h1, h2⟩ := ih _ _ (by
            intro s hs
            rcases List.mem_cons.1 hs with rfl | hs
            · exact Relation.ReflTransGen.refl
            · exact (hstk s hs).tail hinc) hld
          exact ⟨x, (Relation.ReflTransGen.single hinc).trans h1, h2⟩
      · exact absurd h (hpost _ _)

/-- **C07** (top level) -/
theorem acyclic_never_circular (hpost : ∀ f D, post f D ≠ .error .circular) (fuel : Nat) (file : Str)
    (hac : ∀ x, ¬ Relation.TransGen (Includes fs resolve) x x) :
    loadFile fs resolve post fuel [file] file ≠ .error .circular := by
  intro h
  obtain ⟨x, _, hx⟩ := circular_is_cycle fs resolve post hpost fuel [file] file
    (by intro s hs; simp at hs; subst hs; exact Relation.ReflTransGen.refl) h
  exact hac x hx

/-! ## A cycle is reported -/

/-- Reading `text` asks for file `p` before anything else can fail. -/
def AsksFor (text : Str) (p : Str) : Prop :=
  ∀ (load : Str → Except PyErr SDict) (e : PyErr), load p = .error e → parseText load text = .error e

/-- **C07** A cycle of files, each of which asks for the next one, is reported as circular: `chain` is the part of
the cycle still ahead, ending in a file already on the stack. -/
theorem cycle_reported : ∀ (chain : List Str) (fuel : Nat) (stack : List Str) (file back : Str),
    chain.length < fuel →
    (file :: chain).IsChain (fun a b => ∃ text p, Dict.get? fs a = some text ∧ AsksFor text p ∧ resolve a p = b) →
    chain.getLast? = some back → back ∈ stack →
    loadFile fs resolve post fuel stack file = .error .circular := by
  intro chain
  induction chain with
  | nil => intro fuel stack file back _ _ h; simp at h
  | cons f rest ih =>
    intro fuel stack file back hfuel hch hlast hback
    obtain ⟨fuel, rfl⟩ : ∃ m, fuel = m + 1 := ⟨fuel - 1, by simp at hfuel; omega⟩
    rw [List.isChain_cons_cons] at hch
    obtain ⟨⟨text, p, hg, hask, hres⟩, hch'⟩ := hch
    rw [loadFile, hg]
    simp only
    have key : parseText (fun path => if resolve file path ∈ stack then Except.error PyErr.circular
        else loadFile fs resolve post fuel (resolve file path :: stack) (resolve file path)) text
        = .error .circular := by
      apply hask _ _
      show (if resolve file p ∈ stack then _ else _) = _
      by_cases hin : f ∈ stack
      · rw [hres, if_pos hin]
      · rw [hres, if_neg hin]
        have hl' : rest.getLast? = some back := by
          cases rest with
          | nil => simp at hlast; subst hlast; exact absurd hback hin
          | cons a t => simpa [List.getLast?_cons_cons] using hlast
        exact ih fuel (f :: stack) f back (by simp at hfuel; omega) hch' hl' (by simp [hback])
    rw [key]

/-- The entry point on a cycle through the file itself. -/
theorem cycle_reported_top (file : Str) (mid : List Str) (fuel : Nat) (hfuel : mid.length + 1 < fuel)
    (h : (file :: (mid ++ [file])).IsChain
      (fun a b => ∃ text p, Dict.get? fs a = some text ∧ AsksFor text p ∧ resolve a p = b)) :
    loadFile fs resolve post fuel [file] file = .error .circular :=
  cycle_reported fs resolve post (mid ++ [file]) fuel [file] file file (by simpa using hfuel) h (by simp) (by simp)

-- Non-vacuity: a text that asks for another file after some plain content, from inside a dictionary.
example : AsksFor "x 1\nA{\n!include b.mapleaf # next\n}\n".toList "b.mapleaf".toList := by
  intro load e h
  have hp : prepLines "x 1\nA{\n!include b.mapleaf # next\n}\n".toList =
    ["x 1".toList, "A{".toList, "!include b.mapleaf ".toList, "}".toList] := by decide +kernel
  unfold parseText
  rw [hp, parseLines_eq_run, run_cons]
  have e1 : wsSplit (strip "x 1".toList) = ["x".toList, "1".toList] := by decide +kernel
  have e2 : wsSplit (strip "A{".toList) = ["A{".toList] := by decide +kernel
  have e3 : wsSplit (strip "!include b.mapleaf ".toList) = ["!include".toList, "b.mapleaf".toList] := by decide +kernel
  have e4 : includePath (strip "!include b.mapleaf ".toList) = .ok "b.mapleaf".toList := by decide +kernel
  rw [e1]
  simp only
  rw [if_neg (by decide), if_neg (by decide), if_neg (by decide), if_neg (by decide), if_pos (by decide),
    if_pos (by decide), run_cons, e2]
  simp only
  rw [if_neg (by decide), if_neg (by decide), if_pos (by decide), run_cons, e3]
  simp only
  rw [if_neg (by decide), if_pos trivial, e4]
  simp only [h]

-- Two files including each other: reported, on the real loader.
example : loadFile [("a".toList, "!include b".toList), ("b".toList, "x 1\n!include a".toList)] (fun _ p => p)
    (fun _ D => .ok D) 4 ["a".toList] "a".toList = .error .circular := by decide +kernel

-- A diamond is accepted.
example : loadFile [("a".toList, "B{\n!include b\n}\nC{\n!include c\n}".toList), ("b".toList, "!include d".toList),
    ("c".toList, "!include d".toList), ("d".toList, "x 1".toList)] (fun _ p => p)
    (fun _ D => .ok D) 6 ["a".toList] "a".toList =
    .ok [("B.x".toList, "1".toList), ("C.x".toList, "1".toList)] := by decide +kernel

end Mapleaf.SimDef
