import Verif.Run.FigLogProps
import Verif.Run.CaseProps
import Verif.SimDef.PathProps

/-! # C88: the figures of a batch run - comparison data, validation, and saving -/

namespace Mapleaf.Run.Fig
open Mapleaf Mapleaf.Str Mapleaf.LogM Mapleaf.Path
open Mapleaf.Rocket (Reader)

variable {K : Type}

/-! ## comparison data -/

/-- Where a file of comparison data is looked for: as written when that exists, else below the installation when that exists, else as written. -/
theorem located_spec (fs : FS) {d v : Str} (hd : Absolute d) (hv : Plain v) :
    located fs (PPath.ofStr d) v =
      if fs.there v = true then v else if fs.there (d ++ '/' :: v) = true then d ++ '/' :: v else v := by
  unfold located
  rw [resolve_install fs hd hv]
  by_cases h1 : fs.there v = true
  · rw [if_pos h1, if_pos h1]
  · rw [if_neg h1, if_neg h1]
    by_cases h2 : fs.there (d ++ '/' :: v) = true
    · simp only [if_pos h2]
    · simp only [if_neg h2]
      rw [if_neg h1]

example : Absolute "/opt/mapleaf".toList ∧ Plain "data/comp.csv".toList :=
  ⟨absolute_of_split "opt/mapleaf".toList (by decide +kernel), plain_of_split _ (by decide +kernel)⟩

/-- the specifications with the one for `x` -/
def withX (x : Str) (specs : List Str) : List Str := if x ∈ specs then specs else specs ++ [x]

/-- what is drawn and said about comparison data, from the values read -/
def Comparison [Mul K] [Add K] [Div K] [OfNat K 0] [OfNat K 2] [OfNat K 3] (m : Str → Str → Bool) (table : Except PyErr (Sheet K))
    (specs : List Str) (x : Str) (formats colors : List Str) (labels : List Str) (scale : K) (c : Compared K) : Prop :=
  table = .error .fileNotFound ∧ c = ⟨[], [], [], 1⟩ ∨
  ∃ df few, table = .ok df ∧ (few = if (hits m (withX x specs) [] df).length < (withX x specs).length then 1 else 0) ∧
    ((x ∉ (hits m (withX x specs) [] df).map Prod.fst ∨ (hits m (withX x specs) [] df).length ≠ formats.length + 1) ∧
      c = ⟨[], [], [], few + 1⟩ ∨
    x ∈ (hits m (withX x specs) [] df).map Prod.fst ∧ (hits m (withX x specs) [] df).length = formats.length + 1 ∧
      ∃ d, plotData (hits m (withX x specs) [] df) x
        (fun names => ⟨formats, colors, if labels = [[]] then names.map some else labels.map some, 3 / 2⟩) scale 0 false = .ok d ∧
        c = ⟨d.marks, d.cols, d.x, few⟩)

/-- **C88.** Comparison data, exactly: a dictionary without a file or without columns and a file that is not there give one warning; a table
without the column for `x`, or whose number of columns does not fit the formats, gives a warning, and a second when columns are missing;
else the columns are drawn. -/
theorem compareData_ok_iff [Mul K] [Add K] [Div K] [OfNat K 0] [OfNat K 1] [OfNat K 2] [OfNat K 3] (m : Str → Str → Bool) (sheet : Files K) (fs : FS)
    (install : PPath) (r : Reader K) (c : Compared K) :
    compareData (fun a b => .ok (m a b)) sheet fs install r = .ok c ↔
    ∃ path specs x formats labels scale colors,
      Says r "file".toList [] path ∧ Says r "columnsToPlot".toList [] specs ∧ Says r "xColumnName".toList "Time(s)".toList x ∧
      Says r "lineFormat".toList "k-".toList formats ∧ Says r "legendLabel".toList [] labels ∧
      SaysNumber r "scalingFactor".toList 1 scale ∧ Says r "lineColors".toList [] colors ∧
      ((r.text "file".toList = .error .keyError ∨ wsSplit specs = []) ∧ c = ⟨[], [], [], 1⟩ ∨
        r.text "file".toList = .ok path ∧ wsSplit specs ≠ [] ∧
          Comparison m (sheet (located fs install path)) (wsSplit specs) x (wsSplit formats) (wsSplit colors) (splitC ',' labels) scale c) := by
  have key : ∀ {α β : Type} (x : Except PyErr α) (f : α → Except PyErr β) (b : β), (x >>= f) = .ok b ↔ ∃ a, x = .ok a ∧ f a = .ok b := by
    intro α β x f b
    cases x with
    | error e => simp [bind, Except.bind]
    | ok a => simp [bind, Except.bind]
  unfold compareData
  simp only [key, tryText_ok_iff, tryNumber_ok_iff]
  generalize "file".toList = kFile at *
  generalize "columnsToPlot".toList = kCols at *
  generalize "xColumnName".toList = kX at *
  generalize "lineFormat".toList = kForm at *
  generalize "legendLabel".toList = kLab at *
  generalize "scalingFactor".toList = kScale at *
  generalize "lineColors".toList = kCol at *
  generalize "Time(s)".toList = dX at *
  generalize "k-".toList = dF at *
  constructor
  · rintro ⟨path, h1, specs, h2, x, h3, formats, h4, labels, h5, scale, h6, colors, h7, h⟩
    refine ⟨path, specs, x, formats, labels, scale, colors, h1, h2, h3, h4, h5, h6, h7, ?_⟩
    rcases h1 with h1 | ⟨h1, -⟩
    · rw [h1] at h
      dsimp only at h
      by_cases hs : wsSplit specs = []
      · rw [if_neg (by simp [hs])] at h
        injection h with h
        exact Or.inl ⟨Or.inr hs, h.symm⟩
      · rw [if_pos ⟨rfl, hs⟩] at h
        refine Or.inr ⟨h1, hs, ?_⟩
        unfold Comparison
        change (match sheet (located fs install path) with
          | .error .fileNotFound => _
          | .error e => _
          | .ok df => _) = _ at h
        cases ht : sheet (located fs install path) with
        | error e =>
          rw [ht] at h
          cases e <;> first | (injection h with h; exact Or.inl ⟨rfl, h.symm⟩) | exact nomatch h
        | ok df =>
          rw [ht] at h
          dsimp only at h
          rw [pick_spec] at h
          obtain ⟨cols, hc, h⟩ := (key _ _ _).1 h
          injection hc with hc
          have hc : hits m (withX x (wsSplit specs)) [] df = cols := hc
          subst hc
          refine Or.inr ⟨df, _, rfl, rfl, ?_⟩
          by_cases hx : x ∈ (hits m (withX x (wsSplit specs)) [] df).map Prod.fst
          · rw [if_neg (by simpa using hx)] at h
            by_cases hl : (hits m (withX x (wsSplit specs)) [] df).length = (wsSplit formats).length + 1
            · rw [if_neg (by simpa using hl)] at h
              obtain ⟨d, hd, h⟩ := (key _ _ _).1 h
              injection h with h
              exact Or.inr ⟨hx, hl, d, hd, h.symm⟩
            · rw [if_pos hl] at h
              injection h with h
              exact Or.inl ⟨Or.inr hl, h.symm⟩
          · rw [if_pos hx] at h
            injection h with h
            exact Or.inl ⟨Or.inl hx, h.symm⟩
    · rw [h1] at h
      rw [if_neg (by simp)] at h
      injection h with h
      exact Or.inl ⟨Or.inl h1, h.symm⟩
  · rintro ⟨path, specs, x, formats, labels, scale, colors, h1, h2, h3, h4, h5, h6, h7, h⟩
    refine ⟨path, h1, specs, h2, x, h3, formats, h4, labels, h5, scale, h6, colors, h7, ?_⟩
    rcases h with ⟨h, rfl⟩ | ⟨h1', hs, h⟩
    · rw [if_neg]
      rintro ⟨g1, g2⟩
      rcases h with h | h
      · rw [h] at g1; exact nomatch g1
      · exact g2 h
    · rw [h1']
      dsimp only
      rw [if_pos ⟨rfl, hs⟩]
      rcases h with ⟨ht, rfl⟩ | ⟨df, few, ht, rfl, h⟩
      · rw [ht]
      · rw [ht]
        dsimp only
        rw [pick_spec]
        refine (key _ _ _).2 ⟨hits m (withX x (wsSplit specs)) [] df, rfl, ?_⟩
        rcases h with ⟨h, rfl⟩ | ⟨hx, hl, d, hd, rfl⟩
        · by_cases hx : x ∈ (hits m (withX x (wsSplit specs)) [] df).map Prod.fst
          · rw [if_neg (by simpa using hx)]
            rcases h with h | h
            · exact absurd hx h
            · rw [if_pos h]; rfl
          · rw [if_pos hx]; rfl
        · rw [if_neg (by simpa using hx), if_neg (by simpa using hl)]
          exact (key _ _ _).2 ⟨d, hd, rfl⟩

/-! ## what is validated -/

/-- **C88.** Comparison data are validated exactly when they are meant for it, there are some, and the name asked for is part of the
dictionary's name, or of the only column's, or of the only curve's of the figure. -/
theorem toValidate_iff (target dict : Str) (valNames names : List Str) (flag : Bool) :
    toValidate target dict valNames names flag = true ↔ flag = true ∧ valNames ≠ [] ∧
      ((∃ v, valNames = [v] ∧ (target <:+: dict ∨ target <:+: v)) ∨ ∃ n, names = [n] ∧ target <:+: n) := by
  have one : ∀ l : List Str, (decide (l.length = 1) && (l.head?.map (isIn target)).getD false) = true ↔ ∃ n, l = [n] ∧ target <:+: n := by
    intro l
    cases l with
    | nil => simp
    | cons a t =>
      cases t with
      | nil => simp [isIn_iff]
      | cons b t => simp
  have h1 : (isIn target dict && decide (valNames.length = 1)) = true ↔ ∃ v, valNames = [v] ∧ target <:+: dict := by
    rw [Bool.and_eq_true, isIn_iff, decide_eq_true_eq, List.length_eq_one_iff]
    constructor
    · rintro ⟨a, v, b⟩; exact ⟨v, b, a⟩
    · rintro ⟨v, b, a⟩; exact ⟨a, v, b⟩
  unfold toValidate
  rw [Bool.and_eq_true, Bool.and_eq_true, Bool.or_eq_true, Bool.or_eq_true, one, one, h1, decide_eq_true_eq, List.length_pos_iff]
  constructor
  · rintro ⟨⟨a, (⟨v, b, c⟩ | ⟨v, b, c⟩) | ⟨n, b, c⟩⟩, d⟩
    · exact ⟨a, d, Or.inl ⟨v, b, Or.inl c⟩⟩
    · exact ⟨a, d, Or.inl ⟨v, b, Or.inr c⟩⟩
    · exact ⟨a, d, Or.inr ⟨n, b, c⟩⟩
  · rintro ⟨a, d, ⟨v, b, c | c⟩ | ⟨n, b, c⟩⟩
    · exact ⟨⟨a, Or.inl (Or.inl ⟨v, b, c⟩)⟩, d⟩
    · exact ⟨⟨a, Or.inl (Or.inr ⟨v, b, c⟩)⟩, d⟩
    · exact ⟨⟨a, Or.inr ⟨n, b, c⟩⟩, d⟩

/-- what a flag says: one of the words for yes, one of those for no, or the default when the key is missing -/
def SaysFlag (r : Reader K) (key : Str) (default v : Bool) : Prop :=
  (∃ s, r.text key = .ok s ∧
    (s.map Char.toLower ∈ ["y".toList, "yes".toList, "t".toList, "true".toList, "on".toList, "1".toList] ∧ v = true ∨
      s.map Char.toLower ∈ ["n".toList, "no".toList, "f".toList, "false".toList, "off".toList, "0".toList] ∧ v = false)) ∨
  r.text key = .error .keyError ∧ v = default

theorem strtobool_ok_iff (s : Str) (v : Bool) : strtobool s = .ok v ↔
    s.map Char.toLower ∈ ["y".toList, "yes".toList, "t".toList, "true".toList, "on".toList, "1".toList] ∧ v = true ∨
      s.map Char.toLower ∈ ["n".toList, "no".toList, "f".toList, "false".toList, "off".toList, "0".toList] ∧ v = false := by
  have hdis : ∀ w : Str, w ∈ ["y".toList, "yes".toList, "t".toList, "true".toList, "on".toList, "1".toList] →
      w ∉ ["n".toList, "no".toList, "f".toList, "false".toList, "off".toList, "0".toList] := by decide +kernel
  unfold strtobool
  dsimp only
  generalize s.map Char.toLower = w at *
  have := hdis w
  generalize ["y".toList, "yes".toList, "t".toList, "true".toList, "on".toList, "1".toList] = A at *
  generalize ["n".toList, "no".toList, "f".toList, "false".toList, "off".toList, "0".toList] = B at *
  by_cases h1 : w ∈ A
  · have h2 := this h1
    simp [h1, h2, eq_comm]
  · by_cases h2 : w ∈ B
    · simp [h1, h2, eq_comm]
    · simp [h1, h2]

theorem tryFlag_ok_iff (r : Reader K) (key : Str) (default v : Bool) : tryFlag r key default = .ok v ↔ SaysFlag r key default v := by
  unfold tryFlag SaysFlag
  cases h : r.text key with
  | ok s =>
    dsimp only
    rw [strtobool_ok_iff]
    constructor
    · intro h'; exact Or.inl ⟨s, rfl, h'⟩
    · rintro (⟨s', e, h'⟩ | ⟨e, -⟩)
      · injection e with e; subst e; exact h'
      · exact nomatch e
  | error e =>
    cases e <;> simp [eq_comm]

/-- what one dictionary of comparison data adds: marks, warnings, an error to report -/
structure Part (K : Type) where
  marks : List (Mark K)
  warnings : Nat
  error : Option K

/-- The data are drawn; they are validated against the curves when they are to be, which gives an error in percent, or a warning. -/
def Adds [Field K] [LinearOrder K] (m : Str → Str → Bool) (sheet : Files K) (fs : FS) (install : PPath) (reader : Str → Reader K)
    (target : Option Str) (acc : Acc K) (dict : Str) (p : Part K) : Prop :=
  ∃ c flag, compareData (fun a b => .ok (m a b)) sheet fs install (reader dict) = .ok c ∧
    SaysFlag (reader dict) "validationData".toList true flag ∧ p.marks = c.marks ∧
    ((∀ t, target = some t → toValidate t dict (c.cols.map Prod.fst) acc.names flag = false) ∧ p.warnings = c.warnings ∧ p.error = none ∨
     ∃ t, target = some t ∧ toValidate t dict (c.cols.map Prod.fst) acc.names flag = true ∧
      CaseM.validate acc.X acc.Y (c.cols.map Prod.snd) c.x = .ok p.error ∧ p.warnings = (if p.error.isSome then c.warnings else c.warnings + 1))

theorem stepComp_ok_iff [Field K] [LinearOrder K] (m : Str → Str → Bool) (sheet : Files K) (fs : FS) (install : PPath)
    (reader : Str → Reader K) (target : Option Str) (acc : Acc K) (st st' : Checked K) (dict : Str) :
    stepComp (fun a b => .ok (m a b)) sheet fs install reader target acc st dict = .ok st' ↔
    ∃ p, Adds m sheet fs install reader target acc dict p ∧
      st' = ⟨st.marks ++ p.marks, st.warnings + p.warnings, st.errors ++ (p.error.map fun e => (dict, e)).toList⟩ := by
  have key : ∀ {α β : Type} (x : Except PyErr α) (f : α → Except PyErr β) (b : β), (x >>= f) = .ok b ↔ ∃ a, x = .ok a ∧ f a = .ok b := by
    intro α β x f b
    cases x with
    | error e => simp [bind, Except.bind]
    | ok a => simp [bind, Except.bind]
  unfold stepComp Adds
  simp only [key, tryFlag_ok_iff]
  constructor
  · rintro ⟨c, hc, flag, hf, h⟩
    cases target with
    | none =>
      injection h with h
      exact ⟨⟨c.marks, c.warnings, none⟩, ⟨c, flag, hc, hf, rfl, Or.inl ⟨fun t ht => (nomatch ht), rfl, rfl⟩⟩, by rw [← h]; simp⟩
    | some t =>
      dsimp only at h
      by_cases hv : toValidate t dict (c.cols.map Prod.fst) acc.names flag = true
      · rw [if_pos hv] at h
        obtain ⟨v, h1, h2⟩ := (key _ _ _).1 h
        refine ⟨⟨c.marks, if v.isSome then c.warnings else c.warnings + 1, v⟩, ⟨c, flag, hc, hf, rfl, Or.inr ⟨t, rfl, hv, h1, rfl⟩⟩, ?_⟩
        cases v with
        | none => injection h2 with h2; rw [← h2]; simp [Nat.add_assoc]
        | some e => injection h2 with h2; rw [← h2]; simp
      · rw [if_neg hv] at h
        injection h with h
        refine ⟨⟨c.marks, c.warnings, none⟩, ⟨c, flag, hc, hf, rfl, Or.inl ⟨?_, rfl, rfl⟩⟩, by rw [← h]; simp⟩
        intro t' ht
        injection ht with ht
        subst ht
        simpa using hv
  · rintro ⟨⟨pm, pw, pe⟩, ⟨c, flag, hc, hf, e1, h⟩, rfl⟩
    dsimp only at e1 h
    subst e1
    refine ⟨c, hc, flag, hf, ?_⟩
    rcases h with ⟨h, rfl, rfl⟩ | ⟨t, rfl, hv, h1, hw⟩
    · cases target with
      | none => simp
      | some t =>
        dsimp only
        rw [if_neg (by simp [h t rfl])]
        simp
    · dsimp only
      rw [if_pos hv]
      refine (key _ _ _).2 ⟨pe, h1, ?_⟩
      cases pe with
      | none => simp at hw; subst hw; simp [Nat.add_assoc]
      | some e => simp at hw; subst hw; simp

/-- **C88.** The dictionaries of comparison data of a figure, exactly: each adds its part, in order; the warnings are summed, and every error
is reported with the name of its dictionary. -/
theorem comparisons_ok_iff [Field K] [LinearOrder K] (m : Str → Str → Bool) (sheet : Files K) (fs : FS) (install : PPath)
    (reader : Str → Reader K) (target : Option Str) (acc : Acc K) : ∀ (comps : List Str) (st st' : Checked K),
    comps.foldlM (stepComp (fun a b => .ok (m a b)) sheet fs install reader target acc) st = .ok st' ↔
    ∃ ps : List (Part K), List.Forall₂ (Adds m sheet fs install reader target acc) comps ps ∧
      st'.marks = st.marks ++ ps.flatMap Part.marks ∧ st'.warnings = st.warnings + (ps.map Part.warnings).sum ∧
      st'.errors = st.errors ++ (List.zipWith (fun dict p => (p.error.map fun e => (dict, e)).toList) comps ps).flatten
  | [], st, st' => by
    simp only [List.foldlM_nil, pure, Except.pure, Except.ok.injEq, List.forall₂_nil_left_iff]
    obtain ⟨a, b, c⟩ := st
    obtain ⟨a', b', c'⟩ := st'
    simp [eq_comm]
  | d :: comps, st, st' => by
    rw [List.foldlM_cons]
    have key : ∀ {α β : Type} (x : Except PyErr α) (f : α → Except PyErr β) (b : β), (x >>= f) = .ok b ↔ ∃ a, x = .ok a ∧ f a = .ok b := by
      intro α β x f b
      cases x with
      | error e => simp [bind, Except.bind]
      | ok a => simp [bind, Except.bind]
    rw [key]
    constructor
    · rintro ⟨st1, h1, h2⟩
      obtain ⟨p, hp, rfl⟩ := (stepComp_ok_iff ..).1 h1
      obtain ⟨ps, hps, e1, e2, e3⟩ := (comparisons_ok_iff m sheet fs install reader target acc comps _ st').1 h2
      refine ⟨p :: ps, List.Forall₂.cons hp hps, ?_, ?_, ?_⟩
      · rw [e1]; simp
      · rw [e2]; simp [Nat.add_assoc]
      · rw [e3]; simp
    · rintro ⟨ps, hps, e1, e2, e3⟩
      cases hps with
      | cons hp hps =>
        rename_i p ps
        refine ⟨_, (stepComp_ok_iff ..).2 ⟨p, hp, rfl⟩, (comparisons_ok_iff m sheet fs install reader target acc comps _ st').2 ⟨ps, hps, ?_, ?_, ?_⟩⟩
        · rw [e1]; simp
        · rw [e2]; simp [Nat.add_assoc]
        · rw [e3]; simp

/-! ## saving -/

theorem basename_spec (dir name : Str) (hn : '/' ∉ name) : basename (dir ++ '/' :: name) = name := by
  unfold basename
  have h : ∀ a ∈ name.reverse, decide (a ≠ '/') = true := by
    intro a ha
    simp only [List.mem_reverse] at ha
    simp only [decide_eq_true_eq]
    rintro rfl
    exact hn ha
  rw [List.reverse_append, List.reverse_cons, List.append_assoc, List.takeWhile_append_of_pos h]
  simp

theorem basename_bare (name : Str) (hn : '/' ∉ name) : basename name = name := by
  unfold basename
  have h : ∀ a ∈ name.reverse, decide (a ≠ '/') = true := by
    intro a ha
    simp only [List.mem_reverse] at ha
    simp only [decide_eq_true_eq]
    rintro rfl
    exact hn ha
  have := List.takeWhile_append_of_pos (l₂ := []) h
  rw [List.append_nil] at this
  rw [this]
  simp

theorem dirname_spec (dir name : Str) (hn : '/' ∉ name) (c : Char) (hc : dir.getLast? = some c) (hs : c ≠ '/') :
    dirname (dir ++ '/' :: name) = dir := by
  have h : ∀ a ∈ name.reverse, decide (a ≠ '/') = true := by
    intro a ha
    simp only [List.mem_reverse] at ha
    simp only [decide_eq_true_eq]
    rintro rfl
    exact hn ha
  have hd : ((dir ++ '/' :: name).reverse.dropWhile (· ≠ '/')).reverse = dir ++ ['/'] := by
    rw [List.reverse_append, List.reverse_cons, List.append_assoc, List.dropWhile_append_of_pos h]
    simp
  unfold dirname
  rw [hd]
  have hmem : c ∈ dir := List.mem_of_getLast? hc
  have hall : ¬ ((dir ++ ['/']).all (· = '/') = true) := by
    rw [List.all_eq_true]
    intro h
    have := h c (List.mem_append_left _ hmem)
    exact hs (by simpa using this)
  dsimp only
  rw [if_neg hall, List.reverse_append]
  obtain ⟨init, rfl⟩ : ∃ init, dir = init ++ [c] := by
    rw [List.getLast?_eq_some_iff] at hc
    exact hc
  simp [hs]

theorem dirname_bare (name : Str) (hn : '/' ∉ name) : dirname name = [] := by
  unfold dirname
  have : (name.reverse.dropWhile (· ≠ '/')) = [] := by
    have h : ∀ a ∈ name.reverse, decide (a ≠ '/') = true := by
      intro a ha
      simp only [List.mem_reverse] at ha
      simp only [decide_eq_true_eq]
      rintro rfl
      exact hn ha
    have := List.dropWhile_append_of_pos (l₂ := []) h
    rwa [List.append_nil] at this
  rw [this]
  simp

theorem noExtension_dot (a b : Str) (hb : '.' ∉ b) : noExtension (a ++ '.' :: b) = a := by
  unfold noExtension
  have h : ∀ c ∈ b.reverse, decide (c ≠ '.') = true := by
    intro c hc
    simp only [List.mem_reverse] at hc
    simp only [decide_eq_true_eq]
    rintro rfl
    exact hb hc
  rw [if_pos (by simp), List.reverse_append, List.reverse_cons, List.append_assoc, List.dropWhile_append_of_pos h]
  simp

theorem noExtension_none (a : Str) (ha : '.' ∉ a) : noExtension a = a := by
  unfold noExtension
  rw [if_neg ha]

/-- **C88.** A name with an extension: the image and the document are returned under that name in the directory, with their own extensions; they
are written unless they exist and are not to be overwritten. -/
theorem saved_partial (fs : FS) (dir stem ext : Str) (he : '.' ∉ ext) (overwrite : Bool) :
    (saveFigure fs (stem ++ '.' :: ext) dir overwrite true false true).2 =
      [dir ++ '/' :: stem ++ ".png".toList, dir ++ '/' :: stem ++ ".pdf".toList] ∧
    ∀ p, p ∈ (saveFigure fs (stem ++ '.' :: ext) dir overwrite true false true).1 ↔
      (p = dir ++ '/' :: stem ++ ".png".toList ∨ p = dir ++ '/' :: stem ++ ".pdf".toList) ∧ (overwrite = true ∨ fs.there p = false) := by
  have h : noExtension (dir ++ '/' :: (stem ++ '.' :: ext)) = dir ++ '/' :: stem := by
    have := noExtension_dot (dir ++ '/' :: stem) ext he
    rwa [List.append_assoc, List.cons_append] at this
  unfold saveFigure
  rw [h]
  refine ⟨rfl, fun p => ?_⟩
  simp only [if_true, Bool.false_eq_true, if_false, List.append_nil, List.mem_filter, List.mem_append, List.mem_cons, List.not_mem_nil, or_false,
    Bool.or_eq_true, Bool.not_eq_true']

example : '.' ∉ "png".toList := by decide +kernel

/-- **C88 (partial).** A name without an extension in a directory without dots; with dots see `dot_directory_violated`. -/
theorem saved_plain_partial (fs : FS) (dir name : Str) (hd : '.' ∉ dir) (hn : '.' ∉ name) (overwrite : Bool) :
    (saveFigure fs name dir overwrite true false true).2 = [dir ++ '/' :: name ++ ".png".toList, dir ++ '/' :: name ++ ".pdf".toList] ∧
    ∀ p, p ∈ (saveFigure fs name dir overwrite true false true).1 ↔
      (p = dir ++ '/' :: name ++ ".png".toList ∨ p = dir ++ '/' :: name ++ ".pdf".toList) ∧ (overwrite = true ∨ fs.there p = false) := by
  have h : noExtension (dir ++ '/' :: name) = dir ++ '/' :: name := noExtension_none _ (by simp [hd, hn])
  unfold saveFigure
  rw [h]
  refine ⟨rfl, fun p => ?_⟩
  simp only [if_true, Bool.false_eq_true, if_false, List.append_nil, List.mem_filter, List.mem_append, List.mem_cons, List.not_mem_nil, or_false,
    Bool.or_eq_true, Bool.not_eq_true']

example : '.' ∉ "plots".toList ∧ '.' ∉ "altitude".toList := by decide +kernel

/-- **C88** violated: for a name without an extension the last dot of the directory is taken for the start of one, so that everything after it,
the name of the figure included, is lost. -/
theorem dot_directory_violated (fs : FS) (a b name : Str) (hb : '.' ∉ b) (hn : '.' ∉ name) (overwrite : Bool) :
    (saveFigure fs name (a ++ '.' :: b) overwrite true false true).2 = [a ++ ".png".toList, a ++ ".pdf".toList] := by
  have h : noExtension (a ++ '.' :: b ++ '/' :: name) = a := by
    rw [List.append_assoc, List.cons_append]
    exact noExtension_dot a (b ++ '/' :: name) (by simp [hb, hn])
  unfold saveFigure
  rw [h]
  rfl

example (fs : FS) : (saveFigure fs "altitude".toList "./plots".toList true true false true).2 = [".png".toList, ".pdf".toList] :=
  dot_directory_violated fs [] "/plots".toList "altitude".toList (by decide +kernel) (by decide +kernel) true

/-- **C88** violated: files that were not written because they exist are returned as saved. -/
theorem returned_violated (fs : FS) (dir stem ext : Str) (he : '.' ∉ ext) (h1 : fs.there (dir ++ '/' :: stem ++ ".png".toList) = true)
    (h2 : fs.there (dir ++ '/' :: stem ++ ".pdf".toList) = true) :
    (saveFigure fs (stem ++ '.' :: ext) dir false true false true).1 = [] ∧
    (saveFigure fs (stem ++ '.' :: ext) dir false true false true).2.length = 2 := by
  obtain ⟨h, h'⟩ := saved_partial fs dir stem ext he false
  refine ⟨List.eq_nil_iff_forall_not_mem.2 fun p hp => ?_, by rw [h]; rfl⟩
  obtain ⟨rfl | rfl, h3 | h3⟩ := (h' p).1 hp
  · exact nomatch h3
  · rw [h1] at h3; exact nomatch h3
  · exact nomatch h3
  · rw [h2] at h3; exact nomatch h3

/-- **C88.** The directory of the figure: as written when it exists, else below the installation when that exists, else as written (created). -/
theorem saveDirectory_spec (fs : FS) {d v : Str} (hd : Absolute d) (hv : Plain v) :
    saveDirectory fs (PPath.ofStr d) v =
      if fs.there v = true then v else if fs.there (d ++ '/' :: v) = true then d ++ '/' :: v else v := by
  unfold saveDirectory
  simp only [under_str hd hv]

/-- **C88** violated: a bare file name is not saved to the current directory but to the directory of the installation. -/
theorem bare_name_violated (fs : FS) {d : Str} (hd : Absolute d) (name : Str) (hn : '/' ∉ name) (h1 : fs.there [] = false)
    (h2 : fs.there d = true) : saveDirectory fs (PPath.ofStr d) (dirname name) = d := by
  rw [dirname_bare name hn]
  have : ((PPath.ofStr d).under (PPath.ofStr [])).str = d := by
    obtain ⟨h3, h4⟩ := absolute_str hd
    have : (PPath.ofStr d).under (PPath.ofStr []) = PPath.ofStr d := by
      generalize PPath.ofStr d = p
      obtain ⟨a, b⟩ := p
      have : PPath.ofStr [] = ⟨false, []⟩ := by decide +kernel
      rw [this]
      simp [PPath.under]
    rw [this, h3]
  unfold saveDirectory
  simp only [this]
  rw [if_neg (by simp [h1]), if_pos h2]

/-! ## a figure -/

/-- **C88.** A finished figure, exactly: settings from its dictionary, the curves of the logs, then the comparison data; a legend when a mark has
a label that is shown; saved at the place written, or not at all without one. -/
theorem generate_ok_iff [Field K] [LinearOrder K] (m : Str → Str → Bool) (sheet : Files K) (fs : FS) (install : PPath) (known : Str → Bool)
    (reader : Str → Reader K) (plot : Str) (comps : List Str) (target : Option Str) (logs : List Str) (f : Figure K) :
    generate (fun a b => .ok (m a b)) sheet fs install known reader plot comps target logs = .ok f ↔
    ∃ acc ps location overwrite, setUp known (reader plot) = .ok f.settings ∧
      plotLogs (fun a b => .ok (m a b)) sheet f.settings logs = .ok acc ∧
      List.Forall₂ (Adds m sheet fs install reader target acc) comps ps ∧
      (reader plot).text "saveLocation".toList = .ok location ∧ SaysFlag (reader plot) "overwrite".toList true overwrite ∧
      f.marks = acc.marks ++ ps.flatMap Part.marks ∧ f.xLim = acc.lim ∧
      (f.legend = true ↔ ∃ k ∈ f.marks, ∃ c l, k.label = some (c :: l) ∧ c ≠ '_') ∧
      f.warnings = (ps.map Part.warnings).sum ∧
      f.errors = (List.zipWith (fun dict p => (p.error.map fun e => (dict, e)).toList) comps ps).flatten ∧
      (f.written, f.returned) = saveFigure fs (basename location) (saveDirectory fs install (dirname location)) overwrite true false true := by
  have key : ∀ {α β : Type} (x : Except PyErr α) (f : α → Except PyErr β) (b : β), (x >>= f) = .ok b ↔ ∃ a, x = .ok a ∧ f a = .ok b := by
    intro α β x f b
    cases x with
    | error e => simp [bind, Except.bind]
    | ok a => simp [bind, Except.bind]
  have hvis : ∀ l : List (Mark K), l.any visible = true ↔ ∃ k ∈ l, ∃ c t, k.label = some (c :: t) ∧ c ≠ '_' := by
    intro l
    rw [List.any_eq_true]
    refine exists_congr fun k => and_congr_right fun _ => ?_
    unfold visible
    rcases k.label with _ | _ | ⟨c, t⟩
    · simp
    · simp
    · simp
  unfold generate
  simp only [key, tryFlag_ok_iff]
  generalize "saveLocation".toList = k1
  generalize "overwrite".toList = k2
  constructor
  · rintro ⟨s, h1, acc, h2, st, h3, loc, h4, ow, h5, h⟩
    injection h with h
    subst h
    obtain ⟨ps, g1, g2, g3, g4⟩ := (comparisons_ok_iff ..).1 h3
    exact ⟨acc, ps, loc, ow, h1, h2, g1, h4, h5, g2, rfl, hvis _, by simpa using g3, by simpa using g4, rfl⟩
  · rintro ⟨acc, ps, loc, ow, h1, h2, g1, h4, h5, g2, g5, g6, g3, g4, g7⟩
    refine ⟨_, h1, acc, h2, ⟨f.marks, f.warnings, f.errors⟩, (comparisons_ok_iff ..).2 ⟨ps, g1, g2, by simpa using g3, by simpa using g4⟩,
      loc, h4, ow, h5, ?_⟩
    obtain ⟨fs', fm, fx, fl, fw, fe, fwr, fr⟩ := f
    dsimp only at *
    rw [← g7, g5]
    congr 2
    rw [Bool.eq_iff_iff, hvis, g6]

/-- **C88** violated: without a place to save it the figure is drawn in full and then lost, with a `KeyError` that ends the whole batch. -/
theorem no_location_violated [Field K] [LinearOrder K] (m : Str → Str → Bool) (sheet : Files K) (fs : FS) (install : PPath) (known : Str → Bool)
    (reader : Str → Reader K) (plot : Str) (comps : List Str) (target : Option Str) (logs : List Str) (s : Settings K) (acc : Acc K) (st : Checked K)
    (h1 : setUp known (reader plot) = .ok s) (h2 : plotLogs (fun a b => .ok (m a b)) sheet s logs = .ok acc)
    (h3 : comps.foldlM (stepComp (fun a b => .ok (m a b)) sheet fs install reader target acc) ⟨acc.marks, 0, []⟩ = .ok st)
    (h : (reader plot).text "saveLocation".toList = .error .keyError) :
    generate (fun a b => .ok (m a b)) sheet fs install known reader plot comps target logs = .error .keyError := by
  unfold generate
  rw [h1]
  simp only [bind, Except.bind]
  rw [h2]
  dsimp only
  rw [h3]
  dsimp only
  rw [h]

/-! ## witness -/

/-- a figure of column `A` with one set of comparison data -/
def exReader (dict : Str) : Reader ℚ where
  text key :=
    if dict = "Plot".toList then
      if key = "columnsToPlot".toList then .ok "A".toList
      else if key = "saveLocation".toList then .ok "plots/a.png".toList
      else .error .keyError
    else
      if key = "columnsToPlot".toList then .ok "Alt".toList
      else if key = "file".toList then .ok "comp".toList
      else .error .keyError
  float _ := none

/-- the logs and a table of comparison data -/
def exTables : Files ℚ := fun p =>
  if p = "comp".toList then .ok [("Time(s)".toList, [0, 1]), ("Alt".toList, [10, 3])] else exSheet p

example : ((generate (fun _ _ => .ok false) exTables ⟨fun p => p = "plots".toList, fun _ => false⟩ ⟨true, ["opt".toList]⟩ (fun _ => false) exReader
    "Plot".toList ["Plot.Comp".toList] (some "A".toList) ["one".toList]).toOption.map fun f => (f.returned, f.marks.length, f.warnings, f.legend)) =
      some (["plots/a.png".toList, "plots/a.pdf".toList], 2, 0, true) ∧
    ((generate (fun _ _ => .ok false) exTables ⟨fun p => p = "plots".toList, fun _ => false⟩ ⟨true, ["opt".toList]⟩ (fun _ => false) exReader
    "Plot".toList ["Plot.Comp".toList] (some "A".toList) ["one".toList]).toOption.map fun f => f.errors) =
      some [("Plot.Comp".toList, 25)] := by
  constructor <;> decide +kernel

end Mapleaf.Run.Fig
