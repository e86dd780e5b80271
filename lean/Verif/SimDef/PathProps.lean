import Verif.SimDef.PathModel

/-!
# Properties of file paths in simulation definitions (C78)

Statements are about the texts of paths: `d/v` is written `d ++ '/' :: v`.
-/

namespace Mapleaf.Path
open Mapleaf Mapleaf.Str

/-- names of files and directories: not empty, not `.`, without slash -/
def Names (l : List Str) : Prop := ∀ c ∈ l, c ≠ [] ∧ c ≠ ['.'] ∧ '/' ∉ c

/-- text of a relative path in its shortest form -/
def Plain (s : Str) : Prop := ∃ l, l ≠ [] ∧ Names l ∧ s = join ['/'] l

/-- text of an absolute path below the root in its shortest form -/
def Absolute (s : Str) : Prop := ∃ l, l ≠ [] ∧ Names l ∧ s = '/' :: join ['/'] l

theorem splitC_cons_sep (s : Str) : splitC '/' ('/' :: s) = [] :: splitC '/' s := by
  simp [splitC, splitP]

theorem filter_names {l : List Str} (h : Names l) : (l.filter fun c => c ≠ [] ∧ c ≠ ['.']) = l := by
  rw [List.filter_eq_self]
  intro c hc
  simp [(h c hc).1, (h c hc).2.1]

theorem join_head {l : List Str} (hn : l ≠ []) (h : Names l) : (join ['/'] l).head? ≠ some '/' := by
  obtain ⟨a, r, rfl⟩ := List.exists_cons_of_ne_nil hn
  obtain ⟨ha, -, hs⟩ := h a (by simp)
  obtain ⟨c, t, rfl⟩ := List.exists_cons_of_ne_nil ha
  have : (join ['/'] ((c :: t) :: r)).head? = some c := by
    cases r <;> simp [join]
  rw [this]
  intro e
  simp only [Option.some.injEq] at e
  subst e
  simp at hs

theorem ofStr_plain {l : List Str} (hn : l ≠ []) (h : Names l) : PPath.ofStr (join ['/'] l) = ⟨false, l⟩ := by
  unfold PPath.ofStr
  rw [splitC_join '/' hn fun s hs => (h s hs).2.2, filter_names h]
  have := join_head hn h
  simp [this]

theorem ofStr_absolute {l : List Str} (hn : l ≠ []) (h : Names l) : PPath.ofStr ('/' :: join ['/'] l) = ⟨true, l⟩ := by
  unfold PPath.ofStr
  rw [splitC_cons_sep, splitC_join '/' hn fun s hs => (h s hs).2.2, List.filter_cons_of_neg (by simp), filter_names h]
  simp

theorem parts_names (s : Str) : Names (PPath.ofStr s).parts := by
  intro c hc
  simp only [PPath.ofStr, List.mem_filter, decide_eq_true_eq] at hc
  exact ⟨hc.2.1, hc.2.2, splitC_no_sep c hc.1⟩

/-- **C78.** Paths have one text: writing a path and reading it again gives the same path. -/
theorem ofStr_str (s : Str) : PPath.ofStr (PPath.ofStr s).str = PPath.ofStr s := by
  have h := parts_names s
  generalize PPath.ofStr s = p at h
  obtain ⟨r, l⟩ := p
  by_cases hn : l = []
  · subst hn
    cases r <;> decide
  · cases r
    · have : (PPath.mk false l).str = join ['/'] l := by simp [PPath.str, hn]
      rw [this, ofStr_plain hn h]
    · exact ofStr_absolute hn h

theorem plain_str {s : Str} (h : Plain s) : (PPath.ofStr s).str = s ∧ (PPath.ofStr s).rooted = false := by
  obtain ⟨l, hn, hl, rfl⟩ := h
  rw [ofStr_plain hn hl]
  simp [PPath.str, hn]

theorem absolute_str {s : Str} (h : Absolute s) : (PPath.ofStr s).str = s ∧ (PPath.ofStr s).rooted = true := by
  obtain ⟨l, hn, hl, rfl⟩ := h
  rw [ofStr_absolute hn hl]
  simp [PPath.str]

theorem join_append_list {l m : List Str} (hl : l ≠ []) (hm : m ≠ []) :
    join ['/'] (l ++ m) = join ['/'] l ++ '/' :: join ['/'] m := by
  induction l with
  | nil => exact absurd rfl hl
  | cons a r ih =>
    by_cases hr : r = []
    · subst hr
      rw [List.singleton_append, join_cons _ _ hm]
      simp [join]
    · rw [List.cons_append, join_cons _ _ (by simp [hr]), ih hr, join_cons _ _ hr]
      simp

theorem Names.append {l m : List Str} (hl : Names l) (hm : Names m) : Names (l ++ m) := by
  intro c hc
  rcases List.mem_append.1 hc with h | h
  · exact hl c h
  · exact hm c h

theorem under_str {d s : Str} (hd : Absolute d) (hs : Plain s) :
    ((PPath.ofStr d).under (PPath.ofStr s)).str = d ++ '/' :: s := by
  obtain ⟨l, hn, hl, rfl⟩ := hd
  obtain ⟨m, hm, hlm, rfl⟩ := hs
  rw [ofStr_absolute hn hl, ofStr_plain hm hlm]
  simp [PPath.under, PPath.str, join_append_list hn hm]

theorem absolute_under {d s : Str} (hd : Absolute d) (hs : Plain s) : Absolute (d ++ '/' :: s) := by
  obtain ⟨l, hn, hl, rfl⟩ := hd
  obtain ⟨m, hm, hlm, rfl⟩ := hs
  refine ⟨l ++ m, by simp [hn], hl.append hlm, ?_⟩
  rw [join_append_list hn hm]
  rfl

theorem parent_str {d n : Str} (hd : Absolute d) (hn : Names [n]) : (PPath.ofStr (d ++ '/' :: n)).parent = PPath.ofStr d := by
  obtain ⟨l, hne, hl, rfl⟩ := hd
  have : '/' :: join ['/'] l ++ '/' :: n = '/' :: join ['/'] (l ++ [n]) := by
    rw [join_append_list hne (by simp)]
    rfl
  rw [this, ofStr_absolute (by simp) (hl.append hn), ofStr_absolute hne hl]
  simp [PPath.parent]

/-- **C78.** A path of the repository becomes the path in the installation exactly when that exists. -/
theorem resolve_install (fs : FS) {d v : Str} (hd : Absolute d) (hv : Plain v) :
    getAbsoluteFilePath fs (PPath.ofStr d) v none = if fs.there (d ++ '/' :: v) then d ++ '/' :: v else v := by
  simp only [getAbsoluteFilePath, under_str hd hv, (plain_str hv).1]

/-- **C78.** With another directory to look in: the installation first, then the directory. -/
theorem resolve_directory (fs : FS) {d v a : Str} (hd : Absolute d) (hv : Plain v) (ha : Absolute a)
    (hf : fs.isFile a = false) :
    getAbsoluteFilePath fs (PPath.ofStr d) v (some (PPath.ofStr a)) =
      if fs.there (d ++ '/' :: v) then d ++ '/' :: v
      else if fs.there (a ++ '/' :: v) then a ++ '/' :: v else v := by
  simp only [getAbsoluteFilePath, under_str hd hv, under_str ha hv, (plain_str hv).1, (absolute_str ha).1, hf,
    Bool.false_eq_true, if_false]

/-- **C78.** With another file to look beside: the installation first, then the directory of the file. -/
theorem resolve_beside (fs : FS) {d v a n : Str} (hd : Absolute d) (hv : Plain v) (ha : Absolute a) (hn : Names [n])
    (hf : fs.isFile (a ++ '/' :: n) = true) :
    getAbsoluteFilePath fs (PPath.ofStr d) v (some (PPath.ofStr (a ++ '/' :: n))) =
      if fs.there (d ++ '/' :: v) then d ++ '/' :: v
      else if fs.there (a ++ '/' :: v) then a ++ '/' :: v else v := by
  have hp : Plain n := ⟨[n], by simp, hn, by simp [join]⟩
  simp only [getAbsoluteFilePath, under_str hd hv, (plain_str hv).1, (absolute_str (absolute_under ha hp)).1, hf,
    if_true, parent_str ha hn, under_str ha hv]

/-- **C78.** Absolute paths mean themselves, whatever exists. -/
theorem resolve_absolute (fs : FS) (install : PPath) {v : Str} (hv : Absolute v) (alt : Option PPath) :
    getAbsoluteFilePath fs install v alt = v := by
  obtain ⟨h1, h2⟩ := absolute_str hv
  unfold getAbsoluteFilePath
  simp only [PPath.under, h2, if_true, h1]
  cases alt with
  | none => simp
  | some a => simp [h1]

theorem absolute_head {v : Str} (h : Absolute v) : v.head? = some '/' := by
  obtain ⟨l, -, -, rfl⟩ := h
  rfl

/-! ### Values of a definition -/

/-- a path that starts below the repository, `MAPLEAF/…` -/
def OfRepository (v : Str) : Prop := ∃ r, r ≠ [] ∧ v = "MAPLEAF/".toList ++ r

/-- the value names a file by one of the known endings -/
def NamesFile (v : Str) : Prop :=
  ".csv".toList <:+: v ∨ ".pdf".toList <:+: v ∨ ".mapleaf".toList <:+: v ∨ ".txt".toList <:+: v ∨ ".py".toList <:+: v ∨
    ".eng".toList <:+: v

theorem isFileName_iff (v : Str) : isFileName v = true ↔ NamesFile v := by
  simp only [isFileName, NamesFile, List.any_cons, List.any_nil, Bool.or_false, Bool.or_eq_true, isIn_iff]

theorem relative_iff (v : Str) : pathIsRelativeToRepository v = true ↔ OfRepository v := by
  simp only [pathIsRelativeToRepository, Bool.and_eq_true, decide_eq_true_eq]
  constructor
  · rintro ⟨h1, h2⟩
    refine ⟨v.drop 8, ?_, ?_⟩
    · intro h
      have := congrArg List.length h
      simp at this
      omega
    · rw [← h2, List.take_append_drop]
  · rintro ⟨r, hr, rfl⟩
    have h8 : ("MAPLEAF/".toList).length = 8 := by decide +kernel
    refine ⟨?_, ?_⟩
    · have := List.length_pos_iff.2 hr
      rw [List.length_append, h8]
      omega
    · rw [← h8, List.take_left]

theorem noDot_dot (v : Str) : noDot ("./".toList ++ v) = v := by
  have : ("./".toList : Str) = ['.', '/'] := by decide +kernel
  simp [noDot, this]

theorem noDot_other {v : Str} (h : ∀ r, v ≠ '.' :: '/' :: r) : noDot v = v := by
  have h2 : ("./".toList : Str) = ['.', '/'] := by decide +kernel
  unfold noDot
  rw [h2, if_neg]
  intro e
  match v, h, e with
  | a :: b :: r, h, e =>
    simp only [List.take_succ_cons, List.take_zero, List.cons.injEq, and_true] at e
    exact h r (by rw [e.1, e.2])
  | [a], _, e => simp at e
  | [], _, e => simp at e

theorem plain_noDot {v : Str} (h : Plain v) : ∀ r, v ≠ '.' :: '/' :: r := by
  rintro r rfl
  obtain ⟨l, hn, hl, he⟩ := h
  have := congrArg (splitC '/') he
  rw [splitC_join '/' hn fun s hs => (hl s hs).2.2] at this
  have h1 : splitC '/' ('.' :: '/' :: r) = ['.'] :: splitC '/' r := by
    have := splitC_cons_sep r
    simp only [splitC, splitP] at this ⊢
    simp
  rw [h1] at this
  have hm : ['.'] ∈ l := by rw [← this]; simp
  exact (hl _ hm).2.1 rfl

theorem join_dir {d v : Str} (hd : Absolute d) (hv : Plain v) : osJoin d v = d ++ '/' :: v := by
  have h1 : v.head? ≠ some '/' := by
    obtain ⟨l, hn, hl, rfl⟩ := hv
    exact join_head hn hl
  have h2 : d ≠ [] := by
    obtain ⟨l, -, -, rfl⟩ := hd
    simp
  have h3 : d.getLast? ≠ some '/' := by
    obtain ⟨l, hn, hl, rfl⟩ := hd
    obtain ⟨m, c, rfl⟩ : ∃ m c, l = m ++ [c] := ⟨_, _, (List.dropLast_append_getLast hn).symm⟩
    obtain ⟨hc, -, hs⟩ := hl c (by simp)
    have : ∃ x, '/' :: join ['/'] (m ++ [c]) = x ++ c := by
      by_cases hm : m = []
      · subst hm
        exact ⟨['/'], by simp [join]⟩
      · exact ⟨'/' :: (join ['/'] m ++ ['/']), by rw [join_append_list hm (by simp)]; simp [join]⟩
    obtain ⟨x, hx⟩ := this
    rw [hx, List.getLast?_append_of_ne_nil _ hc]
    intro e
    exact hs (List.mem_of_getLast? e)
  simp [osJoin, h1, h2, h3]

/-- **C78.** The value of a key after reading a definition, for values in shortest form, with or without a leading `./`: the file
beside the definition, else the one of the installation, else the value itself. -/
theorem value_spec (fs : FS) {d i v w : Str} (hd : Absolute d) (hi : Absolute i) (hv : Plain v)
    (hw : w = v ∨ w = "./".toList ++ v) :
    (NamesFile v ∧ fs.there (d ++ '/' :: v) = true → replaceValue fs (PPath.ofStr i) (some d) w = d ++ '/' :: v) ∧
    (¬ (NamesFile v ∧ fs.there (d ++ '/' :: v) = true) → OfRepository v →
      (fs.there (i ++ '/' :: v) = true → replaceValue fs (PPath.ofStr i) (some d) w = i ++ '/' :: v) ∧
      (fs.there (i ++ '/' :: v) = false → replaceValue fs (PPath.ofStr i) (some d) w = v)) ∧
    (¬ (NamesFile v ∧ fs.there (d ++ '/' :: v) = true) → ¬ OfRepository v →
      replaceValue fs (PPath.ofStr i) (some d) w = w) := by
  have hdot : noDot w = v := by
    rcases hw with rfl | rfl
    · exact noDot_other (plain_noDot hv)
    · exact noDot_dot v
  simp only [← isFileName_iff, ← relative_iff]
  unfold replaceValue
  simp only [hdot, join_dir hd hv, resolve_install fs hi hv]
  refine ⟨?_, ?_, ?_⟩
  · rintro ⟨h1, h2⟩
    simp [h1, h2]
  · intro h1 h2
    simp only [h2, if_true]
    by_cases h3 : isFileName v = true
    · have h4 : fs.there (d ++ '/' :: v) = false := by simpa [h3] using h1
      constructor <;> intro h <;> simp [h3, h4, h]
    · constructor <;> intro h <;> simp [h3, h]
  · intro h1 h2
    simp only [h2]
    by_cases h3 : isFileName v = true
    · have h4 : fs.there (d ++ '/' :: v) = false := by simpa [h3] using h1
      simp [h3, h4]
    · simp [h3]

/-- **C78.** Absolute paths are kept, and so is every other value that starts with a slash, with any files, directories and
installation. -/
theorem value_absolute (fs : FS) (install : PPath) (dir : Option Str) (v : Str) (h : v.head? = some '/') :
    replaceValue fs install dir v = v := by
  obtain ⟨r, rfl⟩ : ∃ r, v = '/' :: r := by
    cases v with
    | nil => simp at h
    | cons a r => simp only [List.head?_cons, Option.some.injEq] at h; exact ⟨r, by rw [h]⟩
  have hdot : noDot ('/' :: r) = '/' :: r := noDot_other (by intro s e; simp at e)
  have hrel : pathIsRelativeToRepository ('/' :: r) = false := by
    rw [Bool.eq_false_iff, ne_eq, relative_iff]
    rintro ⟨s, -, e⟩
    have : ("MAPLEAF/".toList : Str) = 'M' :: "APLEAF/".toList := by decide +kernel
    rw [this] at e
    simp at e
  unfold replaceValue
  simp only [hdot, hrel, osJoin, List.head?_cons, if_true]
  cases dir <;> simp

/-- **C78.** A definition can be written out, moved and read again from anywhere: a value that was resolved stays as it is. -/
theorem value_again (fs fs' : FS) {d i v w : Str} (hd : Absolute d) (hi : Absolute i) (hv : Plain v)
    (hw : w = v ∨ w = "./".toList ++ v) (install' : PPath) (dir' : Option Str)
    (h : replaceValue fs (PPath.ofStr i) (some d) w ≠ v) (h' : replaceValue fs (PPath.ofStr i) (some d) w ≠ w) :
    replaceValue fs' install' dir' (replaceValue fs (PPath.ofStr i) (some d) w) =
      replaceValue fs (PPath.ofStr i) (some d) w := by
  apply value_absolute
  obtain ⟨s1, s2, s3⟩ := value_spec fs hd hi hv hw
  by_cases c1 : NamesFile v ∧ fs.there (d ++ '/' :: v) = true
  · rw [s1 c1]
    exact absolute_head (absolute_under hd hv)
  · by_cases c2 : OfRepository v
    · cases c3 : fs.there (i ++ '/' :: v)
      · exact absurd ((s2 c1 c2).2 c3) h
      · rw [(s2 c1 c2).1 c3]
        exact absolute_head (absolute_under hi hv)
    · exact absurd (s3 c1 c2) h'

/-- **C78.** Values that are no paths are kept, even without a definition file. -/
theorem value_other (fs : FS) (install : PPath) (dir : Option Str) (v : Str) (hd : ∀ r, v ≠ '.' :: '/' :: r)
    (hf : ¬ NamesFile v) (hr : ¬ OfRepository v) : replaceValue fs install dir v = v := by
  rw [← isFileName_iff] at hf
  rw [← relative_iff] at hr
  unfold replaceValue
  simp only [noDot_other hd, hf, hr]
  rfl

/-- **C78.** No key is lost, added or moved; each key's value depends on its own value only. -/
theorem replacePaths_spec (fs : FS) (install : PPath) (dir : Option Str) (D : Dict Str Str) :
    Dict.keys (replacePaths fs install dir D) = Dict.keys D ∧
    ∀ k, Dict.get? (replacePaths fs install dir D) k = (Dict.get? D k).map (replaceValue fs install dir) := by
  constructor
  · simp [Dict.keys, replacePaths, Function.comp_def]
  · intro k
    induction D with
    | nil => rfl
    | cons p D ih =>
      obtain ⟨a, b⟩ := p
      have : replacePaths fs install dir ((a, b) :: D) = (a, replaceValue fs install dir b) :: replacePaths fs install dir D := rfl
      rw [this]
      unfold Dict.get?
      by_cases h : a = k
      · simp [h]
      · simp only [h, if_false]
        exact ih

/-! ### Finding the definition file -/

theorem searchName_two (fs : FS) {d v a b : Str} (hd : Absolute d) (hv : Plain v) (ha : Absolute a) (hb : Absolute b)
    (hf : ∀ s, fs.there s = fs.isFile s) (hfa : fs.isFile a = false) (hfb : fs.isFile b = false) :
    searchName fs (PPath.ofStr d) v [PPath.ofStr a, PPath.ofStr b] =
      [d ++ '/' :: v, a ++ '/' :: v, v, b ++ '/' :: v].find? fs.isFile := by
  simp only [searchName, resolve_directory fs hd hv ha hfa, resolve_directory fs hd hv hb hfb, hf]
  cases h1 : fs.isFile (d ++ '/' :: v) <;> cases h2 : fs.isFile (a ++ '/' :: v) <;> cases h3 : fs.isFile (b ++ '/' :: v) <;>
    cases h4 : fs.isFile v <;> simp [h1, h2, h3, h4]

theorem examples_plain : Plain "MAPLEAF/Examples/Simulations".toList ∧ Plain "MAPLEAF/Examples/BatchSims".toList := by
  constructor
  · refine ⟨["MAPLEAF".toList, "Examples".toList, "Simulations".toList], by simp, ?_, by decide +kernel⟩
    intro c hc
    revert c
    decide +kernel
  · refine ⟨["MAPLEAF".toList, "Examples".toList, "BatchSims".toList], by simp, ?_, by decide +kernel⟩
    intro c hc
    revert c
    decide +kernel

theorem examples_place {i : Str} (hi : Absolute i) :
    (PPath.ofStr i).under (PPath.ofStr "MAPLEAF/Examples/Simulations/".toList) =
      PPath.ofStr (i ++ "/MAPLEAF/Examples/Simulations".toList) ∧
    (PPath.ofStr i).under (PPath.ofStr "MAPLEAF/Examples/BatchSims/".toList) =
      PPath.ofStr (i ++ "/MAPLEAF/Examples/BatchSims".toList) := by
  have key : ∀ s t : Str, Plain s → PPath.ofStr t = PPath.ofStr s →
      (PPath.ofStr i).under (PPath.ofStr t) = PPath.ofStr (i ++ '/' :: s) := by
    intro s t hs ht
    rw [ht, ← under_str hi hs]
    obtain ⟨l, hn, hl, rfl⟩ := hi
    obtain ⟨m, hm, hlm, rfl⟩ := hs
    rw [ofStr_absolute hn hl, ofStr_plain hm hlm]
    have : ((PPath.mk true l).under ⟨false, m⟩) = ⟨true, l ++ m⟩ := by simp [PPath.under]
    rw [this]
    have h2 : (PPath.mk true (l ++ m)).str = '/' :: join ['/'] (l ++ m) := by simp [PPath.str]
    rw [h2, ofStr_absolute (by simp [hn]) (hl.append hlm)]
  have e1 : ("/MAPLEAF/Examples/Simulations".toList : Str) = '/' :: "MAPLEAF/Examples/Simulations".toList := by decide +kernel
  have e2 : ("/MAPLEAF/Examples/BatchSims".toList : Str) = '/' :: "MAPLEAF/Examples/BatchSims".toList := by decide +kernel
  rw [e1, e2]
  exact ⟨key _ _ examples_plain.1 (by decide +kernel), key _ _ examples_plain.2 (by decide +kernel)⟩

/-- the places where a name is looked for, in order -/
def places (i v : Str) : List Str :=
  [v, i ++ '/' :: v, i ++ "/MAPLEAF/Examples/Simulations/".toList ++ v, i ++ "/MAPLEAF/Examples/BatchSims/".toList ++ v]

theorem plain_mapleaf {v : Str} (h : Plain v) : Plain (v ++ ".mapleaf".toList) := by
  obtain ⟨l, hn, hl, rfl⟩ := h
  obtain ⟨m, c, rfl⟩ : ∃ m c, l = m ++ [c] := ⟨_, _, (List.dropLast_append_getLast hn).symm⟩
  have hx : ".mapleaf".toList = '.' :: "mapleaf".toList := by decide +kernel
  have hs : '/' ∉ ".mapleaf".toList := by decide +kernel
  have hl8 : (".mapleaf".toList).length = 8 := by decide +kernel
  refine ⟨m ++ [c ++ ".mapleaf".toList], by simp, ?_, ?_⟩
  · intro x hx
    rcases List.mem_append.1 hx with h | h
    · exact hl x (by simp [h])
    · simp only [List.mem_singleton] at h
      subst h
      refine ⟨?_, ?_, ?_⟩
      · intro e
        have := congrArg List.length e
        rw [List.length_append, hl8] at this
        simp at this
      · intro e
        have := congrArg List.length e
        rw [List.length_append, hl8] at this
        simp at this
      · rw [List.mem_append, not_or]
        exact ⟨(hl c (by simp)).2.2, hs⟩
  · by_cases hm : m = []
    · subst hm
      simp [join]
    · rw [join_append_list hm (by simp), join_append_list hm (by simp)]
      simp [join]

/-- **C78.** The definition file that is run, when nothing but files has the names that are looked for (`missing`: a name of the
working directory with the ending `.mapleaf` left out comes after the examples, see `shadow_violated`): the name as given, in the
working directory, the installation and the examples, then the same with `.mapleaf`. -/
theorem find_partial (fs : FS) {i v : Str} (hi : Absolute i) (hv : Plain v) (hf : ∀ s, fs.there s = fs.isFile s)
    (h1 : fs.isFile (i ++ "/MAPLEAF/Examples/Simulations".toList) = false)
    (h2 : fs.isFile (i ++ "/MAPLEAF/Examples/BatchSims".toList) = false) :
    (".mapleaf".toList <:+ v → findSimDefinitionFile fs (PPath.ofStr i) v = (places i v).find? fs.isFile) ∧
    (¬ ".mapleaf".toList <:+ v → findSimDefinitionFile fs (PPath.ofStr i) v =
      (places i v ++
        [i ++ '/' :: (v ++ ".mapleaf".toList), i ++ "/MAPLEAF/Examples/Simulations/".toList ++ (v ++ ".mapleaf".toList),
          v ++ ".mapleaf".toList, i ++ "/MAPLEAF/Examples/BatchSims/".toList ++ (v ++ ".mapleaf".toList)]).find? fs.isFile) := by
  have e1 : ("/MAPLEAF/Examples/Simulations".toList : Str) = '/' :: "MAPLEAF/Examples/Simulations".toList := by decide +kernel
  have e2 : ("/MAPLEAF/Examples/BatchSims".toList : Str) = '/' :: "MAPLEAF/Examples/BatchSims".toList := by decide +kernel
  have a1 : Absolute (i ++ "/MAPLEAF/Examples/Simulations".toList) := by rw [e1]; exact absolute_under hi examples_plain.1
  have a2 : Absolute (i ++ "/MAPLEAF/Examples/BatchSims".toList) := by rw [e2]; exact absolute_under hi examples_plain.2
  have s1 : ∀ w : Str, i ++ "/MAPLEAF/Examples/Simulations/".toList ++ w =
      (i ++ "/MAPLEAF/Examples/Simulations".toList) ++ '/' :: w := by
    intro w
    have : ("/MAPLEAF/Examples/Simulations/".toList : Str) = "/MAPLEAF/Examples/Simulations".toList ++ ['/'] := by decide +kernel
    rw [this, List.append_assoc, List.append_assoc, List.append_assoc]
    rfl
  have s2 : ∀ w : Str, i ++ "/MAPLEAF/Examples/BatchSims/".toList ++ w =
      (i ++ "/MAPLEAF/Examples/BatchSims".toList) ++ '/' :: w := by
    intro w
    have : ("/MAPLEAF/Examples/BatchSims/".toList : Str) = "/MAPLEAF/Examples/BatchSims".toList ++ ['/'] := by decide +kernel
    rw [this, List.append_assoc, List.append_assoc, List.append_assoc]
    rfl
  have hend : (v.length < 8 ∨ v.drop (v.length - 8) ≠ ".mapleaf".toList) ↔ ¬ ".mapleaf".toList <:+ v := by
    have h8 : (".mapleaf".toList).length = 8 := by decide +kernel
    constructor
    · rintro h ⟨t, rfl⟩
      rw [List.length_append, h8] at h
      rcases h with h | h
      · omega
      · apply h
        rw [Nat.add_sub_cancel, List.drop_left]
    · intro h
      by_contra hc
      simp only [not_or, not_lt, not_not] at hc
      apply h
      rw [← hc.2]
      exact List.drop_suffix _ _
  have two := fun {w : Str} (hw : Plain w) => searchName_two fs hi hw a1 a2 hf h1 h2
  unfold findSimDefinitionFile
  rw [(examples_place hi).1, (examples_place hi).2]
  simp only [hend, places, s1, s2]
  cases h0 : fs.isFile v
  · constructor
    · intro h
      simp only [h, not_true_eq_false, if_false, Bool.false_eq_true, List.findSome?_cons, two hv, List.findSome?_nil]
      simp only [List.find?_cons, h0, List.find?_nil]
      cases fs.isFile (i ++ '/' :: v) <;> cases fs.isFile (i ++ "/MAPLEAF/Examples/Simulations".toList ++ '/' :: v) <;>
        cases fs.isFile (i ++ "/MAPLEAF/Examples/BatchSims".toList ++ '/' :: v) <;> rfl
    · intro h
      simp only [h, not_false_eq_true, if_true, Bool.false_eq_true, if_false, List.findSome?_cons, two hv, two (plain_mapleaf hv),
        List.findSome?_nil, List.cons_append, List.nil_append]
      simp only [List.find?_cons, h0, List.find?_nil]
      cases fs.isFile (i ++ '/' :: v) <;> cases fs.isFile (i ++ "/MAPLEAF/Examples/Simulations".toList ++ '/' :: v) <;>
        cases fs.isFile (i ++ "/MAPLEAF/Examples/BatchSims".toList ++ '/' :: v) <;>
        cases fs.isFile (i ++ '/' :: (v ++ ".mapleaf".toList)) <;>
        cases fs.isFile (i ++ "/MAPLEAF/Examples/Simulations".toList ++ '/' :: (v ++ ".mapleaf".toList)) <;>
        cases fs.isFile (v ++ ".mapleaf".toList) <;>
        cases fs.isFile (i ++ "/MAPLEAF/Examples/BatchSims".toList ++ '/' :: (v ++ ".mapleaf".toList)) <;> rfl
  · constructor <;> intro h <;> simp [h0]

/-- **C78.** Whatever there is, the path that is run is one of a file. -/
theorem find_sound (fs : FS) (install : PPath) (v f : Str) (h : findSimDefinitionFile fs install v = some f) :
    fs.isFile f = true := by
  have hs : ∀ w ls, searchName fs install w ls = some f → fs.isFile f = true := by
    intro w ls
    induction ls with
    | nil => intro h; simp [searchName] at h
    | cons l ls ih =>
      intro h
      simp only [searchName] at h
      split at h
      · next hh => rw [← Option.some.inj h]; exact hh
      · exact ih h
  unfold findSimDefinitionFile at h
  split at h
  · next hh => rw [← Option.some.inj h]; exact hh
  · simp only at h
    obtain ⟨w, -, hw⟩ := List.exists_of_findSome?_eq_some h
    exact hs w _ hw

def onlyFiles (l : List Str) : FS := ⟨fun s => decide (s ∈ l), fun s => decide (s ∈ l)⟩

/-- **C78, false in general.** The user's own file in the working directory comes before the examples — only if it is named with its
ending: `mapleaf Staging` beside `Staging.mapleaf` runs the example of that name. -/
theorem shadow_violated :
    let fs := onlyFiles ["Staging.mapleaf".toList, "/opt/MAPLEAF/Examples/Simulations/Staging.mapleaf".toList]
    findSimDefinitionFile fs (PPath.ofStr "/opt".toList) "Staging".toList =
      some "/opt/MAPLEAF/Examples/Simulations/Staging.mapleaf".toList ∧
    findSimDefinitionFile fs (PPath.ofStr "/opt".toList) "Staging.mapleaf".toList = some "Staging.mapleaf".toList := by
  decide +kernel

/-- **C78, false in general.** A name is found among the examples if it is there — not if the installation has a directory of that
name: with a directory `test`, the batch example `test` is not looked for. -/
theorem directory_violated :
    let fs : FS := ⟨fun s => decide (s ∈ ["/opt/test".toList, "/opt/MAPLEAF/Examples/BatchSims/test".toList]),
      fun s => decide (s ∈ ["/opt/MAPLEAF/Examples/BatchSims/test".toList])⟩
    findSimDefinitionFile fs (PPath.ofStr "/opt".toList) "test".toList = none := by
  decide +kernel

/-! ### The hypotheses can be met -/

theorem plain_of_split (s : Str) (h : ∀ c ∈ splitC '/' s, c ≠ [] ∧ c ≠ ['.'] ∧ '/' ∉ c) : Plain s :=
  ⟨splitC '/' s, splitC_ne_nil _ _, h, (join_splitC '/' s).symm⟩

theorem absolute_of_split (s : Str) (h : ∀ c ∈ splitC '/' s, c ≠ [] ∧ c ≠ ['.'] ∧ '/' ∉ c) : Absolute ('/' :: s) :=
  ⟨splitC '/' s, splitC_ne_nil _ _, h, by rw [join_splitC]⟩

example : Absolute ('/' :: "home/me/sims".toList) := absolute_of_split _ (by decide +kernel)
example : Absolute ('/' :: "opt/site-packages".toList) := absolute_of_split _ (by decide +kernel)
example : Plain "MAPLEAF/Examples/Motors/a.txt".toList := plain_of_split _ (by decide +kernel)
example : Names ["a.mapleaf".toList] := by
  intro c hc
  revert c
  decide +kernel

example : NamesFile "MAPLEAF/Examples/Motors/a.txt".toList ∧ OfRepository "MAPLEAF/Examples/Motors/a.txt".toList := by
  refine ⟨?_, ?_⟩
  · rw [← isFileName_iff]
    decide +kernel
  · rw [← relative_iff]
    decide +kernel

example :
    let fs := onlyFiles ["/opt/MAPLEAF/a.txt".toList, "/home/b.csv".toList]
    let f := replaceValue fs (PPath.ofStr "/opt".toList) (some "/home".toList)
    f "MAPLEAF/a.txt".toList = "/opt/MAPLEAF/a.txt".toList ∧ f "./MAPLEAF/a.txt".toList = "/opt/MAPLEAF/a.txt".toList ∧
      f "./b.csv".toList = "/home/b.csv".toList ∧ f "MAPLEAF/c.txt".toList = "MAPLEAF/c.txt".toList ∧ f "12.5".toList = "12.5".toList := by
  decide +kernel

example : ∃ fs : FS, (∀ s, fs.there s = fs.isFile s) ∧ fs.isFile ("/opt".toList ++ "/MAPLEAF/Examples/Simulations".toList) = false ∧
    fs.isFile "x.mapleaf".toList = true :=
  ⟨onlyFiles ["x.mapleaf".toList], fun _ => rfl, by decide +kernel, by decide +kernel⟩

example : ∃ fs v f, findSimDefinitionFile fs (PPath.ofStr "/opt".toList) v = some f :=
  ⟨onlyFiles ["x.mapleaf".toList], "x".toList, "x.mapleaf".toList, by decide +kernel⟩

end Mapleaf.Path
