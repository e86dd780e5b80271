import Verif.SimDef.ParserProps

/-! # C01: writing a definition and reading it back -/

namespace Mapleaf.SimDef
open Str

/-! ## Specification of representable definitions -/

/-- A path segment that can be written: non-empty, no white space, no comment marker. -/
def NameOk (s : Str) : Prop := s ≠ [] ∧ ∀ c ∈ s, isWs c = false ∧ c ≠ '#'

/-- A value that can be written: words separated by single spaces, no comment marker, not ending in `{`. -/
def ValOk (v : Str) : Prop := v ≠ [] ∧ join [' '] (wsSplit v) = v ∧ '#' ∉ v ∧ v.getLast? ≠ some '{'

/-- A key that can be written; its last segment must not be a parser command. -/
def KeyOk (k : Str) : Prop :=
  (∀ s ∈ splitC '.' k, NameOk s) ∧ realKey k ≠ "!create".toList ∧ realKey k ≠ "!include".toList

instance (s : Str) : Decidable (NameOk s) := by unfold NameOk; infer_instance
instance (s : Str) : Decidable (ValOk s) := by unfold ValOk; infer_instance
instance (s : Str) : Decidable (KeyOk s) := by unfold KeyOk; infer_instance

/-- Two dictionary paths are misaligned if they carry the same name at the same depth under different parents. -/
def Misaligned (a b : List Str) : Prop := ∃ i, ∃ (ha : i < a.length) (hb : i < b.length), a[i] = b[i] ∧ a.take i ≠ b.take i

/-- No two consecutive keys (in the sorted order in which they are written) have misaligned dictionaries. -/
def AlignedFrom : (curr : List Str) → List (Str × Str) → Prop
  | _, [] => True
  | curr, (k, _) :: rest => ¬ Misaligned curr (keyDicts k) ∧ AlignedFrom (keyDicts k) rest

/-! ## Strings -/

theorem lstrip_append {ws s : Str} (hw : ∀ c ∈ ws, isWs c = true) (h : ∀ c, s.head? = some c → isWs c = false) :
    lstrip (ws ++ s) = s := by
  unfold lstrip
  induction ws with
  | nil =>
    cases s with
    | nil => rfl
    | cons c cs => simp [h c rfl]
  | cons c cs ih => simp [hw c (by simp), ih (fun c hc => hw c (by simp [hc]))]

theorem rstrip_self {s : Str} (h : ∀ c, s.getLast? = some c → isWs c = false) : rstrip s = s := by
  unfold rstrip
  have : s.reverse.dropWhile isWs = s.reverse := by
    cases hr : s.reverse with
    | nil => rfl
    | cons c cs =>
      have : s.getLast? = some c := by
        have : s = (c :: cs).reverse := by rw [← hr]; simp
        rw [this]; simp
      simp [h c this]
  rw [this]; simp

theorem strip_pad {ws s : Str} (hw : ∀ c ∈ ws, isWs c = true) (h : ∀ c, s.head? = some c → isWs c = false)
    (hl : ∀ c, s.getLast? = some c → isWs c = false) : strip (ws ++ s) = s := by
  rw [strip, lstrip_append hw h, rstrip_self hl]

theorem tabs_ws (n : Nat) : ∀ c ∈ tabs n, isWs c = true := by
  intro c hc; rw [tabs, List.mem_replicate] at hc; rw [hc.2]; rfl

theorem strip_tabs {s : Str} (n : Nat) (h : ∀ c, s.head? = some c → isWs c = false)
    (hl : ∀ c, s.getLast? = some c → isWs c = false) : strip (tabs n ++ s) = s := strip_pad (tabs_ws n) h hl

theorem wsSplit_word {s : Str} (hne : s ≠ []) (h : ∀ c ∈ s, isWs c = false) : wsSplit s = [s] := by
  unfold wsSplit
  rw [splitP_no_sep h]
  simp [hne]

theorem wsSplit_word_append {s : Str} (hne : s ≠ []) (h : ∀ c ∈ s, isWs c = false) {c : Char} (hc : isWs c = true)
    (t : Str) : wsSplit (s ++ c :: t) = s :: wsSplit t := by
  unfold wsSplit
  rw [splitP_append_sep h hc]
  simp [hne]

theorem mem_wsSplit {s t : Str} (h : t ∈ wsSplit s) : t ≠ [] ∧ ∀ c ∈ t, isWs c = false := by
  unfold wsSplit at h
  simp only [List.mem_filter] at h
  exact ⟨by simpa using h.2, mem_splitP_no_sep h.1⟩

theorem join_getLast {l : List Str} (hne : l ≠ []) (h : l.getLast hne ≠ []) :
    (join [' '] l).getLast? = (l.getLast hne).getLast? := by
  induction l with
  | nil => exact absurd rfl hne
  | cons a l ih =>
    cases l with
    | nil => simp [join]
    | cons b t =>
      have hb : (b :: t).getLast (by simp) ≠ [] := by simpa using h
      rw [join_cons _ _ (by simp), List.getLast?_append, ih (by simp) hb]
      cases h2 : ((b :: t).getLast (by simp)).getLast? with
      | none => simp at h2; exact absurd h2 hb
      | some c => simpa using h2.symm

theorem ValOk.last {v : Str} (h : ValOk v) : ∀ c, v.getLast? = some c → isWs c = false := by
  obtain ⟨h1, h2, _⟩ := h
  have hne : wsSplit v ≠ [] := by intro he; rw [he] at h2; exact h1 h2.symm
  have hm := mem_wsSplit (List.getLast_mem hne)
  intro c hc
  rw [← h2, join_getLast hne hm.1] at hc
  exact hm.2 c (List.mem_of_getLast? hc)

theorem NameOk.head {s : Str} (h : NameOk s) (t : Str) : ∀ c, (s ++ t).head? = some c → isWs c = false := by
  obtain ⟨h1, h2⟩ := h
  cases s with
  | nil => exact absurd rfl h1
  | cons a s => intro c hc; simp at hc; subst hc; exact (h2 a (by simp)).1

/-! ## The stack while reading a written file -/

/-- Name of the dictionary with a given (reversed) path. -/
def nameR : List Str → Str
  | [] => []
  | n :: r => qualify (nameR r) n

/-- Stack of open dictionaries for a (reversed) path. -/
def stkR : List Str → List (Str × Bool)
  | [] => [([], false)]
  | n :: r => (nameR (n :: r), false) :: stkR r

theorem stkR_head (r : List Str) : ∃ t, stkR r = (nameR r, false) :: t := by
  cases r <;> exact ⟨_, rfl⟩

theorem nameR_ne_nil {n : Str} {r : List Str} (h : n ≠ []) : nameR (n :: r) ≠ [] := by
  unfold nameR qualify; split <;> simp [h]

theorem nameR_join (r : List Str) (h : ∀ s ∈ r, s ≠ []) : nameR r = join ['.'] r.reverse := by
  induction r with
  | nil => rfl
  | cons n r ih =>
    have ih := ih (fun s hs => h s (by simp [hs]))
    rw [nameR, ih]
    cases r with
    | nil => simp [qualify, join]
    | cons m r' =>
      have hne : nameR (m :: r') ≠ [] := nameR_ne_nil (h m (by simp))
      rw [ih] at hne
      rw [qualify, if_neg hne, List.reverse_cons (a := n)]
      have : ∀ (l : List Str), l ≠ [] → join ['.'] (l ++ [n]) = join ['.'] l ++ '.' :: n := by
        intro l
        induction l with
        | nil => intro h; exact absurd rfl h
        | cons a l ih2 =>
          intro _
          cases l with
          | nil => simp [join]
          | cons b t =>
            rw [List.cons_append, join_cons _ _ (by simp), ih2 (by simp), join_cons ['.'] a (l := b :: t) (by simp)]
            simp
      rw [this _ (by simp)]

variable (load : Str → Except PyErr SDict)

theorem nonBlank_of_strip {l : Line} (h : strip l ≠ []) : nonBlank l = true := by
  simpa [nonBlank] using h

theorem strip_close (d : Nat) : strip (tabs d ++ ['}']) = ['}'] :=
  strip_tabs d (by intro c hc; simp at hc; subst hc; rfl) (by intro c hc; simp at hc; subst hc; rfl)

theorem run_close (d : Nat) (ls : List Line) (D : SDict) (n : Str) (r : List Str) :
    run load ((tabs d ++ ['}']) :: ls) D (stkR (n :: r)) = run load ls D (stkR r) := by
  rw [stkR, run_cons, strip_close]
  have : wsSplit ['}'] = [['}']] := by decide
  rw [this]
  simp only
  rw [if_neg (by decide), if_neg (by decide), if_neg (by decide)]
  simp

theorem strip_open {n : Str} (hn : NameOk n) (d : Nat) : strip (tabs d ++ n ++ ['{']) = n ++ ['{'] := by
  rw [List.append_assoc]
  exact strip_tabs d (hn.head _) (by intro c hc; simp at hc; subst hc; rfl)

theorem run_open (d : Nat) {n : Str} (hn : NameOk n) (ls : List Line) (D : SDict) (r : List Str) :
    run load ((tabs d ++ n ++ ['{']) :: ls) D (stkR r) = run load ls D (stkR (n :: r)) := by
  obtain ⟨t, ht⟩ := stkR_head r
  have hw : wsSplit (n ++ ['{']) = [n ++ ['{']] := by
    apply wsSplit_word (by simp)
    intro c hc
    rcases List.mem_append.1 hc with hc | hc
    · exact (hn.2 c hc).1
    · simp at hc; subst hc; rfl
  have hlast : ∀ s : Str, n ++ ['{'] = s → s.getLast? = some '{' := by rintro s rfl; simp
  rw [stkR, ht, run_cons, strip_open hn, hw]
  simp only
  rw [if_neg (fun h => by have := hlast _ h; revert this; decide),
    if_neg (fun h => by have := hlast _ h; revert this; decide), if_pos (by simp)]
  simp [nameR]

theorem strip_pair {k v : Str} (hk : NameOk k) (hv : ValOk v) (d : Nat) :
    strip (tabs d ++ k ++ ['\t'] ++ v) = k ++ '\t' :: v := by
  rw [List.append_assoc, List.append_assoc, List.singleton_append]
  apply strip_tabs d (hk.head _)
  intro c hc
  have : (k ++ '\t' :: v).getLast? = v.getLast? := by
    cases v with
    | nil => exact absurd rfl hv.1
    | cons a v =>
      rw [List.getLast?_append, List.getLast?_cons_cons]
      simp [List.getLast?_cons]
  rw [this] at hc
  exact hv.last c hc

theorem run_pair (d : Nat) {k v : Str} (hk : NameOk k) (hc : k ≠ "!create".toList) (hi : k ≠ "!include".toList)
    (hv : ValOk v) (ls : List Line) (D : SDict) (r : List Str) :
    run load ((tabs d ++ k ++ ['\t'] ++ v) :: ls) D (stkR r) =
      if Dict.has D (qualify (nameR r) k) = true then .error .duplicateKey
      else run load ls (Dict.set D (qualify (nameR r) k) v) (stkR r) := by
  obtain ⟨t, ht⟩ := stkR_head r
  rw [ht, run_cons, strip_pair hk hv, wsSplit_word_append hk.1 (fun c hc => (hk.2 c hc).1) (by rfl)]
  have hlast : (k ++ '\t' :: v).getLast? = v.getLast? := by
    cases v with
    | nil => exact absurd rfl hv.1
    | cons a v =>
      rw [List.getLast?_append, List.getLast?_cons_cons]
      simp [List.getLast?_cons]
  have hne : wsSplit v ≠ [] := by intro he; have := hv.2.1; rw [he] at this; exact hv.1 this.symm
  have hnc : k ++ '\t' :: v ≠ ['}'] := by
    intro h
    have := congrArg List.length h
    simp at this
    exact hv.1 (by simpa using (by omega : v.length = 0))
  simp only
  rw [if_neg hc, if_neg hi, hlast, if_neg hv.2.2.2, if_neg hnc, if_pos hne, hv.2.1]
  cases Dict.has D (qualify (nameR r) k) <;> simp

theorem filter_nonBlank_cons {l : Line} (h : strip l ≠ []) (ls : List Line) :
    (l :: ls).filter nonBlank = l :: ls.filter nonBlank := by
  rw [List.filter_cons_of_pos (nonBlank_of_strip h)]

theorem close_nb (d : Nat) : strip (tabs d ++ ['}']) ≠ [] := by rw [strip_close]; simp

theorem run_closeLoop (curr dicts : List Str) (ls : List Line) (D : SDict) : ∀ n ≤ curr.length,
    run load (((closeLoop curr dicts n).1 ++ ls).filter nonBlank) D (stkR (curr.take n).reverse) =
      run load (ls.filter nonBlank) D (stkR (curr.take (closeLoop curr dicts n).2).reverse) := by
  intro n
  induction n with
  | zero => intro _; simp [closeLoop]
  | succ d ih =>
    intro hd
    have hd' : d < curr.length := by omega
    rw [closeLoop]
    by_cases h : d + 1 > dicts.length ∨ curr[d]? ≠ dicts[d]?
    · rw [if_pos h]
      simp only [List.cons_append]
      rw [filter_nonBlank_cons (close_nb d), List.take_add_one, List.getElem?_eq_getElem hd']
      simp only [Option.toList_some, List.reverse_append, List.reverse_singleton, List.singleton_append]
      rw [run_close, ih (by omega)]
    · rw [if_neg h]; simp

theorem run_openLoop (ls : List Line) (D : SDict) : ∀ (ns : List Str) (d : Nat) (r : List Str), (∀ n ∈ ns, NameOk n) →
    run load ((openLoop d ns ++ ls).filter nonBlank) D (stkR r) =
      run load (ls.filter nonBlank) D (stkR (ns.reverse ++ r)) := by
  intro ns
  induction ns with
  | nil => intro d r _; simp [openLoop]
  | cons n ns ih =>
    intro d r h
    have hn := h n (by simp)
    have hb : nonBlank ([] : Line) = false := by decide
    have hnb : strip (tabs d ++ n ++ ['{']) ≠ [] := by rw [strip_open hn]; simp
    rw [openLoop, List.cons_append, List.cons_append, List.filter_cons_of_neg (by simp [hb]),
      filter_nonBlank_cons hnb, run_open load d hn, ih _ _ (fun n hn => h n (by simp [hn]))]
    simp

/-! ## The closing loop against the specification -/

theorem closeLoop_le (curr dicts : List Str) (n : Nat) (hn : n ≤ curr.length) :
    (closeLoop curr dicts n).2 ≤ n ∧ (closeLoop curr dicts n).2 ≤ dicts.length ∧
    (∀ i, i + 1 = (closeLoop curr dicts n).2 → curr[i]? = dicts[i]?) ∧
    (∀ i, (closeLoop curr dicts n).2 ≤ i → i < n → i < dicts.length → curr[i]? ≠ dicts[i]?) := by
  induction n with
  | zero => simp [closeLoop]
  | succ d ih =>
    rw [closeLoop]
    by_cases h : d + 1 > dicts.length ∨ curr[d]? ≠ dicts[d]?
    · rw [if_pos h]
      obtain ⟨h1, h2, h3, h4⟩ := ih (by omega)
      refine ⟨by simp only; omega, h2, h3, ?_⟩
      intro i hi1 hi2 hi3
      by_cases hid : i = d
      · subst hid
        rcases h with h | h
        · omega
        · exact h
      · exact h4 i hi1 (by omega) hi3
    · rw [if_neg h]
      push Not at h
      refine ⟨le_refl _, h.1, ?_, ?_⟩
      · intro i hi; simp only at hi; have : i = d := by omega
        subst this; exact h.2
      · intro i h1 h2; simp only at h1; omega

/-- On aligned paths the loop keeps exactly the common prefix open. -/
theorem closeLoop_aligned {curr dicts : List Str} (h : ¬ Misaligned curr dicts) :
    curr.take (closeLoop curr dicts curr.length).2 = dicts.take (closeLoop curr dicts curr.length).2 := by
  obtain ⟨h1, h2, h3, _⟩ := closeLoop_le curr dicts curr.length (le_refl _)
  generalize hm : (closeLoop curr dicts curr.length).2 = m at *
  cases m with
  | zero => simp
  | succ i =>
    have hi := h3 i rfl
    have ha : i < curr.length := by omega
    have hb : i < dicts.length := by omega
    rw [List.getElem?_eq_getElem ha, List.getElem?_eq_getElem hb] at hi
    by_contra hne
    apply h
    refine ⟨i, ha, hb, by simpa using hi, ?_⟩
    intro he
    apply hne
    rw [List.take_add_one, List.take_add_one, he, List.getElem?_eq_getElem ha, List.getElem?_eq_getElem hb, hi]

/-- On misaligned paths it keeps too much open. -/
theorem closeLoop_misaligned {curr dicts : List Str} (h : Misaligned curr dicts) :
    curr.take (closeLoop curr dicts curr.length).2 ≠ dicts.take (closeLoop curr dicts curr.length).2 := by
  obtain ⟨h1, h2, h3, h4⟩ := closeLoop_le curr dicts curr.length (le_refl _)
  generalize hm : (closeLoop curr dicts curr.length).2 = m at *
  obtain ⟨i, ha, hb, he, hne⟩ := h
  intro heq
  have him : i < m := by
    by_contra hc
    apply h4 i (by omega) ha hb
    rw [List.getElem?_eq_getElem ha, List.getElem?_eq_getElem hb, he]
  apply hne
  have := congrArg (List.take i) heq
  simpa [List.take_take, Nat.min_eq_left (le_of_lt him)] using this

/-- Where the reader really is after the lines that lead from `curr` into `dicts`. -/
def reached (curr dicts : List Str) : List Str :=
  let m := (closeLoop curr dicts curr.length).2
  curr.take m ++ dicts.drop m

theorem reached_self (l : List Str) : reached l l = l := by simp [reached]

theorem reached_aligned {curr dicts : List Str} (h : ¬ Misaligned curr dicts) : reached curr dicts = dicts := by
  unfold reached
  simp only
  rw [closeLoop_aligned h, List.take_append_drop]

theorem run_switchDict (curr dicts : List Str) (hd : ∀ n ∈ dicts, NameOk n) (ls : List Line) (D : SDict) :
    run load ((switchDict curr dicts ++ ls).filter nonBlank) D (stkR curr.reverse) =
      run load (ls.filter nonBlank) D (stkR (reached curr dicts).reverse) := by
  unfold switchDict
  by_cases h : dicts = curr
  · subst h; simp [reached_self]
  · rw [if_neg h]
    simp only [List.append_assoc]
    have h1 := run_closeLoop load curr dicts
      ((if openLoop (closeLoop curr dicts curr.length).2 (dicts.drop (closeLoop curr dicts curr.length).2) = []
        then [[]] else openLoop (closeLoop curr dicts curr.length).2
          (dicts.drop (closeLoop curr dicts curr.length).2)) ++ ls) D curr.length (le_refl _)
    rw [List.take_length] at h1
    rw [h1]
    have h2 := run_openLoop load ls D (dicts.drop (closeLoop curr dicts curr.length).2)
      (closeLoop curr dicts curr.length).2 (curr.take (closeLoop curr dicts curr.length).2).reverse
      (fun n hn => hd n (List.mem_of_mem_drop hn))
    have hb : nonBlank ([] : Line) = false := by decide
    split
    · rename_i ho
      rw [ho] at h2
      rw [List.singleton_append, List.filter_cons_of_neg (by simp [hb])]
      simp only [List.nil_append] at h2
      rw [h2]; simp [reached]
    · rw [h2]; simp [reached]

theorem run_closeAll (D : SDict) : ∀ (r : List Str),
    run load (((List.range r.length).reverse.map (fun d => tabs d ++ ['}'])).filter nonBlank) D (stkR r) = .ok D := by
  intro r
  induction r with
  | nil => simp [stkR, run_nil]
  | cons n r ih =>
    rw [List.length_cons, List.range_succ, List.reverse_append, List.reverse_singleton, List.singleton_append,
      List.map_cons, filter_nonBlank_cons (close_nb _), run_close, ih]

theorem keyDicts_realKey (k : Str) : keyDicts k ++ [realKey k] = splitC '.' k :=
  List.dropLast_append_getLast _

theorem qualify_key {k : Str} (hk : KeyOk k) : qualify (nameR (keyDicts k).reverse) (realKey k) = k := by
  have h1 : qualify (nameR (keyDicts k).reverse) (realKey k) = nameR (realKey k :: (keyDicts k).reverse) := rfl
  rw [h1, nameR_join]
  · rw [List.reverse_cons, List.reverse_reverse, keyDicts_realKey, join_splitC]
  · intro s hs
    have : s ∈ splitC '.' k := by
      rw [← keyDicts_realKey k]; simp at hs ⊢; tauto
    exact (hk.1 s this).1

theorem KeyOk.dicts {k : Str} (hk : KeyOk k) : ∀ n ∈ keyDicts k, NameOk n := by
  intro n hn; apply hk.1; rw [← keyDicts_realKey k]; simp [hn]

theorem KeyOk.real {k : Str} (hk : KeyOk k) : NameOk (realKey k) := by
  apply hk.1; rw [← keyDicts_realKey k]; simp

theorem pair_nb {k v : Str} (hk : NameOk k) (hv : ValOk v) (d : Nat) : strip (tabs d ++ k ++ ['\t'] ++ v) ≠ [] := by
  rw [strip_pair hk hv]; simp

/-- Reading one written entry: it lands in the dictionary the reader has really reached. -/
theorem run_item (curr : List Str) {k v : Str} (hk : KeyOk k) (hv : ValOk v) (rest : List (Str × Str)) (D : SDict) :
    run load ((writeItems curr ((k, v) :: rest)).filter nonBlank) D (stkR curr.reverse) =
      if Dict.has D (qualify (nameR (reached curr (keyDicts k)).reverse) (realKey k)) = true then .error .duplicateKey
      else run load ((writeItems (keyDicts k) rest).filter nonBlank)
        (Dict.set D (qualify (nameR (reached curr (keyDicts k)).reverse) (realKey k)) v)
        (stkR (reached curr (keyDicts k)).reverse) := by
  rw [writeItems, run_switchDict load curr _ hk.dicts, filter_nonBlank_cons (pair_nb hk.real hv _),
    run_pair load _ hk.real hk.2.1 hk.2.2 hv]

theorem run_writeItems : ∀ (items : List (Str × Str)) (curr : List Str) (D : SDict),
    (∀ p ∈ items, KeyOk p.1 ∧ ValOk p.2) → AlignedFrom curr items → Dict.WF (D ++ items) →
    run load ((writeItems curr items).filter nonBlank) D (stkR curr.reverse) = .ok (D ++ items) := by
  intro items
  induction items with
  | nil =>
    intro curr D _ _ _
    have := run_closeAll load D curr.reverse
    rw [List.length_reverse] at this
    rw [writeItems, this]; simp
  | cons p rest ih =>
    obtain ⟨k, v⟩ := p
    intro curr D hok hal hwf
    obtain ⟨hk, hv⟩ := hok (k, v) (by simp)
    obtain ⟨hm, hal'⟩ := hal
    have hnot : k ∉ Dict.keys D := by
      intro hmem
      unfold Dict.WF Dict.keys at hwf
      rw [List.map_append, List.nodup_append] at hwf
      exact hwf.2.2 k hmem k (by simp) rfl
    rw [run_item load curr hk hv, reached_aligned hm, qualify_key hk,
      if_neg (by rw [Dict.has_iff]; exact hnot), Dict.set_of_not_mem _ _ hnot]
    have := ih (keyDicts k) (D ++ [(k, v)]) (fun p hp => hok p (by simp [hp])) hal' (by simpa using hwf)
    rw [this]; simp

/-! ## Text level -/

theorem noHash_tabs (d : Nat) : '#' ∉ tabs d ∧ '\n' ∉ tabs d := by
  constructor <;> (intro h; rw [tabs, List.mem_replicate] at h; revert h; simp)

theorem NameOk.clean {n : Str} (h : NameOk n) : '#' ∉ n ∧ '\n' ∉ n := by
  constructor
  · intro hm; exact (h.2 _ hm).2 rfl
  · intro hm; have := (h.2 _ hm).1; revert this; decide

theorem ValOk.clean {v : Str} (h : ValOk v) : '#' ∉ v ∧ '\n' ∉ v := by
  refine ⟨h.2.2.1, ?_⟩
  intro hm
  rw [← h.2.1] at hm
  have : ∀ (l : List Str), (∀ t ∈ l, ∀ c ∈ t, isWs c = false) → '\n' ∉ join [' '] l := by
    intro l
    induction l with
    | nil => intro _; simp [join]
    | cons a l ih =>
      intro hl
      have ha : '\n' ∉ a := by intro hx; have := hl a (by simp) _ hx; revert this; decide
      cases l with
      | nil => simpa [join] using ha
      | cons b t =>
        rw [join_cons _ _ (by simp)]
        have := ih (fun t ht => hl t (by simp [ht]))
        simp [ha, this]
  exact this _ (fun t ht => (mem_wsSplit ht).2) hm

theorem clean_append {a b : Str} (ha : '#' ∉ a ∧ '\n' ∉ a) (hb : '#' ∉ b ∧ '\n' ∉ b) :
    '#' ∉ a ++ b ∧ '\n' ∉ a ++ b := by simp [ha.1, ha.2, hb.1, hb.2]

theorem closeLoop_clean (curr dicts : List Str) (n : Nat) :
    ∀ l ∈ (closeLoop curr dicts n).1, '#' ∉ l ∧ '\n' ∉ l := by
  induction n with
  | zero => simp [closeLoop]
  | succ d ih =>
    rw [closeLoop]
    split
    · intro l hl
      rcases List.mem_cons.1 hl with rfl | hl
      · exact clean_append (noHash_tabs d) (by decide)
      · exact ih l hl
    · simp

theorem openLoop_clean (ns : List Str) (h : ∀ n ∈ ns, NameOk n) : ∀ d, ∀ l ∈ openLoop d ns, '#' ∉ l ∧ '\n' ∉ l := by
  induction ns with
  | nil => simp [openLoop]
  | cons n ns ih =>
    intro d l hl
    rw [openLoop] at hl
    rcases List.mem_cons.1 hl with rfl | hl
    · simp
    · rcases List.mem_cons.1 hl with rfl | hl
      · exact clean_append (clean_append (noHash_tabs d) (h n (by simp)).clean) (by decide)
      · exact ih (fun n hn => h n (by simp [hn])) _ l hl

theorem writeItems_clean : ∀ (items : List (Str × Str)) (curr : List Str), (∀ p ∈ items, KeyOk p.1 ∧ ValOk p.2) →
    ∀ l ∈ writeItems curr items, '#' ∉ l ∧ '\n' ∉ l := by
  intro items
  induction items with
  | nil =>
    intro curr _ l hl
    simp only [writeItems, List.mem_map] at hl
    obtain ⟨d, _, rfl⟩ := hl
    exact clean_append (noHash_tabs d) (by decide)
  | cons p rest ih =>
    obtain ⟨k, v⟩ := p
    intro curr hok l hl
    obtain ⟨hk, hv⟩ := hok (k, v) (by simp)
    rw [writeItems] at hl
    rcases List.mem_append.1 hl with hl | hl
    · unfold switchDict at hl
      split at hl
      · simp at hl
      · simp only at hl
        rcases List.mem_append.1 hl with hl | hl
        · exact closeLoop_clean _ _ _ l hl
        · split at hl
          · simp at hl; subst hl; simp
          · exact openLoop_clean _ (fun n hn => hk.dicts n (List.mem_of_mem_drop hn)) _ l hl
    · rcases List.mem_cons.1 hl with rfl | hl
      · exact clean_append (clean_append (clean_append (noHash_tabs _) hk.real.clean) (by decide)) hv.clean
      · exact ih _ (fun p hp => hok p (by simp [hp])) l hl

theorem prepLines_writeText (D : SDict) (fileName date : Str) (hd : Bool) (hf : '\n' ∉ fileName) (hda : '\n' ∉ date)
    (hok : ∀ p ∈ D, KeyOk p.1 ∧ ValOk p.2) :
    prepLines (writeText D fileName date hd) = (writeItems [] (sortedItems D)).filter nonBlank := by
  have hok' : ∀ p ∈ sortedItems D, KeyOk p.1 ∧ ValOk p.2 := by
    intro p hp; apply hok; unfold sortedItems at hp; simpa using hp
  have hcl := writeItems_clean (sortedItems D) [] hok'
  have hmap : (writeItems [] (sortedItems D)).map content = writeItems [] (sortedItems D) := by
    conv_rhs => rw [← List.map_id (writeItems [] (sortedItems D))]
    apply List.map_congr_left
    intro l hl; exact content_of_no_hash (hcl l hl).1
  unfold writeText
  cases hd with
  | false =>
    simp only [Bool.false_eq_true, if_false, List.nil_append]
    rw [prepLines_unlines (fun l hl => (hcl l hl).2), hmap]
  | true =>
    simp only [if_true]
    rw [prepLines_unlines]
    · rw [List.map_append, List.filter_append, hmap]
      have hc : ∀ s : Str, content ('#' :: s) = [] := by intro s; simp [content, cutComment, unescape]
      have hb : nonBlank ([] : Line) = false := by decide
      have e1 : content "# MAPLEAF".toList = [] := hc _
      have e2 : content ("# File: ".toList ++ fileName) = [] := hc _
      have e3 : content ("# Autowritten on: ".toList ++ date) = [] := hc _
      simp only [List.map_cons, List.map_nil, e1, e2, e3]
      simp [hb]
    · intro l hl
      rcases List.mem_append.1 hl with hl | hl
      · simp only [List.mem_cons, List.not_mem_nil, or_false] at hl
        rcases hl with rfl | rfl | rfl
        · decide
        · simp only [List.mem_append, not_or]; exact ⟨by decide, hf⟩
        · simp only [List.mem_append, not_or]; exact ⟨by decide, hda⟩
      · exact (hcl l hl).2

theorem sortedItems_perm (D : SDict) : (sortedItems D).Perm D := List.perm_insertionSort _ _

theorem sortedItems_WF {D : SDict} (h : Dict.WF D) : Dict.WF (sortedItems D) := by
  unfold Dict.WF Dict.keys at *
  exact ((sortedItems_perm D).map _).nodup_iff.2 h

/-- **C01** (aligned definitions) Writing a definition and reading the file again gives the same keys with the same
values. Missing part: misaligned definitions, for which the claim is false (`reload_iff_aligned`,
`write_reload_violated`), and keys or values the file format cannot express. -/
theorem write_reload_partial (D : SDict) (fileName date : Str) (hd : Bool) (hf : '\n' ∉ fileName) (hda : '\n' ∉ date)
    (hwf : Dict.WF D) (hok : ∀ p ∈ D, KeyOk p.1 ∧ ValOk p.2) (hal : AlignedFrom [] (sortedItems D)) :
    ∃ D', parseText load (writeText D fileName date hd) = .ok D' ∧ Dict.WF D' ∧
      ∀ k, Dict.get? D' k = Dict.get? D k := by
  refine ⟨sortedItems D, ?_, sortedItems_WF hwf, ?_⟩
  · unfold parseText
    rw [parseLines_eq_run, prepLines_writeText D fileName date hd hf hda hok]
    have := run_writeItems load (sortedItems D) [] [] (by
      intro p hp; apply hok; unfold sortedItems at hp; simpa using hp) hal (by simpa using sortedItems_WF hwf)
    simpa [stkR] using this
  · intro k; exact (Dict.get?_perm (sortedItems_WF hwf) (sortedItems_perm D) k)

/-! ## Misaligned definitions never survive -/

theorem strLe_total (a b : Str) : (strLe a b || strLe b a) = true := by
  induction a generalizing b with
  | nil => simp [strLe]
  | cons x a ih =>
    cases b with
    | nil => simp [strLe]
    | cons y b =>
      simp only [strLe]
      rcases lt_trichotomy x.toNat y.toNat with h | h | h
      · simp [h]
      · simp [h, ih]
      · simp [h]

theorem strLe_trans (a b c : Str) (h1 : strLe a b = true) (h2 : strLe b c = true) : strLe a c = true := by
  induction a generalizing b c with
  | nil => simp [strLe]
  | cons x a ih =>
    cases b with
    | nil => simp [strLe] at h1
    | cons y b =>
      cases c with
      | nil => simp [strLe] at h2
      | cons z c =>
        simp only [strLe] at h1 h2 ⊢
        split at h1
        · split at h2
          · rw [if_pos (by omega)]
          · split at h2
            · cases h2
            · rw [if_pos (by omega)]
        · split at h1
          · cases h1
          · split at h2
            · rw [if_pos (by omega)]
            · split at h2
              · cases h2
              · rw [if_neg (by omega), if_neg (by omega)]; exact ih b c h1 h2

/-- Order decided at the first difference. -/
theorem strLe_diff (c : Str) {x y : Char} (hxy : x ≠ y) (s t : Str) :
    strLe (c ++ x :: s) (c ++ y :: t) = true ↔ x.toNat < y.toNat := by
  induction c with
  | nil =>
    simp only [List.nil_append, strLe]
    have : x.toNat ≠ y.toNat := fun h => hxy (Char.ext (UInt32.toNat.inj h))
    by_cases h : x.toNat < y.toNat
    · simp [h]
    · have : y.toNat < x.toNat := by omega
      simp [h, this]
  | cons z c ih => simpa [strLe] using ih

theorem sortedItems_sorted (D : SDict) : (sortedItems D).Pairwise (fun a b => strLe a.1 b.1 = true) := by
  have ht : Std.Total (fun a b : Str × Str => strLe a.1 b.1 = true) :=
    ⟨fun a b => by have := strLe_total a.1 b.1; simpa using this⟩
  have htr : IsTrans (Str × Str) (fun a b => strLe a.1 b.1 = true) := ⟨fun a b c => strLe_trans a.1 b.1 c.1⟩
  exact List.pairwise_insertionSort _ D

/-- Segments, each followed by a dot. -/
def dotted (l : List Str) : Str := l.flatMap (fun s => s ++ ['.'])

theorem join_append_dotted (l r : List Str) (hr : r ≠ []) : join ['.'] (l ++ r) = dotted l ++ join ['.'] r := by
  induction l with
  | nil => rfl
  | cons a l ih =>
    rw [List.cons_append, join_cons _ _ (by simp [hr]), ih]
    simp [dotted]

theorem word_diff : ∀ (a b : Str), '.' ∉ a → '.' ∉ b → a ≠ b → ∃ c x y s t, x ≠ y ∧ a ++ ['.'] = c ++ x :: s ∧
    b ++ ['.'] = c ++ y :: t := by
  intro a
  induction a with
  | nil =>
    intro b _ hb hne
    cases b with
    | nil => exact absurd rfl hne
    | cons y b =>
      refine ⟨[], '.', y, [], b ++ ['.'], ?_, rfl, rfl⟩
      rintro rfl; simp at hb
  | cons x a ih =>
    intro b ha hb hne
    cases b with
    | nil =>
      refine ⟨[], x, '.', a ++ ['.'], [], ?_, rfl, rfl⟩
      rintro rfl; simp at ha
    | cons y b =>
      by_cases hxy : x = y
      · subst hxy
        simp at ha hb
        obtain ⟨c, u, w, s, t, h1, h2, h3⟩ := ih b ha.2 hb.2 (by simpa using hne)
        exact ⟨x :: c, u, w, s, t, h1, by simp [h2], by simp [h3]⟩
      · exact ⟨[], x, y, a ++ ['.'], b ++ ['.'], hxy, rfl, rfl⟩

theorem dotted_diff : ∀ (l1 l2 : List Str), (∀ s ∈ l1, '.' ∉ s) → (∀ s ∈ l2, '.' ∉ s) → l1.length = l2.length →
    l1 ≠ l2 → ∃ c x y s t, x ≠ y ∧ dotted l1 = c ++ x :: s ∧ dotted l2 = c ++ y :: t := by
  intro l1
  induction l1 with
  | nil =>
    intro l2 _ _ hl hne
    cases l2 with
    | nil => exact absurd rfl hne
    | cons b l2 => simp at hl
  | cons a l1 ih =>
    intro l2 h1 h2 hl hne
    cases l2 with
    | nil => simp at hl
    | cons b l2 =>
      by_cases hab : a = b
      · subst hab
        obtain ⟨c, x, y, s, t, hxy, e1, e2⟩ := ih l2 (fun s hs => h1 s (by simp [hs]))
          (fun s hs => h2 s (by simp [hs])) (by simpa using hl) (by simpa using hne)
        refine ⟨a ++ '.' :: c, x, y, s, t, hxy, ?_, ?_⟩
        · have : dotted (a :: l1) = a ++ '.' :: dotted l1 := by simp [dotted]
          rw [this, e1]; simp
        · have : dotted (a :: l2) = a ++ '.' :: dotted l2 := by simp [dotted]
          rw [this, e2]; simp
      · obtain ⟨c, x, y, s, t, hxy, e1, e2⟩ := word_diff a b (h1 a (by simp)) (h2 b (by simp)) hab
        refine ⟨c, x, y, s ++ dotted l1, t ++ dotted l2, hxy, ?_, ?_⟩
        · have : dotted (a :: l1) = (a ++ ['.']) ++ dotted l1 := by simp [dotted]
          rw [this, e1]; simp
        · have : dotted (b :: l2) = (b ++ ['.']) ++ dotted l2 := by simp [dotted]
          rw [this, e2]; simp

/-- The key under which an entry is read back after the entry `k1`. -/
def landed (curr : List Str) (k : Str) : Str := qualify (nameR (reached curr (keyDicts k)).reverse) (realKey k)

theorem landed_lt {k1 k : Str} (hk1 : KeyOk k1) (hk : KeyOk k) (hlt : strLe k1 k = true)
    (hm : Misaligned (keyDicts k1) (keyDicts k)) :
    strLe (landed (keyDicts k1) k) k = true ∧ landed (keyDicts k1) k ≠ k := by
  obtain ⟨h1, h2, _, _⟩ := closeLoop_le (keyDicts k1) (keyDicts k) (keyDicts k1).length (le_refl _)
  have hne := closeLoop_misaligned hm
  have hl : landed (keyDicts k1) k = nameR (realKey k :: (reached (keyDicts k1) (keyDicts k)).reverse) := rfl
  unfold reached at hl
  simp only at hl
  generalize (closeLoop (keyDicts k1) (keyDicts k) (keyDicts k1).length).2 = m at *
  have hdk : ∀ s ∈ keyDicts k, '.' ∉ s := fun s hs =>
    splitC_no_sep (c := '.') (s := k) s (by rw [← keyDicts_realKey k]; simp [hs])
  have hdk1 : ∀ s ∈ keyDicts k1, '.' ∉ s := fun s hs =>
    splitC_no_sep (c := '.') (s := k1) s (by rw [← keyDicts_realKey k1]; simp [hs])
  obtain ⟨c, x, y, s, t, hxy, e1, e2⟩ := dotted_diff ((keyDicts k1).take m) ((keyDicts k).take m)
    (fun s hs => hdk1 s (List.mem_of_mem_take hs)) (fun s hs => hdk s (List.mem_of_mem_take hs))
    (by simp [Nat.min_eq_left h1, Nat.min_eq_left h2]) hne
  have ek1 : k1 = c ++ x :: (s ++ join ['.'] ((keyDicts k1).drop m ++ [realKey k1])) := by
    have : k1 = join ['.'] ((keyDicts k1).take m ++ ((keyDicts k1).drop m ++ [realKey k1])) := by
      rw [← List.append_assoc, List.take_append_drop, keyDicts_realKey, join_splitC]
    rw [join_append_dotted _ _ (by simp), e1] at this
    simpa using this
  have ek : k = c ++ y :: (t ++ join ['.'] ((keyDicts k).drop m ++ [realKey k])) := by
    have : k = join ['.'] ((keyDicts k).take m ++ ((keyDicts k).drop m ++ [realKey k])) := by
      rw [← List.append_assoc, List.take_append_drop, keyDicts_realKey, join_splitC]
    rw [join_append_dotted _ _ (by simp), e2] at this
    simpa using this
  have el : landed (keyDicts k1) k = c ++ x :: (s ++ join ['.'] ((keyDicts k).drop m ++ [realKey k])) := by
    rw [hl, nameR_join]
    · rw [List.reverse_cons, List.reverse_reverse, List.append_assoc, join_append_dotted _ _ (by simp), e1]
      simp
    · intro z hz
      simp only [List.mem_cons, List.mem_reverse, List.mem_append] at hz
      rcases hz with rfl | hz | hz
      · exact hk.real.1
      · exact (hk1.dicts z (List.mem_of_mem_take hz)).1
      · exact (hk.dicts z (List.mem_of_mem_drop hz)).1
  have hx : x.toNat < y.toNat := by
    rw [ek1, ek] at hlt
    exact (strLe_diff c hxy _ _).1 hlt
  constructor
  · rw [el]
    conv_lhs => rw [ek]
    exact (strLe_diff c hxy _ _).2 hx
  · intro he
    rw [el] at he
    conv_rhs at he => rw [ek]
    have := List.append_cancel_left he
    simp at this
    exact hxy this.1

theorem plain_close (d : Nat) : Plain (tabs d ++ ['}']) := by
  unfold Plain firstWord
  rw [strip_close]
  decide

theorem plain_open {n : Str} (hn : NameOk n) (d : Nat) : Plain (tabs d ++ n ++ ['{']) := by
  have hw : wsSplit (n ++ ['{']) = [n ++ ['{']] := by
    apply wsSplit_word (by simp)
    intro c hc
    rcases List.mem_append.1 hc with hc | hc
    · exact (hn.2 c hc).1
    · simp at hc; subst hc; rfl
  have hlast : ∀ s : Str, n ++ ['{'] = s → s.getLast? = some '{' := by rintro s rfl; simp
  unfold Plain firstWord
  rw [strip_open hn, hw]
  constructor
  · intro h
    have h := hlast _ (by simpa using h : n ++ ['{'] = "!create".toList)
    revert h; decide
  · intro h
    have h := hlast _ (by simpa using h : n ++ ['{'] = "!include".toList)
    revert h; decide

theorem plain_pair {k v : Str} (hk : NameOk k) (hc : k ≠ "!create".toList) (hi : k ≠ "!include".toList)
    (hv : ValOk v) (d : Nat) : Plain (tabs d ++ k ++ ['\t'] ++ v) := by
  unfold Plain firstWord
  rw [strip_pair hk hv, wsSplit_word_append hk.1 (fun c hc => (hk.2 c hc).1) (by rfl)]
  simp only [List.head?_cons, ne_eq, Option.some.injEq]
  exact ⟨hc, hi⟩

theorem plain_nil : Plain ([] : Line) := by decide

theorem closeLoop_plain (curr dicts : List Str) (n : Nat) : ∀ l ∈ (closeLoop curr dicts n).1, Plain l := by
  induction n with
  | zero => simp [closeLoop]
  | succ d ih =>
    rw [closeLoop]
    split
    · intro l hl
      rcases List.mem_cons.1 hl with rfl | hl
      · exact plain_close d
      · exact ih l hl
    · simp

theorem openLoop_plain (ns : List Str) (h : ∀ n ∈ ns, NameOk n) : ∀ d, ∀ l ∈ openLoop d ns, Plain l := by
  induction ns with
  | nil => simp [openLoop]
  | cons n ns ih =>
    intro d l hl
    rw [openLoop] at hl
    rcases List.mem_cons.1 hl with rfl | hl
    · exact plain_nil
    · rcases List.mem_cons.1 hl with rfl | hl
      · exact plain_open (h n (by simp)) d
      · exact ih (fun n hn => h n (by simp [hn])) _ l hl

theorem writeItems_plain : ∀ (items : List (Str × Str)) (curr : List Str), (∀ p ∈ items, KeyOk p.1 ∧ ValOk p.2) →
    ∀ l ∈ writeItems curr items, Plain l := by
  intro items
  induction items with
  | nil =>
    intro curr _ l hl
    simp only [writeItems, List.mem_map] at hl
    obtain ⟨d, _, rfl⟩ := hl
    exact plain_close d
  | cons p rest ih =>
    obtain ⟨k, v⟩ := p
    intro curr hok l hl
    obtain ⟨hk, hv⟩ := hok (k, v) (by simp)
    rw [writeItems] at hl
    rcases List.mem_append.1 hl with hl | hl
    · unfold switchDict at hl
      split at hl
      · simp at hl
      · simp only at hl
        rcases List.mem_append.1 hl with hl | hl
        · exact closeLoop_plain _ _ _ l hl
        · split at hl
          · simp at hl; subst hl; exact plain_nil
          · exact openLoop_plain _ (fun n hn => hk.dicts n (List.mem_of_mem_drop hn)) _ l hl
    · rcases List.mem_cons.1 hl with rfl | hl
      · exact plain_pair hk.real hk.2.1 hk.2.2 hv _
      · exact ih _ (fun p hp => hok p (by simp [hp])) l hl

theorem stkR_map (r : List Str) : ∃ names : List Str, stkR r = names.map (fun d => (d, false)) := by
  induction r with
  | nil => exact ⟨[[]], rfl⟩
  | cons n r ih => obtain ⟨names, h⟩ := ih; exact ⟨nameR (n :: r) :: names, by simp [stkR, h]⟩

theorem run_misaligned : ∀ (items : List (Str × Str)) (D : SDict) (curr : List Str),
    (∀ p ∈ items, KeyOk p.1 ∧ ValOk p.2) → (∀ p ∈ D, KeyOk p.1) → Dict.WF (D ++ items) →
    (D ++ items).Pairwise (fun a b => strLe a.1 b.1 = true) →
    (curr = [] ∨ ∃ k1 ∈ Dict.keys D, curr = keyDicts k1) →
    ¬ AlignedFrom curr items → ∀ D', run load ((writeItems curr items).filter nonBlank) D (stkR curr.reverse) = .ok D' →
    ∃ k ∈ Dict.keys D', k ∉ Dict.keys (D ++ items) := by
  intro items
  induction items with
  | nil => intro D curr _ _ _ _ _ h; exact absurd trivial h
  | cons p rest ih =>
    obtain ⟨k, v⟩ := p
    intro D curr hok hokD hwf hsort hcurr hnal D' hrun
    obtain ⟨hk, hv⟩ := hok (k, v) (by simp)
    have hnotD : k ∉ Dict.keys D := by
      intro hmem
      unfold Dict.WF Dict.keys at hwf
      rw [List.map_append, List.nodup_append] at hwf
      exact hwf.2.2 k hmem k (by simp) rfl
    rw [run_item load curr hk hv] at hrun
    by_cases hm : Misaligned curr (keyDicts k)
    · -- misplaced entry
      rcases hcurr with rfl | ⟨k1, hk1, rfl⟩
      · obtain ⟨i, hi, _⟩ := hm; simp at hi
      · obtain ⟨p1, hp1, rfl⟩ := List.mem_map.1 hk1
        have hle : strLe p1.1 k = true := by
          rw [List.pairwise_append] at hsort
          exact hsort.2.2 p1 hp1 (k, v) (by simp)
        obtain ⟨hl1, hl2⟩ := landed_lt (hokD p1 hp1) hk hle hm
        change (if Dict.has D (landed (keyDicts p1.1) k) = true then _ else
          run load _ (Dict.set D (landed (keyDicts p1.1) k) v) _) = _ at hrun
        split at hrun
        · cases hrun
        · rename_i hno
          rw [Dict.has_iff] at hno
          have hwfD : Dict.WF D := by
            unfold Dict.WF Dict.keys at hwf ⊢
            rw [List.map_append, List.nodup_append] at hwf
            exact hwf.1
          obtain ⟨names, hnames⟩ := stkR_map (reached (keyDicts p1.1) (keyDicts k)).reverse
          rw [hnames] at hrun
          have hpl : ∀ l ∈ (writeItems (keyDicts k) rest).filter nonBlank, Plain l := by
            intro l hl
            exact writeItems_plain rest _ (fun p hp => hok p (by simp [hp])) l (List.mem_of_mem_filter hl)
          obtain ⟨hD', _⟩ := run_assignments load _ _ D' names hpl (Dict.WF_set hwfD _ _) hrun
          refine ⟨landed (keyDicts p1.1) k, ?_, ?_⟩
          · rw [hD']
            unfold Dict.keys
            rw [List.map_append, List.mem_append]
            left
            exact (Dict.mem_keys_set D _ v _).2 (Or.inl rfl)
          · intro hmem
            unfold Dict.keys at hmem
            rw [List.map_append, List.mem_append] at hmem
            rcases hmem with hmem | hmem
            · exact hno hmem
            · rw [List.map_cons, List.mem_cons] at hmem
              rcases hmem with hmem | hmem
              · exact hl2 hmem
              · obtain ⟨p2, hp2, he⟩ := List.mem_map.1 hmem
                rw [List.pairwise_append] at hsort
                have h3 := (List.pairwise_cons.1 hsort.2.1).1 p2 hp2
                simp only at h3
                rw [he] at h3
                -- landed ≤ k ≤ landed
                have : landed (keyDicts p1.1) k = k := by
                  have anti : ∀ a b : Str, strLe a b = true → strLe b a = true → a = b := by
                    intro a
                    induction a with
                    | nil => intro b _ h2; cases b with
                      | nil => rfl
                      | cons y b => simp [strLe] at h2
                    | cons x a ih =>
                      intro b h1 h2
                      cases b with
                      | nil => simp [strLe] at h1
                      | cons y b =>
                        simp only [strLe] at h1 h2
                        by_cases h4 : x.toNat < y.toNat
                        · rw [if_neg (by omega), if_pos h4] at h2; cases h2
                        · rw [if_neg h4] at h1
                          by_cases h5 : y.toNat < x.toNat
                          · rw [if_pos h5] at h1; cases h1
                          · rw [if_neg h5] at h1
                            rw [if_neg h5, if_neg h4] at h2
                            have hxy : x = y := Char.ext (UInt32.toNat.inj (by
                              show x.toNat = y.toNat; omega))
                            rw [hxy, ih b h1 h2]
                  exact anti _ _ hl1 h3
                exact hl2 this
    · rw [reached_aligned hm, qualify_key hk, if_neg (by rw [Dict.has_iff]; exact hnotD),
        Dict.set_of_not_mem _ _ hnotD] at hrun
      have hnal' : ¬ AlignedFrom (keyDicts k) rest := fun h => hnal ⟨hm, h⟩
      obtain ⟨k', h1, h2⟩ := ih (D ++ [(k, v)]) (keyDicts k) (fun p hp => hok p (by simp [hp]))
        (by
          intro p hp
          rcases List.mem_append.1 hp with hp | hp
          · exact hokD p hp
          · simp at hp; subst hp; exact hk)
        (by simpa using hwf) (by simpa using hsort)
        (Or.inr ⟨k, by simp [Dict.keys], rfl⟩) hnal' D' hrun
      exact ⟨k', h1, by simpa using h2⟩

/-- **C01, exact extent**: a definition whose keys and values the format can express survives write and reload *if
and only if* it is aligned. -/
theorem reload_iff_aligned (D : SDict) (fileName date : Str) (hd : Bool) (hf : '\n' ∉ fileName) (hda : '\n' ∉ date)
    (hwf : Dict.WF D) (hok : ∀ p ∈ D, KeyOk p.1 ∧ ValOk p.2) :
    (∃ D', parseText load (writeText D fileName date hd) = .ok D' ∧ ∀ k, Dict.get? D' k = Dict.get? D k) ↔
      AlignedFrom [] (sortedItems D) := by
  constructor
  · rintro ⟨D', h, heq⟩
    by_contra hnal
    have hok' : ∀ p ∈ sortedItems D, KeyOk p.1 ∧ ValOk p.2 := by
      intro p hp; apply hok; unfold sortedItems at hp; simpa using hp
    unfold parseText at h
    rw [parseLines_eq_run, prepLines_writeText D fileName date hd hf hda hok] at h
    obtain ⟨k, h1, h2⟩ := run_misaligned load (sortedItems D) [] [] hok' (by simp)
      (by simpa using sortedItems_WF hwf) (by simpa using sortedItems_sorted D) (Or.inl rfl) hnal D'
      (by simpa [stkR] using h)
    have h3 : Dict.get? D k = none := by
      rw [← Dict.get?_perm (sortedItems_WF hwf) (sortedItems_perm D) k]
      rw [Dict.get?_eq_none_iff]; simpa using h2
    rw [← heq k, Dict.get?_eq_none_iff] at h3
    exact h3 h1
  · intro hal
    obtain ⟨D', h1, _, h3⟩ := write_reload_partial load D fileName date hd hf hda hwf hok hal
    exact ⟨D', h1, h3⟩

/-- **C01 fails**: two entries in equally named sub-dictionaries of different parents; after write and reload one
of them has moved to the other parent. -/
theorem write_reload_violated :
    parseText (fun _ => .error .fileNotFound)
      (writeText [("A.X.k".toList, "1".toList), ("B.X.m".toList, "2".toList)] "f.mapleaf".toList "now".toList true) =
    .ok [("A.X.k".toList, "1".toList), ("A.X.m".toList, "2".toList)] := by decide +kernel

/-- **C01 fails** for values containing a comment marker (loaded from an escaped `\#`): written unescaped, the rest
of the value is lost. -/
theorem write_reload_hash_violated :
    parseText (fun _ => .error .fileNotFound) "name a \\#1 b".toList = .ok [("name".toList, "a #1 b".toList)] ∧
    parseText (fun _ => .error .fileNotFound)
      (writeText [("name".toList, "a #1 b".toList)] "f.mapleaf".toList "now".toList true) =
    .ok [("name".toList, "a".toList)] := by decide +kernel

-- Non-vacuity of `write_reload_partial`: nested, aligned, several keys.
example : Dict.WF [("Rocket.Sustainer.mass".toList, "5".toList), ("Rocket.name".toList, "my rocket".toList),
      ("SimControl.timeStep".toList, "0.01".toList)] ∧
    (∀ p ∈ [("Rocket.Sustainer.mass".toList, "5".toList), ("Rocket.name".toList, "my rocket".toList),
      ("SimControl.timeStep".toList, "0.01".toList)], KeyOk p.1 ∧ ValOk p.2) := by
  refine ⟨?_, by decide +kernel⟩
  show List.Nodup _
  decide +kernel

example : parseText (fun _ => .error .fileNotFound)
      (writeText [("SimControl.timeStep".toList, "0.01".toList), ("Rocket.Sustainer.mass".toList, "5".toList),
        ("Rocket.name".toList, "my rocket".toList)] "f.mapleaf".toList "now".toList true) =
    .ok [("Rocket.Sustainer.mass".toList, "5".toList), ("Rocket.name".toList, "my rocket".toList),
      ("SimControl.timeStep".toList, "0.01".toList)] := by decide +kernel

example : AlignedFrom [] (sortedItems [("Rocket.Sustainer.mass".toList, "5".toList),
    ("Rocket.name".toList, "my rocket".toList), ("SimControl.timeStep".toList, "0.01".toList)]) := by
  refine (reload_iff_aligned (fun _ => .error .fileNotFound) _ "f".toList "now".toList true (by decide) (by decide)
    ?_ (by decide +kernel)).1 ⟨[("Rocket.Sustainer.mass".toList, "5".toList),
    ("Rocket.name".toList, "my rocket".toList), ("SimControl.timeStep".toList, "0.01".toList)],
    by decide +kernel, fun k => rfl⟩
  show List.Nodup _; decide +kernel

end Mapleaf.SimDef
