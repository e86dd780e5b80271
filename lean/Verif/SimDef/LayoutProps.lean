import Verif.SimDef.WriterProps

/-!
# C01, C02: layout of written files, paths of include lines
-/

namespace Mapleaf.SimDef
open Str

/-- **C02: the path of an `!include` line** is what follows the first space, without white space around it; a line without a space is an
error. -/
theorem includePath_ok_iff (line p : Str) :
    includePath line = .ok p ↔ ∃ word rest, line = word ++ ' ' :: rest ∧ ' ' ∉ word ∧ p = strip (' ' :: rest) := by
  have hd : ∀ w r : Str, ' ' ∉ w → (w ++ ' ' :: r).dropWhile (fun c => c ≠ ' ') = ' ' :: r := by
    intro w r hw
    rw [List.dropWhile_append_of_pos]
    · simp
    · intro c hc
      simp only [ne_eq, decide_not, Bool.not_eq_true', decide_eq_false_iff_not]
      rintro rfl; exact hw hc
  unfold includePath
  constructor
  · intro h
    split at h
    · rename_i hs
      obtain ⟨w, r, rfl, hw⟩ := List.eq_append_cons_of_mem hs
      rw [hd w r hw] at h
      cases h
      exact ⟨w, r, rfl, hw, rfl⟩
    · cases h
  · rintro ⟨w, r, rfl, hw, rfl⟩
    rw [if_pos (by simp), hd w r hw]

example : includePath "!include  a b.mapleaf".toList = .ok "a b.mapleaf".toList :=
  (includePath_ok_iff _ _).2 ⟨"!include".toList, " a b.mapleaf".toList, rfl, by decide, by decide +kernel⟩

/-- Number of tabs a line starts with. -/
def indentOf (l : Line) : Nat := (l.takeWhile (· = '\t')).length

/-- Reading a text as a reader does: the number of dictionaries open at the end if every line is indented by the number of dictionaries
open around it, a closing brace by one less, and no brace closes what is not open. -/
def layout : Nat → List Line → Option Nat
  | d, [] => some d
  | d, l :: ls =>
    if l = [] then layout d ls
    else if l.getLast? = some '}' ∧ l.dropLast = List.replicate (d - 1) '\t' then (if d = 0 then none else layout (d - 1) ls)
    else if indentOf l ≠ d then none
    else if l.getLast? = some '{' then layout (d + 1) ls
    else layout d ls

theorem indentOf_tabs {s : Str} (d : Nat) (h : s.head? ≠ some '\t') : indentOf (tabs d ++ s) = d := by
  unfold indentOf tabs
  rw [List.takeWhile_append_of_pos (by simp)]
  cases s with
  | nil => simp
  | cons c s =>
    have : c ≠ '\t' := fun he => h (by simp [he])
    simp [this]

theorem NameOk.head_ne_tab {n : Str} (h : NameOk n) (t : Str) : (n ++ t).head? ≠ some '\t' := by
  intro he
  have := h.head t '\t' he
  exact absurd this (by decide)

theorem layout_close (d : Nat) (ls : List Line) : layout (d + 1) ((tabs d ++ ['}']) :: ls) = layout d ls := by
  rw [layout, if_neg (by simp), if_pos (by simp [tabs])]
  simp

theorem not_tabs {n : Str} (hn : NameOk n) (d k : Nat) (t : Str) : tabs d ++ n ++ t ≠ List.replicate k '\t' := by
  intro h
  obtain ⟨c, hc⟩ := List.exists_mem_of_ne_nil _ hn.1
  have : c ∈ List.replicate k '\t' := by rw [← h]; simp [hc]
  rw [List.mem_replicate] at this
  have := (hn.2 c hc).1
  rw [‹k ≠ 0 ∧ c = '\t'›.2] at this
  exact absurd this (by decide)

theorem layout_open {n : Str} (hn : NameOk n) (d : Nat) (ls : List Line) :
    layout d ((tabs d ++ n ++ ['{']) :: ls) = layout (d + 1) ls := by
  rw [layout, if_neg (by simp), if_neg (by simp), if_neg, if_pos (by simp)]
  rw [List.append_assoc, indentOf_tabs d (hn.head_ne_tab _)]
  simp

theorem layout_pair {k v : Str} (hk : NameOk k) (hv : ValOk v) (d : Nat) (ls : List Line) :
    layout d ((tabs d ++ k ++ ['\t'] ++ v) :: ls) = layout d ls := by
  have hl : (tabs d ++ k ++ ['\t'] ++ v).getLast? = v.getLast? := by
    rw [List.getLast?_append]
    cases h : v.getLast? with
    | none => exact absurd (List.getLast?_eq_none_iff.1 h) hv.1
    | some c => rfl
  rw [layout, if_neg (by simp), if_neg, if_neg, if_neg]
  · rw [hl]; exact hv.2.2.2
  · rw [List.append_assoc, List.append_assoc, indentOf_tabs d (hk.head_ne_tab _)]
    simp
  · rintro ⟨_, h⟩
    rw [List.append_assoc, List.dropLast_append_of_ne_nil (by simp)] at h
    exact not_tabs hk d _ _ h

theorem layout_blank (d : Nat) (ls : List Line) : layout d ([] :: ls) = layout d ls := by rw [layout, if_pos rfl]

theorem layout_closeLoop (curr dicts : List Str) (ls : List Line) : ∀ n,
    layout n ((closeLoop curr dicts n).1 ++ ls) = layout (closeLoop curr dicts n).2 ls ∧ (closeLoop curr dicts n).2 ≤ dicts.length
  | 0 => ⟨rfl, Nat.zero_le _⟩
  | d + 1 => by
    rw [closeLoop]
    split
    · obtain ⟨h1, h2⟩ := layout_closeLoop curr dicts ls d
      exact ⟨by rw [List.cons_append, layout_close, h1], h2⟩
    · rename_i h
      push Not at h
      exact ⟨rfl, h.1⟩

theorem layout_openLoop (ls : List Line) : ∀ (ns : List Str) (d : Nat), (∀ n ∈ ns, NameOk n) →
    layout d (openLoop d ns ++ ls) = layout (d + ns.length) ls := by
  intro ns
  induction ns with
  | nil => intro d _; rfl
  | cons n ns ih =>
    intro d h
    rw [openLoop, List.cons_append, List.cons_append, layout_blank, layout_open (h n (by simp)), ih _ fun m hm => h m (by simp [hm])]
    congr 1
    simp only [List.length_cons]; omega

theorem layout_closeAll : ∀ n, layout n ((List.range n).reverse.map (fun d => tabs d ++ ['}'])) = some 0
  | 0 => rfl
  | n + 1 => by
    rw [List.range_succ, List.reverse_append, List.reverse_singleton, List.singleton_append, List.map_cons, layout_close, layout_closeAll n]

theorem layout_writeItems : ∀ (items : List (Str × Str)) (curr : List Str), (∀ p ∈ items, KeyOk p.1 ∧ ValOk p.2) →
    layout curr.length (writeItems curr items) = some 0 := by
  intro items
  induction items with
  | nil => intro curr _; exact layout_closeAll _
  | cons p rest ih =>
    obtain ⟨k, v⟩ := p
    intro curr hok
    obtain ⟨hk, hv⟩ := hok (k, v) (by simp)
    have key : ∀ ls, layout curr.length (switchDict curr (keyDicts k) ++ ls) = layout (keyDicts k).length ls := by
      intro ls
      unfold switchDict
      split
      · rename_i he
        rw [he]; rfl
      · dsimp only
        rw [List.append_assoc]
        obtain ⟨h1, h2⟩ := layout_closeLoop curr (keyDicts k)
          ((if openLoop (closeLoop curr (keyDicts k) curr.length).2 ((keyDicts k).drop (closeLoop curr (keyDicts k) curr.length).2) = [] then [[]]
            else openLoop (closeLoop curr (keyDicts k) curr.length).2 ((keyDicts k).drop (closeLoop curr (keyDicts k) curr.length).2)) ++ ls)
          curr.length
        rw [h1]
        have hno : ∀ n ∈ (keyDicts k).drop (closeLoop curr (keyDicts k) curr.length).2, NameOk n :=
          fun n hn => hk.dicts n (List.mem_of_mem_drop hn)
        have ho := layout_openLoop ls _ (closeLoop curr (keyDicts k) curr.length).2 hno
        rw [List.length_drop] at ho
        split
        · rename_i he
          rw [he, List.nil_append] at ho
          rw [List.singleton_append, layout_blank, ho]
          congr 1; omega
        · rw [ho]
          congr 1; omega
    rw [writeItems, key, layout_pair hk.real hv]
    exact ih _ fun p hp => hok p (by simp [hp])

/-- **C01: layout of the file.** Whatever the definition, every dictionary the written text opens it closes again, and every line is indented by
the number of dictionaries open around it. -/
theorem written_layout (D : SDict) (hok : ∀ p ∈ D, KeyOk p.1 ∧ ValOk p.2) :
    layout 0 (writeItems [] (sortedItems D)) = some 0 :=
  layout_writeItems (sortedItems D) [] fun p hp => hok p ((sortedItems_perm D).mem_iff.1 hp)

example : layout 0 (writeItems [] (sortedItems [("A.B.x".toList, "1".toList), ("A.y".toList, "2 3".toList), ("z".toList, "4".toList)])) = some 0 :=
  written_layout _ (by decide +kernel)

end Mapleaf.SimDef
