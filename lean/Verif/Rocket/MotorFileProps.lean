import Verif.Rocket.MotorFileModel
import Verif.Rocket.MotorProps
import Verif.Motion.VectorText

/-! # C102: the motor that flies is the one in the motor file -/

namespace Mapleaf.Rocket
open Mapleaf.Motion Str

theorem got {α β : Type} {x : Except PyErr α} {f : α → Except PyErr β} {b : β} : (x >>= f) = .ok b ↔ ∃ a, x = .ok a ∧ f a = .ok b := by
  cases x with
  | error e => constructor
               · intro h; cases h
               · rintro ⟨_, h, _⟩; cases h
  | ok a => constructor
            · intro h; exact ⟨a, rfl, h⟩
            · rintro ⟨_, h, h'⟩; cases h; exact h'

/-! ## Comments and blank lines -/

theorem cut_line (rest : Str) : ∀ (l : Str) (_ : '\n' ∉ l),
    cutComments false (l ++ '\n' :: rest) = l.takeWhile (· ≠ '#') ++ '\n' :: cutComments false rest ∧
    cutComments true (l ++ '\n' :: rest) = '\n' :: cutComments false rest
  | [], _ => by constructor <;> simp [cutComments]
  | c :: l, h => by
    simp only [List.mem_cons, not_or] at h
    obtain ⟨h1, h2⟩ := cut_line rest l h.2
    have hc : c ≠ '\n' := fun e => h.1 e.symm
    constructor
    · rw [List.cons_append, cutComments]
      by_cases hh : c = '#'
      · rw [if_pos hh, h2]; simp [hh]
      · rw [if_neg hh, h1]; simp [hh]
    · rw [List.cons_append, cutComments, if_neg hc, h2]

theorem cut_last : ∀ (l : Str) (_ : '\n' ∉ l), cutComments false l = l.takeWhile (· ≠ '#') ∧ cutComments true l = []
  | [], _ => by constructor <;> rfl
  | c :: l, h => by
    simp only [List.mem_cons, not_or] at h
    obtain ⟨h1, h2⟩ := cut_last l h.2
    have hc : c ≠ '\n' := fun e => h.1 e.symm
    constructor
    · rw [cutComments]
      by_cases hh : c = '#'
      · rw [if_pos hh, h2]; simp [hh]
      · rw [if_neg hh, h1]; simp [hh]
    · rw [cutComments, if_neg hc, h2]

theorem cut_join : ∀ (ls : List Str) (_ : ∀ l ∈ ls, '\n' ∉ l), cutComments false (join ['\n'] ls) = join ['\n'] (ls.map (·.takeWhile (· ≠ '#')))
  | [], _ => rfl
  | [l], h => (cut_last l (h l (by simp))).1
  | a :: b :: t, h => by
    have ih := cut_join (b :: t) (fun l hl => h l (by simp [hl]))
    rw [join_cons _ _ (by simp), List.append_assoc, List.singleton_append, (cut_line _ a (h a (by simp))).1, ih]
    rw [show List.map (fun x : Str => x.takeWhile (· ≠ '#')) (a :: b :: t) = a.takeWhile (· ≠ '#') :: List.map (fun x : Str => x.takeWhile (· ≠ '#')) (b :: t) from rfl]
    rw [join_cons (l := List.map _ (b :: t)) _ _ (by simp), List.append_assoc, List.singleton_append]

/-- **C102.** Of the lines of a file, what stands before a `#` is read, if it is not blank. -/
theorem file_lines (text : Str) :
    motorLines text = ((splitC '\n' text).map (fun l => l.takeWhile (· ≠ '#'))).filter (fun l => !(strip l).isEmpty) := by
  unfold motorLines
  congr 1
  nth_rewrite 1 [← join_splitC '\n' text]
  rw [cut_join _ (fun l hl => splitC_no_sep l hl), splitC_join]
  · simpa using splitC_ne_nil '\n' text
  · intro s hs
    obtain ⟨l, hl, rfl⟩ := List.mem_map.1 hs
    exact fun hc => splitC_no_sep l hl ((List.takeWhile_sublist _).mem hc)

/-- **C102.** Comments and blank lines may be put anywhere. -/
theorem comments_ignored (before after : List Str) (l : Str) (h1 : ∀ x ∈ before ++ after, '\n' ∉ x) (h2 : '\n' ∉ l) (h3 : Blank (l.takeWhile (· ≠ '#')))
    (h4 : before ++ after ≠ []) {K : Type} (float : Str → Option K) :
    readMotorFile float (join ['\n'] (before ++ l :: after)) = readMotorFile float (join ['\n'] (before ++ after)) := by
  have e : motorLines (join ['\n'] (before ++ l :: after)) = motorLines (join ['\n'] (before ++ after)) := by
    rw [file_lines, file_lines, splitC_join '\n' (by simp), splitC_join '\n' h4 h1]
    · have : (strip (l.takeWhile (· ≠ '#'))).isEmpty = true := by
        have := vt_strip_pad (a := l.takeWhile (· ≠ '#')) (s := []) (b := []) h3 (fun c hc => by cases hc) (by simp) (by simp)
        simp only [List.append_nil] at this
        rw [this]; rfl
      simp only [List.map_append, List.map_cons, List.filter_append]
      rw [List.filter_cons_of_neg (by rw [this]; simp)]
    · intro s hs
      simp only [List.mem_append, List.mem_cons] at hs
      rcases hs with hs | rfl | hs
      · exact h1 s (by simp [hs])
      · exact h2
      · exact h1 s (by simp [hs])
  unfold readMotorFile
  rw [e]

/-! ## What is accepted -/

theorem floatAt_iff {K : Type} (float : Str → Option K) (ws : List Str) (i : Nat) (x : K) :
    floatAt float ws i = .ok x ↔ ∃ w, ws[i]? = some w ∧ float w = some x := by
  unfold floatAt wordAt
  rw [got]
  constructor
  · rintro ⟨w, h1, h2⟩
    split at h1
    · rename_i w' hw
      obtain rfl := Except.ok.inj h1
      unfold floatOf at h2
      split at h2
      · rename_i y hy
        exact ⟨w', hw, by rw [hy, Except.ok.inj h2]⟩
      · cases h2
    · cases h1
  · rintro ⟨w, h1, h2⟩
    refine ⟨w, by rw [h1], ?_⟩
    unfold floatOf
    rw [h2]

theorem headerAt_iff {K : Type} (float : Str → Option K) (ls : List Str) (i : Nat) (x : K) :
    headerAt float ls i = .ok x ↔ ∃ l w, ls[i]? = some l ∧ (wsSplit l)[1]? = some w ∧ float w = some x := by
  unfold headerAt wordAt
  rw [got]
  constructor
  · rintro ⟨l, h1, h2⟩
    split at h1
    · rename_i l' hl
      obtain rfl := Except.ok.inj h1
      obtain ⟨w, h3, h4⟩ := (floatAt_iff _ _ _ _).1 h2
      exact ⟨l', w, hl, h3, h4⟩
    · cases h1
  · rintro ⟨l, w, h1, h2, h3⟩
    exact ⟨l, by rw [h1], (floatAt_iff _ _ _ _).2 ⟨w, h2, h3⟩⟩

theorem indexFrom_iff (c : Char) (pre rest : Str) (i : Nat) :
    indexFrom c (pre ++ rest) pre.length = .ok i ↔ ∃ a b, rest = a ++ c :: b ∧ c ∉ a ∧ i = pre.length + a.length := by
  unfold indexFrom
  rw [List.drop_left]
  constructor
  · intro h
    split at h
    · rename_i hc
      obtain ⟨a, b, e, hn⟩ := List.eq_append_cons_of_mem hc
      refine ⟨a, b, e, hn, ?_⟩
      rw [← Except.ok.inj h, e, List.idxOf_append_of_notMem hn]
      simp
    · cases h
  · rintro ⟨a, b, rfl, hn, rfl⟩
    rw [if_pos (by simp), List.idxOf_append_of_notMem hn]
    simp

theorem vectorFrom_iff {K : Type} (float : Str → Option K) (pre rest : Str) (v : V3 K) (n : Nat) :
    vectorFrom float (pre ++ rest) pre.length = .ok (v, n) ↔ ∃ a b post, rest = a ++ '(' :: b ++ ')' :: post ∧ '(' ∉ a ∧ ')' ∉ b ∧
      parseVector float ('(' :: b ++ [')']) = .ok v ∧ n = (pre ++ a ++ '(' :: b ++ [')']).length := by
  have slice : ∀ a b post : Str, (List.take ((pre ++ a).length + ('(' :: b).length + 1) (pre ++ (a ++ '(' :: b ++ ')' :: post))).drop (pre ++ a).length =
      '(' :: b ++ [')'] := by
    intro a b post
    rw [show pre ++ (a ++ '(' :: b ++ ')' :: post) = (pre ++ a ++ ('(' :: b ++ [')'])) ++ post by simp]
    rw [List.take_left' (by simp; omega), List.drop_left]
  unfold vectorFrom
  rw [got]
  constructor
  · rintro ⟨i, h1, h2⟩
    obtain ⟨j, h2, h5⟩ := got.1 h2
    obtain ⟨w, h3, h4⟩ := got.1 h5
    clear h5
    obtain ⟨a, tail, rfl, ha, rfl⟩ := (indexFrom_iff _ _ _ _).1 h1
    rw [show pre ++ (a ++ '(' :: tail) = (pre ++ a) ++ '(' :: tail by simp, ← List.length_append] at h2
    obtain ⟨b', post, e, hb, rfl⟩ := (indexFrom_iff _ _ _ _).1 h2
    cases b' with
    | nil => simp at e
    | cons x b =>
      rw [List.cons_append] at e
      obtain ⟨rfl, rfl⟩ := List.cons.inj e
      obtain ⟨rfl, rfl⟩ := Prod.mk.inj (Except.ok.inj h4)
      refine ⟨a, b, post, by simp, ha, fun h => hb (by simp [h]), ?_, by simp; omega⟩
      rw [← List.length_append] at h3
      have := slice a b post
      rw [List.append_assoc, List.cons_append] at this
      rw [this] at h3
      exact h3
  · rintro ⟨a, b, post, rfl, ha, hb, hv, rfl⟩
    refine ⟨pre.length + a.length, (indexFrom_iff _ _ _ _).2 ⟨a, b ++ ')' :: post, by simp, ha, rfl⟩, ?_⟩
    rw [got]
    refine ⟨(pre ++ a).length + ('(' :: b).length, ?_, ?_⟩
    · rw [show pre ++ (a ++ '(' :: b ++ ')' :: post) = (pre ++ a) ++ ('(' :: b ++ ')' :: post) by simp, ← List.length_append]
      exact (indexFrom_iff _ _ _ _).2 ⟨'(' :: b, post, rfl, by simp [hb], rfl⟩
    · rw [got]
      refine ⟨v, ?_, ?_⟩
      · rw [← List.length_append, slice]; exact hv
      · congr 2; simp; omega

/-- **C102.** A data line is accepted exactly if its first four words are numbers, and two bracketed triples follow one another in it; these are the moments of
inertia. -/
theorem row_iff {K : Type} (float : Str → Option K) (line : Str) (r : MotorRow K) :
    motorRow float line = .ok r ↔ ∃ w₀ w₁ w₂ w₃ ws a b c d post, wsSplit line = w₀ :: w₁ :: w₂ :: w₃ :: ws ∧
      float w₀ = some r.t ∧ float w₁ = some r.thrust ∧ float w₂ = some r.ox ∧ float w₃ = some r.fuel ∧
      line = a ++ '(' :: b ++ ')' :: c ++ '(' :: d ++ ')' :: post ∧ '(' ∉ a ∧ ')' ∉ b ∧ '(' ∉ c ∧ ')' ∉ d ∧
      parseVector float ('(' :: b ++ [')']) = .ok r.oxMOI ∧ parseVector float ('(' :: d ++ [')']) = .ok r.fuelMOI := by
  unfold motorRow
  dsimp only
  constructor
  · intro h
    obtain ⟨t, e0, h⟩ := got.1 h
    obtain ⟨u, e1, h⟩ := got.1 h
    obtain ⟨x, e2, h⟩ := got.1 h
    obtain ⟨f, e3, h⟩ := got.1 h
    obtain ⟨⟨v, n⟩, e4, h⟩ := got.1 h
    dsimp only at h
    obtain ⟨⟨v', n'⟩, e5, h⟩ := got.1 h
    obtain rfl := Except.ok.inj h
    obtain ⟨w₀, i0, f0⟩ := (floatAt_iff _ _ _ _).1 e0
    obtain ⟨w₁, i1, f1⟩ := (floatAt_iff _ _ _ _).1 e1
    obtain ⟨w₂, i2, f2⟩ := (floatAt_iff _ _ _ _).1 e2
    obtain ⟨w₃, i3, f3⟩ := (floatAt_iff _ _ _ _).1 e3
    obtain ⟨a, b, rest, e, ha, hb, hv, rfl⟩ := (vectorFrom_iff float [] line v n).1 e4
    rw [show line = ([] ++ a ++ '(' :: b ++ [')']) ++ rest by rw [e]; simp] at e5
    obtain ⟨c, d, post, rfl, hc, hd, hv', -⟩ := (vectorFrom_iff float _ rest v' n').1 e5
    refine ⟨w₀, w₁, w₂, w₃, (wsSplit line).drop 4, a, b, c, d, post, ?_, f0, f1, f2, f3, by rw [e]; simp, ha, hb, hc, hd, hv, hv'⟩
    match hw : wsSplit line, i0, i1, i2, i3 with
    | p :: q :: r :: s :: ws, i0, i1, i2, i3 => simp at i0 i1 i2 i3; simp [i0, i1, i2, i3]
  · rintro ⟨w₀, w₁, w₂, w₃, ws, a, b, c, d, post, hw, f0, f1, f2, f3, e, ha, hb, hc, hd, hv, hv'⟩
    rw [hw]
    refine got.2 ⟨r.t, (floatAt_iff _ _ _ _).2 ⟨w₀, rfl, f0⟩, got.2 ⟨r.thrust, (floatAt_iff _ _ _ _).2 ⟨w₁, rfl, f1⟩,
      got.2 ⟨r.ox, (floatAt_iff _ _ _ _).2 ⟨w₂, rfl, f2⟩, got.2 ⟨r.fuel, (floatAt_iff _ _ _ _).2 ⟨w₃, rfl, f3⟩,
      got.2 ⟨(r.oxMOI, ([] ++ a ++ '(' :: b ++ [')']).length), ?_, got.2 ⟨(r.fuelMOI, (([] ++ a ++ '(' :: b ++ [')']) ++ c ++ '(' :: d ++ [')']).length), ?_, rfl⟩⟩⟩⟩⟩⟩
    · exact (vectorFrom_iff float [] line _ _).2 ⟨a, b, c ++ '(' :: d ++ ')' :: post, by rw [e]; simp, ha, hb, hv, rfl⟩
    · have : line = ([] ++ a ++ '(' :: b ++ [')']) ++ (c ++ '(' :: d ++ ')' :: post) := by rw [e]; simp
      dsimp only
      rw [this]
      exact (vectorFrom_iff float _ _ _ _).2 ⟨c, d, post, rfl, hc, hd, hv', rfl⟩

theorem rows_iff {K : Type} (float : Str → Option K) : ∀ (ls : List Str) (rs : List (MotorRow K)),
    motorRows float ls = .ok rs ↔ List.Forall₂ (fun l r => motorRow float l = .ok r) ls rs
  | [], rs => by
    constructor
    · intro h; obtain rfl := Except.ok.inj h; exact .nil
    · intro h; cases h; rfl
  | l :: ls, rs => by
    unfold motorRows
    constructor
    · intro h
      obtain ⟨r, h1, h⟩ := got.1 h
      obtain ⟨rs', h2, h⟩ := got.1 h
      obtain rfl := Except.ok.inj h
      exact .cons h1 ((rows_iff float ls rs').1 h2)
    · intro h
      cases h with
      | cons h1 h2 => exact got.2 ⟨_, h1, got.2 ⟨_, (rows_iff float ls _).2 h2, rfl⟩⟩

/-- **C102.** A file is accepted exactly if at least four lines are left, the second words of the first four are numbers, and the others are data lines. -/
theorem file_iff {K : Type} (float : Str → Option K) (text : Str) (h : MotorHeader K) (rows : List (MotorRow K)) :
    readMotorFile float text = .ok (h, rows) ↔ ∃ l₀ l₁ l₂ l₃ ls w₀ w₁ w₂ w₃,
      ((splitC '\n' text).map (fun l => l.takeWhile (· ≠ '#'))).filter (fun l => !(strip l).isEmpty) = l₀ :: l₁ :: l₂ :: l₃ :: ls ∧
      (wsSplit l₀)[1]? = some w₀ ∧ (wsSplit l₁)[1]? = some w₁ ∧ (wsSplit l₂)[1]? = some w₂ ∧ (wsSplit l₃)[1]? = some w₃ ∧
      float w₀ = some h.initOx ∧ float w₁ = some h.finalOx ∧ float w₂ = some h.initFuel ∧ float w₃ = some h.finalFuel ∧
      List.Forall₂ (fun l r => motorRow float l = .ok r) ls rows := by
  rw [← file_lines]
  unfold readMotorFile
  dsimp only
  constructor
  · intro e
    obtain ⟨a, e0, e⟩ := got.1 e
    obtain ⟨b, e1, e⟩ := got.1 e
    obtain ⟨c, e2, e⟩ := got.1 e
    obtain ⟨d, e3, e⟩ := got.1 e
    obtain ⟨rs, e4, e⟩ := got.1 e
    obtain ⟨rfl, rfl⟩ := Prod.mk.inj (Except.ok.inj e)
    obtain ⟨l₀, w₀, i0, j0, f0⟩ := (headerAt_iff _ _ _ _).1 e0
    obtain ⟨l₁, w₁, i1, j1, f1⟩ := (headerAt_iff _ _ _ _).1 e1
    obtain ⟨l₂, w₂, i2, j2, f2⟩ := (headerAt_iff _ _ _ _).1 e2
    obtain ⟨l₃, w₃, i3, j3, f3⟩ := (headerAt_iff _ _ _ _).1 e3
    refine ⟨l₀, l₁, l₂, l₃, (motorLines text).drop 4, w₀, w₁, w₂, w₃, ?_, j0, j1, j2, j3, f0, f1, f2, f3, (rows_iff _ _ _).1 e4⟩
    match hw : motorLines text, i0, i1, i2, i3 with
    | p :: q :: r :: s :: ws, i0, i1, i2, i3 => simp at i0 i1 i2 i3; simp [i0, i1, i2, i3]
  · rintro ⟨l₀, l₁, l₂, l₃, ls, w₀, w₁, w₂, w₃, hl, j0, j1, j2, j3, f0, f1, f2, f3, hr⟩
    rw [hl]
    refine got.2 ⟨h.initOx, (headerAt_iff _ _ _ _).2 ⟨l₀, w₀, rfl, j0, f0⟩, got.2 ⟨h.finalOx, (headerAt_iff _ _ _ _).2 ⟨l₁, w₁, rfl, j1, f1⟩,
      got.2 ⟨h.initFuel, (headerAt_iff _ _ _ _).2 ⟨l₂, w₂, rfl, j2, f2⟩, got.2 ⟨h.finalFuel, (headerAt_iff _ _ _ _).2 ⟨l₃, w₃, rfl, j3, f3⟩,
      got.2 ⟨rows, (rows_iff _ _ _).2 hr, rfl⟩⟩⟩⟩⟩

end Mapleaf.Rocket
