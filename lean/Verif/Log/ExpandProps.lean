import Verif.Log.ExpandModel

/-! # C11 continued: expansion of vector columns when the log file is written -/

namespace Mapleaf.LogM
open Str

variable {K : Type}

theorem indexAll_vec (v : List (K × K × K)) :
    indexAll 0 (v.map (fun p => Val.vec p.1 p.2.1 p.2.2)) = .ok (v.map (fun p => .num p.1)) ∧
    indexAll 1 (v.map (fun p => Val.vec p.1 p.2.1 p.2.2)) = .ok (v.map (fun p => .num p.2.1)) ∧
    indexAll 2 (v.map (fun p => Val.vec p.1 p.2.1 p.2.2)) = .ok (v.map (fun p => .num p.2.2)) := by
  induction v with
  | nil => exact ⟨rfl, rfl, rfl⟩
  | cons p v ih =>
    obtain ⟨h0, h1, h2⟩ := ih
    simp [indexAll, Val.index, h0, h1, h2]

theorem replaceAux_paren (s : Str) : ∀ (pre post : Str), '(' ∉ pre →
    replaceAux ['('] (s ++ ['(']) 0 (pre ++ '(' :: post) = pre ++ s ++ '(' :: replaceAux ['('] (s ++ ['(']) 0 post
  | [], post, _ => by simp [replaceAux]
  | x :: pre, post, h => by
    have hx : x ≠ '(' := fun e => h (by simp [e])
    have := replaceAux_paren s pre post (fun hm => h (by simp [hm]))
    simp only [List.cons_append, replaceAux]
    rw [if_neg (by simpa using Ne.symm hx), this]

theorem replaceAux_len (s : Str) : ∀ (t : Str), t.length ≤ (replaceAux ['('] (s ++ ['(']) 0 t).length
  | [] => by simp
  | x :: t => by
    have := replaceAux_len s t
    simp only [replaceAux]
    split
    · simp; omega
    · simp; omega

/-- A new column name is the old one with a component letter put in at some position: names of different components
differ from each other and from the old name. -/
theorem expandedName_spec (c : Name) (x : Char) :
    (∃ post', expandedName c [x] = c.takeWhile (· ≠ '(') ++ x :: post') ∧ expandedName c [x] ≠ c := by
  unfold expandedName
  split
  · rename_i h
    rw [isIn_iff] at h
    have hm : '(' ∈ c := by
      obtain ⟨a, b, rfl⟩ := h; simp
    obtain ⟨pre, post, hc, hpre, hpre2⟩ : ∃ pre post, c = pre ++ '(' :: post ∧ '(' ∉ pre ∧ c.takeWhile (· ≠ '(') = pre := by
      clear h
      induction c with
      | nil => cases hm
      | cons y ys ih =>
        by_cases hy : y = '('
        · subst hy; exact ⟨[], ys, rfl, by simp, by simp⟩
        · obtain ⟨pre, post, h1, h2, h3⟩ := ih ((List.mem_cons.1 hm).resolve_left (fun e => hy e.symm))
          refine ⟨y :: pre, post, by simp [h1], by simp [h2, Ne.symm hy], ?_⟩
          rw [List.takeWhile_cons_of_pos (by simpa using hy), h3]
    have he : replace c ['('] ([x] ++ ['(']) = pre ++ [x] ++ '(' :: replaceAux ['('] ([x] ++ ['(']) 0 post := by
      simp only [replace, List.cons_ne_nil, if_false]
      rw [hc]; exact replaceAux_paren [x] pre post hpre
    rw [he, hpre2]
    refine ⟨⟨'(' :: replaceAux ['('] ([x] ++ ['(']) 0 post, by simp⟩, ?_⟩
    intro hh
    have h1 := congrArg List.length hh
    have h2 := replaceAux_len [x] post
    rw [hc] at h1
    simp at h1 h2
    omega
  · rename_i h
    have hnm : '(' ∉ c := by
      intro hm
      apply h
      rw [isIn_iff]
      obtain ⟨a, b, e⟩ := List.append_of_mem hm
      exact ⟨a, b, by simp [e]⟩
    have : c.takeWhile (· ≠ '(') = c := by
      clear h
      induction c with
      | nil => rfl
      | cons y ys ih =>
        simp only [List.mem_cons, not_or] at hnm
        rw [List.takeWhile_cons_of_pos (by simpa using Ne.symm hnm.1), ih hnm.2]
    rw [this]
    exact ⟨⟨[], rfl⟩, by simp⟩

theorem expandedName_ne (c : Name) {x y : Char} (h : x ≠ y) : expandedName c [x] ≠ expandedName c [y] := by
  obtain ⟨⟨p, hp⟩, _⟩ := expandedName_spec c x
  obtain ⟨⟨q, hq⟩, _⟩ := expandedName_spec c y
  rw [hp, hq]
  intro hh
  have := List.append_cancel_left hh
  simp at this
  exact h this.1

/-- **C11 (expansion)** A non-empty column of vectors is replaced by three number columns holding exactly the x, y and
z components, row by row; every column whose name is none of the three new ones keeps its values. (A column that does
have one of the new names is overwritten, see `expand_clobber_violated`.) -/
theorem expandColumn_vec {d : Dict Name (List (Val K))} (hwf : Dict.WF d) {c : Name} {v : List (K × K × K)} (hne : v ≠ [])
    (hg : Dict.get? d c = some (v.map (fun p => .vec p.1 p.2.1 p.2.2))) :
    ∃ d', expandColumn c d = .ok d' ∧ Dict.get? d' c = none ∧
      Dict.get? d' (expandedName c "X".toList) = some (v.map (fun p => .num p.1)) ∧
      Dict.get? d' (expandedName c "Y".toList) = some (v.map (fun p => .num p.2.1)) ∧
      Dict.get? d' (expandedName c "Z".toList) = some (v.map (fun p => .num p.2.2)) ∧
      ∀ x, x ≠ c → x ≠ expandedName c "X".toList → x ≠ expandedName c "Y".toList → x ≠ expandedName c "Z".toList →
        Dict.get? d' x = Dict.get? d x := by
  have hX : expandedName c "X".toList ≠ c := (expandedName_spec c 'X').2
  have hY : expandedName c "Y".toList ≠ c := (expandedName_spec c 'Y').2
  have hZ : expandedName c "Z".toList ≠ c := (expandedName_spec c 'Z').2
  have hXY : expandedName c "X".toList ≠ expandedName c "Y".toList := expandedName_ne c (by decide)
  have hYZ : expandedName c "Y".toList ≠ expandedName c "Z".toList := expandedName_ne c (by decide)
  have hXZ : expandedName c "X".toList ≠ expandedName c "Z".toList := expandedName_ne c (by decide)
  obtain ⟨i0, i1, i2⟩ := indexAll_vec v
  obtain ⟨p, v', rfl⟩ : ∃ p v', v = p :: v' := by
    cases v with
    | nil => exact absurd rfl hne
    | cons p v' => exact ⟨p, v', rfl⟩
  generalize hvv : (p :: v') = v at *
  have hloop : expandLoop c ["X".toList, "Y".toList, "Z".toList] [0, 1, 2] d =
      .ok (Dict.set (Dict.set (Dict.set d (expandedName c "X".toList) (v.map (fun p => .num p.1)))
        (expandedName c "Y".toList) (v.map (fun p => .num p.2.1)))
        (expandedName c "Z".toList) (v.map (fun p => .num p.2.2))) := by
    simp only [expandLoop, List.getElem?_cons_zero, List.getElem?_cons_succ, hg, i0]
    rw [Dict.get?_set_ne _ _ hX, hg]
    simp only [i1]
    rw [Dict.get?_set_ne _ _ hY, Dict.get?_set_ne _ _ hX, hg]
    simp only [i2]
  have hexp : expandColumn c d = .ok (Dict.erase (Dict.set (Dict.set (Dict.set d (expandedName c "X".toList)
      (v.map (fun p => .num p.1))) (expandedName c "Y".toList) (v.map (fun p => .num p.2.1)))
        (expandedName c "Z".toList) (v.map (fun p => .num p.2.2))) c) := by
    unfold expandColumn
    rw [hg, ← hvv]
    simp only [List.map_cons, suffixes]
    rw [hloop, ← hvv]
    rfl
  refine ⟨_, hexp, ?_⟩
  have hw := Dict.WF_set (Dict.WF_set (Dict.WF_set hwf (expandedName c "X".toList) (v.map (fun p => Val.num p.1)))
    (expandedName c "Y".toList) (v.map (fun p => .num p.2.1))) (expandedName c "Z".toList) (v.map (fun p => .num p.2.2))
  refine ⟨?_, ?_, ?_, ?_, ?_⟩
  · rw [Dict.get?_erase hw]; simp
  · rw [Dict.get?_erase hw, if_neg (Ne.symm hX), Dict.get?_set_ne _ _ (Ne.symm hXZ), Dict.get?_set_ne _ _ (Ne.symm hXY),
      Dict.get?_set_self]
  · rw [Dict.get?_erase hw, if_neg (Ne.symm hY), Dict.get?_set_ne _ _ (Ne.symm hYZ), Dict.get?_set_self]
  · rw [Dict.get?_erase hw, if_neg (Ne.symm hZ), Dict.get?_set_self]
  · intro x h0 h1 h2 h3
    rw [Dict.get?_erase hw, if_neg (Ne.symm h0), Dict.get?_set_ne _ _ (Ne.symm h3), Dict.get?_set_ne _ _ (Ne.symm h2),
      Dict.get?_set_ne _ _ (Ne.symm h1)]

/-- **C11 (expansion)** Columns of numbers or text are left as they are. -/
theorem expandColumn_scalar (d : Dict Name (List (Val K))) (c : Name) (x : Val K) (xs : List (Val K))
    (hg : Dict.get? d c = some (x :: xs)) (hx : (∃ a, x = .num a) ∨ ∃ s, x = .text s) : expandColumn c d = .ok d := by
  unfold expandColumn
  rw [hg]
  rcases hx with ⟨a, rfl⟩ | ⟨s, rfl⟩ <;> rfl

-- Non-vacuity: a force column with unit in the name.
example : (expandIterableColumns [("F(N)".toList, [Val.vec (1 : Int) 2 3, .vec 4 5 6]), ("m".toList, [.num 7, .num 8])]) =
    .ok [("m".toList, [.num 7, .num 8]), ("FX(N)".toList, [.num 1, .num 4]), ("FY(N)".toList, [.num 2, .num 5]),
      ("FZ(N)".toList, [.num 3, .num 6])] := by decide +kernel

/-- **C11 fails** for quaternion columns (`OrientationQuaternion`, logged by every 6-DoF simulation): the fourth
component does not reach the file; two different orientations give the same file. -/
theorem expand_quaternion_violated :
    expandIterableColumns [("Q".toList, [Val.seq [(1 : Int), 0, 0, 0]])] =
      expandIterableColumns [("Q".toList, [Val.seq [(1 : Int), 0, 0, 5]])] ∧
    (expandIterableColumns [("Q".toList, [Val.seq [(1 : Int), 0, 0, 5]])]).toOption.isSome = true := by decide +kernel

/-- **C11 fails** when a number was used to fill a missing vector: writing the file raises. -/
theorem expand_fill_violated :
    expandIterableColumns [("V".toList, [Val.vec (1 : Int) 2 3, .num 0])] = .error .typeError := by decide +kernel

/-- **C11 fails** when a column already has the name of an expanded one: its values are lost. -/
theorem expand_clobber_violated :
    expandIterableColumns [("PX".toList, [Val.num (9 : Int)]), ("P".toList, [.vec 1 2 3])] =
      .ok [("PX".toList, [.num 1]), ("PY".toList, [.num 2]), ("PZ".toList, [.num 3])] := by decide +kernel

end Mapleaf.LogM
