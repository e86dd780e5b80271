import Verif.Log.PostModel
import Verif.SimDef.DerivedProps
import Verif.Motion.QuatProps
import Verif.ENV.EnvProps

/-! # C75: the expanded derivative evaluation log -/

namespace Mapleaf.LogM
open Mapleaf Mapleaf.Motion

variable {n : Nat}

/-! ## Specification -/

/-- Row `i` of the column `name` holds the number `x`. -/
def Holds (D : Frame n) (name : Str) (i : Fin n) (x : ℝ) : Prop := ∃ c, Dict.get? D name = some c ∧ c i = some x
/-- Row `i` of the column `name` is not a number. -/
def Blank (D : Frame n) (name : Str) (i : Fin n) : Prop := ∃ c, Dict.get? D name = some c ∧ c i = none

/-- What a row of the log says: velocity, wind and air density, and the force of all components. -/
structure RowAt (D : Frame n) (i : Fin n) (v w F : V3 ℝ) (ρ : ℝ) : Prop where
  vx : Holds D "VelocityX(m/s)".toList i v.x
  vy : Holds D "VelocityY(m/s)".toList i v.y
  vz : Holds D "VelocityZ(m/s)".toList i v.z
  wx : Holds D "WindX(m/s)".toList i w.x
  wy : Holds D "WindY(m/s)".toList i w.y
  wz : Holds D "WindZ(m/s)".toList i w.z
  rho : Holds D "AirDensity(kg/m^3)".toList i ρ
  fx : Holds D "AeroFX(N)".toList i F.x
  fy : Holds D "AeroFY(N)".toList i F.y
  fz : Holds D "AeroFZ(N)".toList i F.z

def IsDir (d : Char) : Prop := d = 'X' ∨ d = 'Y' ∨ d = 'Z'

/-- The columns of a derivative evaluation log: those with `(N)` in their names are components of forces, those with `(Nm)`
components of moments; in front of that there is no bracket, and no column is called like a coefficient. -/
structure NamesOk (ks : List Str) : Prop where
  force : ∀ k ∈ ks, "(N)".toList <:+: k → ∃ p d, '(' ∉ p ∧ IsDir d ∧ k = p ++ 'F' :: d :: "(N)".toList
  moment : ∀ k ∈ ks, "(Nm)".toList <:+: k → ∃ p d, '(' ∉ p ∧ IsDir d ∧ k = p ++ 'M' :: d :: "(Nm)".toList
  fresh : ∀ k ∈ ks, ∀ p d, IsDir d → k ≠ p ++ ['C', 'F', d] ∧ k ≠ p ++ ['C', 'M', d]

/-- The columns that are worked out, apart from the coefficients of single columns. -/
def workedOut : List Str :=
  ["AirVelX(m/s)".toList, "AirVelY(m/s)".toList, "AirVelZ(m/s)".toList, "AirVel^2".toList, "AirVelMag".toList,
   "AirVelUnitX".toList, "AirVelUnitY".toList, "AirVelUnitZ".toList, "DynamicP(Pa)".toList, "nonDimConstant".toList,
   "dragForce".toList, "Cd".toList, "liftForce".toList, "Cl".toList, "normalForce".toList, "CN".toList]

/-! ## Names -/

theorem replace_tail {t : Str} (ht : t ≠ []) (r : Str) : ∀ p : Str,
    (∀ s, s <:+ p → s ≠ [] → ¬ t <+: s ++ t) → Str.replace (p ++ t) t r = p ++ r := by
  intro p
  unfold Str.replace
  rw [if_neg ht]
  induction p with
  | nil =>
    intro _
    have h := SimDef.replace_prefix ht r []
    unfold Str.replace at h
    rw [if_neg ht, if_neg ht] at h
    simpa [Str.replaceAux] using h
  | cons x p ih =>
    intro h
    rw [List.cons_append, Str.replaceAux,
      if_neg (by rw [List.isPrefixOf_iff_prefix]; exact h (x :: p) List.suffix_rfl (by simp)),
      ih (fun s hs hne => h s (hs.trans (List.suffix_cons x p)) hne), List.cons_append]

theorem force_name {p : Str} {d : Char} (hp : '(' ∉ p) (hd : IsDir d) :
    Str.replace (p ++ 'F' :: d :: "(N)".toList) ('F' :: d :: "(N)".toList) ['C', 'F', d] = p ++ ['C', 'F', d] := by
  apply replace_tail (by simp)
  intro s hs hne ⟨rest, hr⟩
  have hsp : '(' ∉ s := fun h => hp (hs.subset h)
  have h2 := congrArg (fun l => l[2]?) hr
  have hd' : d ≠ '(' := by rcases hd with rfl | rfl | rfl <;> decide
  match s, hne, hsp with
  | [a], _, _ => simp at h2; exact hd' h2.symm
  | [a, b], _, _ => simp at h2
  | a :: b :: c :: s, _, hsp => simp at h2 hsp; exact hsp.2.2.1 h2

theorem moment_name {p : Str} {d : Char} (hp : '(' ∉ p) (hd : IsDir d) :
    Str.replace (p ++ 'M' :: d :: "(Nm)".toList) ('M' :: d :: "(Nm)".toList) ['C', 'M', d] = p ++ ['C', 'M', d] := by
  apply replace_tail (by simp)
  intro s hs hne ⟨rest, hr⟩
  have hsp : '(' ∉ s := fun h => hp (hs.subset h)
  have h2 := congrArg (fun l => l[2]?) hr
  have hd' : d ≠ '(' := by rcases hd with rfl | rfl | rfl <;> decide
  match s, hne, hsp with
  | [a], _, _ => simp at h2; exact hd' h2.symm
  | [a, b], _, _ => simp at h2
  | a :: b :: c :: s, _, hsp => simp at h2 hsp; exact hsp.2.2.1 h2

/-- **C75.** `s[-k]`: the character with `k - 1` others after it; an `IndexError` exactly for texts shorter than `k`. -/
theorem fromEnd_spec (s : Str) (k : Nat) (hk : 0 < k) :
    (∀ c, fromEnd s k = .ok c ↔ ∃ p r, s = p ++ c :: r ∧ r.length + 1 = k) ∧
      (fromEnd s k = .error .indexError ↔ s.length < k) := by
  have h2 : k ≤ s.length → ∃ p c r, s = p ++ c :: r ∧ r.length + 1 = k ∧ fromEnd s k = .ok c := by
    intro h
    have hlt : s.length - k < s.length := by omega
    refine ⟨s.take (s.length - k), s[s.length - k], s.drop (s.length - k + 1), ?_, ?_, ?_⟩
    · rw [← List.drop_eq_getElem_cons hlt, List.take_append_drop]
    · rw [List.length_drop]; omega
    · unfold fromEnd
      rw [if_neg (by omega), List.getElem?_eq_getElem hlt]
  have h1 : s.length < k → fromEnd s k = .error .indexError := fun h => by unfold fromEnd; rw [if_pos h]
  constructor
  · intro c
    constructor
    · intro h
      by_cases hl : s.length < k
      · rw [h1 hl] at h; cases h
      · obtain ⟨p, c', r, e, hr, hf⟩ := h2 (by omega)
        rw [hf] at h; cases h
        exact ⟨p, r, e, hr⟩
    · rintro ⟨p, r, rfl, hr⟩
      obtain ⟨p', c', r', e, hr', hf⟩ := h2 (by simp; omega)
      obtain ⟨_, e2⟩ := List.append_inj' e (by simp; omega)
      injection e2 with e3 _
      rw [hf, e3]
  · constructor
    · intro h
      by_contra hl
      obtain ⟨_, _, _, _, _, hf⟩ := h2 (by omega)
      rw [hf] at h; cases h
    · exact h1

theorem force_letter (p : Str) (d : Char) : fromEnd (p ++ 'F' :: d :: "(N)".toList) 4 = .ok d := by
  unfold fromEnd
  rw [if_neg (by simp)]
  simp [List.getElem?_append_right]

theorem moment_letter (p : Str) (d : Char) : fromEnd (p ++ 'M' :: d :: "(Nm)".toList) 5 = .ok d := by
  unfold fromEnd
  rw [if_neg (by simp)]
  simp [List.getElem?_append_right]

theorem infix_bracket {a b t : Str} (ha : '(' ∉ a) (h : '(' :: t <:+: a ++ '(' :: b) : t <+: b ∨ '(' :: t <:+: b := by
  induction a with
  | nil =>
    rw [List.nil_append, List.infix_cons_iff] at h
    rcases h with h | h
    · exact .inl ((List.cons_prefix_cons.1 h).2)
    · exact .inr h
  | cons x a ih =>
    rw [List.cons_append, List.infix_cons_iff] at h
    rcases h with h | h
    · exact absurd (List.mem_cons.2 (.inl (List.cons_prefix_cons.1 h).1)) ha
    · exact ih (fun hm => ha (List.mem_cons_of_mem _ hm)) h

/-- A column of moments is not one of forces. -/
theorem moment_not_force {p : Str} {d : Char} (hp : '(' ∉ p) (hd : IsDir d) :
    ¬ "(N)".toList <:+: p ++ 'M' :: d :: "(Nm)".toList := by
  intro h
  have e : p ++ 'M' :: d :: "(Nm)".toList = (p ++ ['M', d]) ++ '(' :: "Nm)".toList := by simp
  rw [e] at h
  have hd' : d ≠ '(' := by rcases hd with rfl | rfl | rfl <;> decide
  have := infix_bracket (t := "N)".toList) (by simp [hp, hd'.symm]) h
  revert this
  decide

theorem force_infix (p : Str) (d : Char) : "(N)".toList <:+: p ++ 'F' :: d :: "(N)".toList :=
  ⟨p ++ ['F', d], [], by simp⟩

theorem moment_infix (p : Str) (d : Char) : "(Nm)".toList <:+: p ++ 'M' :: d :: "(Nm)".toList :=
  ⟨p ++ ['M', d], [], by simp⟩

/-! ## One column -/

/-- The coefficient columns: source, name and length factor. -/
inductive Makes (l : ℝ) : Str → Str → ℝ → Prop
  | force {p : Str} {d : Char} : '(' ∉ p → IsDir d → Makes l (p ++ 'F' :: d :: "(N)".toList) (p ++ ['C', 'F', d]) 1
  | moment {p : Str} {d : Char} : '(' ∉ p → IsDir d → Makes l (p ++ 'M' :: d :: "(Nm)".toList) (p ++ ['C', 'M', d]) l

theorem tail3 {p p' : Str} {a b c a' b' c' : Char} (h : p ++ [a, b, c] = p' ++ [a', b', c']) :
    p = p' ∧ a = a' ∧ b = b' ∧ c = c' := by
  have := List.append_inj' h (by simp)
  simp at this
  exact this

/-- The source is determined by the name. -/
theorem makes_unique {l : ℝ} {k k' new : Str} {f f' : ℝ} (h : Makes l k new f) (h' : Makes l k' new f') :
    k = k' ∧ f = f' := by
  cases h with
  | @force p d hp hd =>
    generalize hn : p ++ ['C', 'F', d] = new' at h'
    cases h' with
    | @force p' d' _ _ => obtain ⟨rfl, _, _, rfl⟩ := tail3 hn; exact ⟨rfl, rfl⟩
    | @moment p' d' _ _ => obtain ⟨_, _, h, _⟩ := tail3 hn; exact absurd h (by decide)
  | @moment p d hp hd =>
    generalize hn : p ++ ['C', 'M', d] = new' at h'
    cases h' with
    | @force p' d' _ _ => obtain ⟨_, _, h, _⟩ := tail3 hn; exact absurd h (by decide)
    | @moment p' d' _ _ => obtain ⟨rfl, _, _, rfl⟩ := tail3 hn; exact ⟨rfl, rfl⟩

theorem makes_name {l : ℝ} {k new : Str} {f : ℝ} (h : Makes l k new f) :
    ∃ p d, IsDir d ∧ (new = p ++ ['C', 'F', d] ∨ new = p ++ ['C', 'M', d]) := by
  cases h with
  | force _ hd => exact ⟨_, _, hd, .inl rfl⟩
  | moment _ hd => exact ⟨_, _, hd, .inr rfl⟩

/-- No worked-out column is called like a coefficient. -/
theorem workedOut_fresh {k : Str} (hk : k ∈ workedOut) (p : Str) (d : Char) (hd : IsDir d) :
    k ≠ p ++ ['C', 'F', d] ∧ k ≠ p ++ ['C', 'M', d] := by
  have key : ∀ a b : Char, (∀ k ∈ workedOut, k.reverse.take 3 ≠ ['X', b, a] ∧ k.reverse.take 3 ≠ ['Y', b, a] ∧
      k.reverse.take 3 ≠ ['Z', b, a]) → k ≠ p ++ [a, b, d] := by
    intro a b h e
    obtain ⟨h1, h2, h3⟩ := h k hk
    rw [e] at h1 h2 h3
    simp at h1 h2 h3
    rcases hd with rfl | rfl | rfl
    · exact h1 rfl
    · exact h2 rfl
    · exact h3 rfl
  exact ⟨key _ _ (by decide +kernel), key _ _ (by decide +kernel)⟩

open Cell

/-- One turn of the loop. -/
theorem coefficient_spec {l : ℝ} {D : Frame n} {k : Str} {nd : Column n}
    (hnd : Dict.get? D "nonDimConstant".toList = some nd) :
    (∀ {new f} c, Makes l k new f → Dict.get? D k = some c →
      coefficient l D k = .ok (Dict.set D new (fun i => div (c i) (scale f (nd i))))) ∧
    (¬ "(N)".toList <:+: k → ¬ "(Nm)".toList <:+: k → coefficient l D k = .ok D) := by
  constructor
  · intro new f c h hc
    cases h with
    | @force p d hp hd =>
      unfold coefficient
      rw [if_pos ((Str.isIn_iff _ _).2 (force_infix p d)), force_letter]
      simp only [Frame.col, hc, hnd, bind, Except.bind, force_name hp hd]
      congr 2
      funext i
      simp only [zip]
      congr 1
      cases nd i <;> simp [scale]
    | @moment p d hp hd =>
      unfold coefficient
      rw [if_neg (by rw [Str.isIn_iff]; exact moment_not_force hp hd),
        if_pos ((Str.isIn_iff _ _).2 (moment_infix p d)), moment_letter]
      simp only [Frame.col, hc, hnd, bind, Except.bind, moment_name hp hd]
  · intro h1 h2
    unfold coefficient
    rw [if_neg (by rw [Str.isIn_iff]; exact h1), if_neg (by rw [Str.isIn_iff]; exact h2)]

/-- The whole loop. `ks` are the columns still to come, all of them in the frame. -/
theorem coefficients_spec {l : ℝ} {nd : Column n} : ∀ (ks : List Str) (D : Frame n),
    Dict.get? D "nonDimConstant".toList = some nd →
    (∀ k ∈ ks, "(N)".toList <:+: k → ∃ p d, '(' ∉ p ∧ IsDir d ∧ k = p ++ 'F' :: d :: "(N)".toList) →
    (∀ k ∈ ks, "(Nm)".toList <:+: k → ∃ p d, '(' ∉ p ∧ IsDir d ∧ k = p ++ 'M' :: d :: "(Nm)".toList) →
    (∀ k ∈ ks, ∀ p d, IsDir d → k ≠ p ++ ['C', 'F', d] ∧ k ≠ p ++ ['C', 'M', d]) →
    (∀ k ∈ ks, k ∈ Dict.keys D) →
    ∃ E, coefficients l ks D = .ok E ∧
      (∀ x, (∀ p d, IsDir d → x ≠ p ++ ['C', 'F', d] ∧ x ≠ p ++ ['C', 'M', d]) → Dict.get? E x = Dict.get? D x) ∧
      (∀ k ∈ ks, ∀ new f c, Makes l k new f → Dict.get? D k = some c →
        Dict.get? E new = some (fun i => div (c i) (scale f (nd i)))) ∧
      (∀ x, (∀ k ∈ ks, ∀ f, ¬ Makes l k x f) → Dict.get? E x = Dict.get? D x) := by
  intro ks
  induction ks with
  | nil => intro D _ _ _ _ _; exact ⟨D, rfl, fun _ _ => rfl, by simp, fun _ _ => rfl⟩
  | cons k ks ih =>
    intro D hnd hF hM hfr hin
    have hnd_name : ∀ p d, IsDir d → "nonDimConstant".toList ≠ p ++ ['C', 'F', d] ∧
        "nonDimConstant".toList ≠ p ++ ['C', 'M', d] := fun p d hd => workedOut_fresh (by decide +kernel) p d hd
    by_cases hm : ∃ new f, Makes l k new f
    · obtain ⟨new, f, hmk⟩ := hm
      obtain ⟨c, hc⟩ := Option.isSome_iff_exists.1 ((Dict.get?_isSome_iff D k).2 (hin k (by simp)))
      have h1 := (coefficient_spec (l := l) hnd).1 c hmk hc
      obtain ⟨p0, d0, hd0, hn0⟩ := makes_name hmk
      have hne : ∀ x, (∀ p d, IsDir d → x ≠ p ++ ['C', 'F', d] ∧ x ≠ p ++ ['C', 'M', d]) → new ≠ x := by
        intro x hx e
        rcases hn0 with h | h
        · exact (hx p0 d0 hd0).1 (e ▸ h)
        · exact (hx p0 d0 hd0).2 (e ▸ h)
      obtain ⟨E, e1, e2, e3, e4⟩ := ih (Dict.set D new (fun i => div (c i) (scale f (nd i))))
        (by rw [Dict.get?_set_ne _ _ (hne _ hnd_name)]; exact hnd)
        (fun k' hk' => hF k' (by simp [hk'])) (fun k' hk' => hM k' (by simp [hk'])) (fun k' hk' => hfr k' (by simp [hk']))
        (fun k' hk' => (Dict.mem_keys_set _ _ _ _).2 (.inr (hin k' (by simp [hk']))))
      refine ⟨E, by simp only [coefficients, h1, bind, Except.bind]; exact e1, ?_, ?_, ?_⟩
      · intro x hx
        rw [e2 x hx, Dict.get?_set_ne _ _ (hne x hx)]
      · intro k' hk' new' f' c' hmk' hc'
        by_cases hk : k' ∈ ks
        · refine e3 k' hk new' f' c' hmk' ?_
          rw [Dict.get?_set_ne _ _ (hne k' (hfr k' (by simp [hk])))]; exact hc'
        · have : k' = k := by simpa [hk] using hk'
          subst this
          have hnn : new' = new ∧ f' = f := by
            cases hmk with
            | @force p d hp hd =>
              generalize hkk : p ++ 'F' :: d :: "(N)".toList = kk at hmk'
              cases hmk' with
              | @force p' d' _ _ =>
                have := List.append_inj' hkk (by simp)
                simp at this
                obtain ⟨rfl, rfl⟩ := this
                exact ⟨rfl, rfl⟩
              | @moment p' d' hp' hd' => exact absurd (hkk ▸ force_infix p d) (moment_not_force hp' hd')
            | @moment p d hp hd =>
              generalize hkk : p ++ 'M' :: d :: "(Nm)".toList = kk at hmk'
              cases hmk' with
              | @force p' d' _ _ => exact absurd (hkk ▸ force_infix p' d') (moment_not_force hp hd)
              | @moment p' d' _ _ =>
                have := List.append_inj' hkk (by simp)
                simp at this
                obtain ⟨rfl, rfl⟩ := this
                exact ⟨rfl, rfl⟩
          obtain ⟨rfl, rfl⟩ := hnn
          rw [hc] at hc'
          cases hc'
          rw [e4 new' (fun k2 hk2 f2 hm2 => hk ((makes_unique hmk hm2).1 ▸ hk2)), Dict.get?_set_self]
      · intro x hx
        rw [e4 x (fun k' hk' => hx k' (by simp [hk'])), Dict.get?_set_ne]
        rintro rfl
        exact hx k (by simp) f hmk
    · have hno : ¬ "(N)".toList <:+: k ∧ ¬ "(Nm)".toList <:+: k := by
        constructor
        · intro h
          obtain ⟨p, d, hp, hd, rfl⟩ := hF k (by simp) h
          exact hm ⟨_, _, .force hp hd⟩
        · intro h
          obtain ⟨p, d, hp, hd, rfl⟩ := hM k (by simp) h
          exact hm ⟨_, _, .moment hp hd⟩
      have h1 := (coefficient_spec (l := l) (k := k) hnd).2 hno.1 hno.2
      obtain ⟨E, e1, e2, e3, e4⟩ := ih D hnd (fun k' hk' => hF k' (by simp [hk'])) (fun k' hk' => hM k' (by simp [hk']))
        (fun k' hk' => hfr k' (by simp [hk'])) (fun k' hk' => hin k' (by simp [hk']))
      refine ⟨E, by simp only [coefficients, h1, bind, Except.bind]; exact e1, e2, ?_, ?_⟩
      · intro k' hk' new f c hmk hc
        rcases List.mem_cons.1 hk' with rfl | hk'
        · exact absurd ⟨new, f, hmk⟩ hm
        · exact e3 k' hk' new f c hmk hc
      · intro x hx
        exact e4 x (fun k' hk' => hx k' (by simp [hk']))

/-! ## The whole frame -/

/-- Dynamic pressure times area, as a column. -/
noncomputable def qA (A : ℝ) (vx vy vz wx wy wz rho : Column n) : Column n := fun i =>
  scale A (scale 0.5 (map2 (· * ·) (map2 (· + ·) (map2 (· + ·) (sq (map2 (· - ·) (vx i) (wx i)))
    (sq (map2 (· - ·) (vy i) (wy i)))) (sq (map2 (· - ·) (vz i) (wz i)))) (rho i)))

/-- Magnitude of the airspeed, as a column. -/
noncomputable def airMag (vx vy vz wx wy wz : Column n) : Column n := fun i =>
  root (map2 (· + ·) (map2 (· + ·) (sq (map2 (· - ·) (vx i) (wx i)))
    (sq (map2 (· - ·) (vy i) (wy i)))) (sq (map2 (· - ·) (vz i) (wz i))))

/-- Force along the airspeed, as a column. -/
noncomputable def alongAir (vx vy vz wx wy wz fx fy fz : Column n) : Column n := fun i =>
  map2 (· + ·) (map2 (· + ·)
    (map2 (· * ·) (fx i) (div (map2 (· - ·) (vx i) (wx i)) (airMag vx vy vz wx wy wz i)))
    (map2 (· * ·) (fy i) (div (map2 (· - ·) (vy i) (wy i)) (airMag vx vy vz wx wy wz i))))
    (map2 (· * ·) (fz i) (div (map2 (· - ·) (vz i) (wz i)) (airMag vx vy vz wx wy wz i)))

theorem mem_sets (x : Str) (l : List (Str × Column n)) : ∀ D : Frame n,
    x ∈ Dict.keys (l.foldl (fun D p => Dict.set D p.1 p.2) D) ↔ x ∈ Dict.keys D ∨ x ∈ l.map Prod.fst := by
  induction l with
  | nil => intro D; simp
  | cons p l ih =>
    intro D
    rw [List.foldl_cons, ih, Dict.mem_keys_set, List.map_cons, List.mem_cons]
    constructor
    · rintro ((h | h) | h)
      · exact .inr (.inl h)
      · exact .inl h
      · exact .inr (.inr h)
    · rintro (h | h | h)
      · exact .inl (.inr h)
      · exact .inl (.inl h)
      · exact .inr h

theorem expand_columns {D : Frame n} (hn : NamesOk (Dict.keys D)) (hnew : "AeroCFX(N)".toList ∉ Dict.keys D) (A l : ℝ)
    {vx vy vz wx wy wz rho fx fy fz : Column n}
    (h1 : Dict.get? D "VelocityX(m/s)".toList = some vx) (h2 : Dict.get? D "VelocityY(m/s)".toList = some vy)
    (h3 : Dict.get? D "VelocityZ(m/s)".toList = some vz) (h4 : Dict.get? D "WindX(m/s)".toList = some wx)
    (h5 : Dict.get? D "WindY(m/s)".toList = some wy) (h6 : Dict.get? D "WindZ(m/s)".toList = some wz)
    (h7 : Dict.get? D "AirDensity(kg/m^3)".toList = some rho) (h8 : Dict.get? D "AeroFX(N)".toList = some fx)
    (h9 : Dict.get? D "AeroFY(N)".toList = some fy) (h10 : Dict.get? D "AeroFZ(N)".toList = some fz) :
    ∃ E, expand D A l = .ok E ∧
      (∀ k ∈ Dict.keys D, k ∉ workedOut → Dict.get? E k = Dict.get? D k) ∧
      (∀ k ∈ Dict.keys D, ∀ new f c, k ∉ workedOut → Makes l k new f → Dict.get? D k = some c →
        Dict.get? E new = some (fun i => div (c i) (scale f (qA A vx vy vz wx wy wz rho i)))) ∧
      (∀ x, Dict.get? E x ≠ none → x ∈ Dict.keys D ∨ x ∈ workedOut ∨ ∃ k ∈ Dict.keys D, ∃ f, Makes l k x f) ∧
      (∀ x ∈ workedOut, Dict.get? E x ≠ none) ∧
      Dict.get? E "Cd".toList = some (fun i =>
        div (scale (-1) (alongAir vx vy vz wx wy wz fx fy fz i)) (qA A vx vy vz wx wy wz rho i)) ∧
      Dict.get? E "Cl".toList = some (fun i =>
        div (root (map2 (· - ·) (map2 (· + ·) (map2 (· + ·) (sq (fx i)) (sq (fy i))) (sq (fz i)))
          (sq (alongAir vx vy vz wx wy wz fx fy fz i)))) (qA A vx vy vz wx wy wz rho i)) ∧
      Dict.get? E "CN".toList = some (fun i =>
        div (root (map2 (· + ·) (sq (fx i)) (sq (fy i)))) (qA A vx vy vz wx wy wz rho i)) := by
  -- the columns before the loop
  set ax : Column n := zip (map2 (· - ·)) vx wx with hax
  set ay : Column n := zip (map2 (· - ·)) vy wy with hay
  set az : Column n := zip (map2 (· - ·)) vz wz with haz
  set v2 : Column n := fun i => map2 (· + ·) (map2 (· + ·) (sq (ax i)) (sq (ay i))) (sq (az i)) with hv2
  set mag : Column n := fun i => root (v2 i) with hmag
  set q : Column n := fun i => scale 0.5 (map2 (· * ·) (v2 i) (rho i)) with hq
  set nd : Column n := fun i => scale A (q i) with hnd
  set D1 : Frame n := Dict.set D "AirVelX(m/s)".toList ax with hD1
  set D2 : Frame n := Dict.set D1 "AirVelY(m/s)".toList ay with hD2
  set D3 : Frame n := Dict.set D2 "AirVelZ(m/s)".toList az with hD3
  set D4 : Frame n := Dict.set (Dict.set (Dict.set (Dict.set (Dict.set (Dict.set (Dict.set D3 "AirVel^2".toList v2)
    "AirVelMag".toList mag) "AirVelUnitX".toList (zip div ax mag)) "AirVelUnitY".toList (zip div ay mag))
    "AirVelUnitZ".toList (zip div az mag)) "DynamicP(Pa)".toList q) "nonDimConstant".toList nd with hD4
  have e1 : airVel D 'X' = .ok D1 := by
    unfold airVel
    have a : Frame.col D ("Velocity".toList ++ 'X' :: "(m/s)".toList) = .ok vx := by
      show Frame.col D "VelocityX(m/s)".toList = _
      unfold Frame.col; rw [h1]
    have b : Frame.col D ("Wind".toList ++ 'X' :: "(m/s)".toList) = .ok wx := by
      show Frame.col D "WindX(m/s)".toList = _
      unfold Frame.col; rw [h4]
    rw [a, b]; rfl
  have e2 : airVel D1 'Y' = .ok D2 := by
    unfold airVel
    have a : Frame.col D1 ("Velocity".toList ++ 'Y' :: "(m/s)".toList) = .ok vy := by
      show Frame.col D1 "VelocityY(m/s)".toList = _
      unfold Frame.col; rw [hD1, Dict.get?_set_ne _ _ (by decide +kernel), h2]
    have b : Frame.col D1 ("Wind".toList ++ 'Y' :: "(m/s)".toList) = .ok wy := by
      show Frame.col D1 "WindY(m/s)".toList = _
      unfold Frame.col; rw [hD1, Dict.get?_set_ne _ _ (by decide +kernel), h5]
    rw [a, b]; rfl
  have e3 : airVel D2 'Z' = .ok D3 := by
    unfold airVel
    have a : Frame.col D2 ("Velocity".toList ++ 'Z' :: "(m/s)".toList) = .ok vz := by
      show Frame.col D2 "VelocityZ(m/s)".toList = _
      unfold Frame.col
      rw [hD2, Dict.get?_set_ne _ _ (by decide +kernel), hD1, Dict.get?_set_ne _ _ (by decide +kernel), h3]
    have b : Frame.col D2 ("Wind".toList ++ 'Z' :: "(m/s)".toList) = .ok wz := by
      show Frame.col D2 "WindZ(m/s)".toList = _
      unfold Frame.col
      rw [hD2, Dict.get?_set_ne _ _ (by decide +kernel), hD1, Dict.get?_set_ne _ _ (by decide +kernel), h6]
    rw [a, b]; rfl
  have e4 : airSpeed D3 A = .ok D4 := by
    have a : Frame.col D3 "AirVelX(m/s)".toList = .ok ax := by
      unfold Frame.col
      rw [hD3, Dict.get?_set_ne _ _ (by decide +kernel), hD2, Dict.get?_set_ne _ _ (by decide +kernel), hD1,
        Dict.get?_set_self]
    have b : Frame.col D3 "AirVelY(m/s)".toList = .ok ay := by
      unfold Frame.col
      rw [hD3, Dict.get?_set_ne _ _ (by decide +kernel), hD2, Dict.get?_set_self]
    have c : Frame.col D3 "AirVelZ(m/s)".toList = .ok az := by
      unfold Frame.col
      rw [hD3, Dict.get?_set_self]
    have d : Frame.col (Dict.set (Dict.set (Dict.set (Dict.set (Dict.set D3 "AirVel^2".toList v2)
        "AirVelMag".toList mag) "AirVelUnitX".toList (zip div ax mag)) "AirVelUnitY".toList (zip div ay mag))
        "AirVelUnitZ".toList (zip div az mag)) "AirDensity(kg/m^3)".toList = .ok rho := by
      unfold Frame.col
      rw [Dict.get?_set_ne _ _ (by decide +kernel), Dict.get?_set_ne _ _ (by decide +kernel),
        Dict.get?_set_ne _ _ (by decide +kernel), Dict.get?_set_ne _ _ (by decide +kernel),
        Dict.get?_set_ne _ _ (by decide +kernel), hD3, Dict.get?_set_ne _ _ (by decide +kernel), hD2,
        Dict.get?_set_ne _ _ (by decide +kernel), hD1, Dict.get?_set_ne _ _ (by decide +kernel), h7]
    unfold airSpeed
    rw [a, b, c]
    simp only [bind, Except.bind]
    have d' := d
    rw [hmag, hv2] at d'
    simp only [d']
    rfl
  -- what the frame before the loop holds
  have k4 : ∀ x, x ∈ Dict.keys D4 ↔ x ∈ Dict.keys D ∨ x ∈ ["AirVelX(m/s)".toList, "AirVelY(m/s)".toList,
      "AirVelZ(m/s)".toList, "AirVel^2".toList, "AirVelMag".toList, "AirVelUnitX".toList, "AirVelUnitY".toList,
      "AirVelUnitZ".toList, "DynamicP(Pa)".toList, "nonDimConstant".toList] := by
    intro x
    exact mem_sets x [("AirVelX(m/s)".toList, ax), ("AirVelY(m/s)".toList, ay), ("AirVelZ(m/s)".toList, az),
      ("AirVel^2".toList, v2), ("AirVelMag".toList, mag), ("AirVelUnitX".toList, zip div ax mag),
      ("AirVelUnitY".toList, zip div ay mag), ("AirVelUnitZ".toList, zip div az mag), ("DynamicP(Pa)".toList, q),
      ("nonDimConstant".toList, nd)] D
  have g4 : ∀ x, x ∉ workedOut → Dict.get? D4 x = Dict.get? D x := by
    intro x hx
    simp only [workedOut, List.mem_cons, List.not_mem_nil, or_false, not_or] at hx
    obtain ⟨x1, x2, x3, x4, x5, x6, x7, x8, x9, x10, _⟩ := hx
    rw [hD4, Dict.get?_set_ne _ _ (Ne.symm x10), Dict.get?_set_ne _ _ (Ne.symm x9), Dict.get?_set_ne _ _ (Ne.symm x8),
      Dict.get?_set_ne _ _ (Ne.symm x7), Dict.get?_set_ne _ _ (Ne.symm x6), Dict.get?_set_ne _ _ (Ne.symm x5),
      Dict.get?_set_ne _ _ (Ne.symm x4), hD3, Dict.get?_set_ne _ _ (Ne.symm x3), hD2,
      Dict.get?_set_ne _ _ (Ne.symm x2), hD1, Dict.get?_set_ne _ _ (Ne.symm x1)]
  have gnd : Dict.get? D4 "nonDimConstant".toList = some nd := by rw [hD4, Dict.get?_set_self]
  have gux : Dict.get? D4 "AirVelUnitX".toList = some (zip div ax mag) := by
    rw [hD4, Dict.get?_set_ne _ _ (by decide +kernel), Dict.get?_set_ne _ _ (by decide +kernel),
      Dict.get?_set_ne _ _ (by decide +kernel), Dict.get?_set_ne _ _ (by decide +kernel), Dict.get?_set_self]
  have guy : Dict.get? D4 "AirVelUnitY".toList = some (zip div ay mag) := by
    rw [hD4, Dict.get?_set_ne _ _ (by decide +kernel), Dict.get?_set_ne _ _ (by decide +kernel),
      Dict.get?_set_ne _ _ (by decide +kernel), Dict.get?_set_self]
  have guz : Dict.get? D4 "AirVelUnitZ".toList = some (zip div az mag) := by
    rw [hD4, Dict.get?_set_ne _ _ (by decide +kernel), Dict.get?_set_ne _ _ (by decide +kernel), Dict.get?_set_self]
  have hsub : ∀ k ∈ Dict.keys D4, k ∈ Dict.keys D ∨ k ∈ workedOut := by
    intro k hk
    rcases (k4 k).1 hk with h | h
    · exact .inl h
    · exact .inr (List.mem_append_left ["dragForce".toList, "Cd".toList, "liftForce".toList, "Cl".toList,
        "normalForce".toList, "CN".toList] h)
  have hno : ∀ k ∈ workedOut, ¬ "(N)".toList <:+: k ∧ ¬ "(Nm)".toList <:+: k := by decide +kernel
  obtain ⟨E0, l1, l2, l3, l4⟩ := coefficients_spec (l := l) (nd := nd) (Dict.keys D4) D4 gnd
    (fun k hk h => by
      rcases hsub k hk with h' | h'
      · exact hn.force k h' h
      · exact absurd h (hno k h').1)
    (fun k hk h => by
      rcases hsub k hk with h' | h'
      · exact hn.moment k h' h
      · exact absurd h (hno k h').2)
    (fun k hk p d hd => by
      rcases hsub k hk with h' | h'
      · exact hn.fresh k h' p d hd
      · exact workedOut_fresh h' p d hd)
    (fun k hk => hk)
  -- the columns after the loop
  have hmem : ∀ {x : Str} {c : Column n}, Dict.get? D x = some c → x ∈ Dict.keys D := by
    intro x c h
    exact (Dict.get?_isSome_iff D x).1 (by rw [h]; rfl)
  have ldo : ∀ {x : Str} {c : Column n}, Dict.get? D x = some c → x ∉ workedOut → Dict.get? E0 x = some c := by
    intro x c h hx
    rw [l2 x (hn.fresh x (hmem h)), g4 x hx, h]
  have ldw : ∀ {x : Str}, x ∈ workedOut → Dict.get? E0 x = Dict.get? D4 x := fun hx => l2 _ (workedOut_fresh hx)
  have c1 := ldo h8 (by decide +kernel)
  have c2 := ldo h9 (by decide +kernel)
  have c3 := ldo h10 (by decide +kernel)
  have c4 := (ldw (x := "AirVelUnitX".toList) (by decide +kernel)).trans gux
  have c5 := (ldw (x := "AirVelUnitY".toList) (by decide +kernel)).trans guy
  have c6 := (ldw (x := "AirVelUnitZ".toList) (by decide +kernel)).trans guz
  have c7 := (ldw (x := "nonDimConstant".toList) (by decide +kernel)).trans gnd
  set drag : Column n := fun i => map2 (· + ·) (map2 (· + ·) (map2 (· * ·) (fx i) (zip div ax mag i))
    (map2 (· * ·) (fy i) (zip div ay mag i))) (map2 (· * ·) (fz i) (zip div az mag i)) with hdrag
  set lift : Column n := fun i => root (map2 (· - ·)
    (map2 (· + ·) (map2 (· + ·) (sq (fx i)) (sq (fy i))) (sq (fz i))) (sq (drag i))) with hlift
  set normal : Column n := fun i => root (map2 (· + ·) (sq (fx i)) (sq (fy i))) with hnormal
  have e6 : liftDrag E0 = .ok (Dict.set (Dict.set (Dict.set (Dict.set (Dict.set (Dict.set E0 "dragForce".toList drag)
      "Cd".toList (fun i => div (scale (-1) (drag i)) (nd i))) "liftForce".toList lift) "Cl".toList (zip div lift nd))
      "normalForce".toList normal) "CN".toList (zip div normal nd)) := by
    unfold liftDrag
    simp only [Frame.col, c1, c2, c3, c4, c5, c6, c7, bind, Except.bind]
    rfl
  refine ⟨Dict.set (Dict.set (Dict.set (Dict.set (Dict.set (Dict.set E0 "dragForce".toList drag)
      "Cd".toList (fun i => div (scale (-1) (drag i)) (nd i))) "liftForce".toList lift) "Cl".toList (zip div lift nd))
      "normalForce".toList normal) "CN".toList (zip div normal nd),
    ?_, ?_, ?_, ?_, ?_, ?_, ?_, ?_⟩
  · unfold expand
    rw [if_neg (by rw [Dict.has_iff]; exact hnew)]
    simp only [e1, e2, e3, e4, l1, e6, bind, Except.bind]
  · intro k hk hw
    have hw' := hw
    simp only [workedOut, List.mem_cons, List.not_mem_nil, or_false, not_or] at hw'
    obtain ⟨_, _, _, _, _, _, _, _, _, _, w1, w2, w3, w4, w5, w6⟩ := hw'
    rw [Dict.get?_set_ne _ _ (Ne.symm w6), Dict.get?_set_ne _ _ (Ne.symm w5), Dict.get?_set_ne _ _ (Ne.symm w4),
      Dict.get?_set_ne _ _ (Ne.symm w3), Dict.get?_set_ne _ _ (Ne.symm w2), Dict.get?_set_ne _ _ (Ne.symm w1),
      l2 k (hn.fresh k hk), g4 k hw]
  · intro k hk new f c hw hmk hc
    obtain ⟨p, d, hd, hnm⟩ := makes_name hmk
    have hne : ∀ w ∈ workedOut, w ≠ new := by
      intro w hw' e
      rcases hnm with h | h
      · exact (workedOut_fresh hw' p d hd).1 (e.trans h)
      · exact (workedOut_fresh hw' p d hd).2 (e.trans h)
    rw [Dict.get?_set_ne _ _ (hne _ (by decide +kernel)), Dict.get?_set_ne _ _ (hne _ (by decide +kernel)),
      Dict.get?_set_ne _ _ (hne _ (by decide +kernel)), Dict.get?_set_ne _ _ (hne _ (by decide +kernel)),
      Dict.get?_set_ne _ _ (hne _ (by decide +kernel)), Dict.get?_set_ne _ _ (hne _ (by decide +kernel)),
      l3 k ((k4 k).2 (.inl hk)) new f c hmk (by rw [g4 k hw]; exact hc)]
    rfl
  · intro x hx
    by_cases hw : x ∈ workedOut
    · exact .inr (.inl hw)
    · have hw' := hw
      simp only [workedOut, List.mem_cons, List.not_mem_nil, or_false, not_or] at hw'
      obtain ⟨_, _, _, _, _, _, _, _, _, _, w1, w2, w3, w4, w5, w6⟩ := hw'
      rw [Dict.get?_set_ne _ _ (Ne.symm w6), Dict.get?_set_ne _ _ (Ne.symm w5), Dict.get?_set_ne _ _ (Ne.symm w4),
        Dict.get?_set_ne _ _ (Ne.symm w3), Dict.get?_set_ne _ _ (Ne.symm w2), Dict.get?_set_ne _ _ (Ne.symm w1)] at hx
      by_cases hm : ∃ k ∈ Dict.keys D4, ∃ f, Makes l k x f
      · obtain ⟨k, hk, f, hm⟩ := hm
        rcases hsub k hk with h | h
        · exact .inr (.inr ⟨k, h, f, hm⟩)
        · exfalso
          cases hm with
          | force _ _ => exact (hno _ h).1 (force_infix _ _)
          | moment _ _ => exact (hno _ h).2 (moment_infix _ _)
      · rw [l4 x (fun k hk f hmk => hm ⟨k, hk, f, hmk⟩), g4 x hw] at hx
        left
        by_contra hne
        exact hx ((Dict.get?_eq_none_iff D x).2 hne)
  · intro x hx
    rw [Ne, Dict.get?_eq_none_iff, not_not]
    refine (mem_sets x [("dragForce".toList, drag), ("Cd".toList, fun i => div (scale (-1) (drag i)) (nd i)),
      ("liftForce".toList, lift), ("Cl".toList, zip div lift nd), ("normalForce".toList, normal),
      ("CN".toList, zip div normal nd)] E0).2 ?_
    have hx' : x ∈ ["AirVelX(m/s)".toList, "AirVelY(m/s)".toList,
      "AirVelZ(m/s)".toList, "AirVel^2".toList, "AirVelMag".toList, "AirVelUnitX".toList, "AirVelUnitY".toList,
      "AirVelUnitZ".toList, "DynamicP(Pa)".toList, "nonDimConstant".toList] ++ ["dragForce".toList, "Cd".toList,
        "liftForce".toList, "Cl".toList, "normalForce".toList, "CN".toList] := hx
    rcases List.mem_append.1 hx' with h | h
    · left
      rw [← Dict.get?_isSome_iff, ldw hx, Dict.get?_isSome_iff]
      exact (k4 x).2 (.inr h)
    · exact .inr h
  · rw [Dict.get?_set_ne _ _ (by decide +kernel), Dict.get?_set_ne _ _ (by decide +kernel),
      Dict.get?_set_ne _ _ (by decide +kernel), Dict.get?_set_ne _ _ (by decide +kernel), Dict.get?_set_self]
    rfl
  · rw [Dict.get?_set_ne _ _ (by decide +kernel), Dict.get?_set_ne _ _ (by decide +kernel), Dict.get?_set_self]
    rfl
  · rw [Dict.get?_set_self]
    rfl

/-- The columns that the function needs. -/
def needed : List Str :=
  ["VelocityX(m/s)".toList, "VelocityY(m/s)".toList, "VelocityZ(m/s)".toList, "WindX(m/s)".toList, "WindY(m/s)".toList,
   "WindZ(m/s)".toList, "AirDensity(kg/m^3)".toList, "AeroFX(N)".toList, "AeroFY(N)".toList, "AeroFZ(N)".toList]

theorem needed_columns {D : Frame n} (h : ∀ k ∈ needed, k ∈ Dict.keys D) : ∀ k ∈ needed, ∃ c, Dict.get? D k = some c :=
  fun k hk => Option.isSome_iff_exists.1 ((Dict.get?_isSome_iff D k).2 (h k hk))

/-- **C75.** Post-processing a derivative evaluation log: it succeeds, every column keeps its values (except one that is
called like a worked-out quantity), and the only columns added are the worked-out quantities and one coefficient per
component of a force or moment. Missing part: unusual component names, see `NamesOk`. -/
theorem expand_ok_partial {D : Frame n} (hn : NamesOk (Dict.keys D)) (hnew : "AeroCFX(N)".toList ∉ Dict.keys D)
    (hneed : ∀ k ∈ needed, k ∈ Dict.keys D) (A l : ℝ) :
    ∃ E, expand D A l = .ok E ∧
      (∀ k ∈ Dict.keys D, k ∉ workedOut → Dict.get? E k = Dict.get? D k) ∧
      ∀ x, x ∈ Dict.keys E ↔ x ∈ Dict.keys D ∨ x ∈ workedOut ∨
        ∃ p d, '(' ∉ p ∧ (d = 'X' ∨ d = 'Y' ∨ d = 'Z') ∧
          ((x = p ++ ['C', 'F', d] ∧ p ++ 'F' :: d :: "(N)".toList ∈ Dict.keys D) ∨
           (x = p ++ ['C', 'M', d] ∧ p ++ 'M' :: d :: "(Nm)".toList ∈ Dict.keys D)) := by
  have hc := needed_columns hneed
  obtain ⟨vx, h1⟩ := hc "VelocityX(m/s)".toList (by decide +kernel)
  obtain ⟨vy, h2⟩ := hc "VelocityY(m/s)".toList (by decide +kernel)
  obtain ⟨vz, h3⟩ := hc "VelocityZ(m/s)".toList (by decide +kernel)
  obtain ⟨wx, h4⟩ := hc "WindX(m/s)".toList (by decide +kernel)
  obtain ⟨wy, h5⟩ := hc "WindY(m/s)".toList (by decide +kernel)
  obtain ⟨wz, h6⟩ := hc "WindZ(m/s)".toList (by decide +kernel)
  obtain ⟨rho, h7⟩ := hc "AirDensity(kg/m^3)".toList (by decide +kernel)
  obtain ⟨fx, h8⟩ := hc "AeroFX(N)".toList (by decide +kernel)
  obtain ⟨fy, h9⟩ := hc "AeroFY(N)".toList (by decide +kernel)
  obtain ⟨fz, h10⟩ := hc "AeroFZ(N)".toList (by decide +kernel)
  obtain ⟨E, e1, e2, e3, e4, e5, _, _, _⟩ := expand_columns hn hnew A l h1 h2 h3 h4 h5 h6 h7 h8 h9 h10
  have hno : ∀ k ∈ workedOut, ¬ "(N)".toList <:+: k ∧ ¬ "(Nm)".toList <:+: k := by decide +kernel
  have hnn : ∀ x, x ∈ Dict.keys E ↔ Dict.get? E x ≠ none := by
    intro x; rw [Ne, Dict.get?_eq_none_iff, not_not]
  refine ⟨E, e1, e2, fun x => ⟨fun hx => ?_, fun hx => ?_⟩⟩
  · rcases e4 x ((hnn x).1 hx) with h | h | ⟨k, hk, f, hm⟩
    · exact .inl h
    · exact .inr (.inl h)
    · refine .inr (.inr ?_)
      cases hm with
      | @force p d hp hd => exact ⟨p, d, hp, hd, .inl ⟨rfl, hk⟩⟩
      | @moment p d hp hd => exact ⟨p, d, hp, hd, .inr ⟨rfl, hk⟩⟩
  · have made : ∀ k ∈ Dict.keys D, ∀ f, Makes l k x f → x ∈ Dict.keys E := by
      intro k hk f hm
      obtain ⟨c, hc⟩ := Option.isSome_iff_exists.1 ((Dict.get?_isSome_iff D k).2 hk)
      have hw : k ∉ workedOut := by
        intro hw
        cases hm with
        | force _ _ => exact (hno _ hw).1 (force_infix _ _)
        | moment _ _ => exact (hno _ hw).2 (moment_infix _ _)
      rw [hnn, e3 k hk x f c hw hm hc]
      simp
    rcases hx with h | h | ⟨p, d, hp, hd, ⟨rfl, hk⟩ | ⟨rfl, hk⟩⟩
    · by_cases hw : x ∈ workedOut
      · exact (hnn x).2 (e5 x hw)
      · rw [hnn, e2 x h hw, Ne, Dict.get?_eq_none_iff, not_not]
        exact h
    · exact (hnn x).2 (e5 x h)
    · exact made _ hk _ (.force hp hd)
    · exact made _ hk _ (.moment hp hd)

theorem Holds.mem {D : Frame n} {k : Str} {i : Fin n} {x : ℝ} (h : Holds D k i x) : k ∈ Dict.keys D := by
  obtain ⟨c, hc, _⟩ := h
  exact (Dict.get?_isSome_iff D k).1 (by rw [hc]; rfl)

/-- **C75.** The values in a row of the expanded log. `V` is the velocity minus the wind, `q` the dynamic pressure. When
neither the dynamic pressure nor the area is 0: the coefficient of a force is the force over `q A`, that of a moment the
moment over `q A l`; `Cd` is minus the logged force along `V`, `Cl` the logged force across `V`, `CN` the logged force across
the z axis, each over `q A`. Otherwise none of these is a number. Missing part: the logged force is in the rocket's frame and
`V` in the global one, see `drag_frame_violated`. -/
theorem expand_row_partial {D E : Frame n} (hn : NamesOk (Dict.keys D)) {A l : ℝ} (hE : expand D A l = .ok E) {i : Fin n}
    {v w F : V3 ℝ} {ρ : ℝ} (h : RowAt D i v w F ρ) :
    (∀ q, q = 1 / 2 * ρ * V3.dot (v - w) (v - w) → q * A ≠ 0 →
      (∀ p d x, '(' ∉ p → (d = 'X' ∨ d = 'Y' ∨ d = 'Z') → Holds D (p ++ 'F' :: d :: "(N)".toList) i x →
        Holds E (p ++ ['C', 'F', d]) i (x / (q * A))) ∧
      (∀ p d x, '(' ∉ p → (d = 'X' ∨ d = 'Y' ∨ d = 'Z') → Holds D (p ++ 'M' :: d :: "(Nm)".toList) i x →
        (l ≠ 0 → Holds E (p ++ ['C', 'M', d]) i (x / (q * A * l))) ∧ (l = 0 → Blank E (p ++ ['C', 'M', d]) i)) ∧
      Holds E "Cd".toList i (-(V3.dot F (v - w) / (v - w).length) / (q * A)) ∧
      Holds E "Cl".toList i ((V3.cross F (v - w)).length / (v - w).length / (q * A)) ∧
      Holds E "CN".toList i (Real.sqrt (F.x ^ 2 + F.y ^ 2) / (q * A))) ∧
    (1 / 2 * ρ * V3.dot (v - w) (v - w) * A = 0 →
      (∀ p d x, '(' ∉ p → (d = 'X' ∨ d = 'Y' ∨ d = 'Z') → Holds D (p ++ 'F' :: d :: "(N)".toList) i x →
        Blank E (p ++ ['C', 'F', d]) i) ∧
      (∀ p d x, '(' ∉ p → (d = 'X' ∨ d = 'Y' ∨ d = 'Z') → Holds D (p ++ 'M' :: d :: "(Nm)".toList) i x →
        Blank E (p ++ ['C', 'M', d]) i) ∧
      Blank E "Cd".toList i ∧ Blank E "Cl".toList i ∧ Blank E "CN".toList i) := by
  have hnew : "AeroCFX(N)".toList ∉ Dict.keys D := by
    intro hm
    unfold expand at hE
    rw [if_pos ((Dict.has_iff _ _).2 hm)] at hE
    cases hE
  obtain ⟨vx, h1, r1⟩ := h.vx
  obtain ⟨vy, h2, r2⟩ := h.vy
  obtain ⟨vz, h3, r3⟩ := h.vz
  obtain ⟨wx, h4, r4⟩ := h.wx
  obtain ⟨wy, h5, r5⟩ := h.wy
  obtain ⟨wz, h6, r6⟩ := h.wz
  obtain ⟨rho, h7, r7⟩ := h.rho
  obtain ⟨fx, h8, r8⟩ := h.fx
  obtain ⟨fy, h9, r9⟩ := h.fy
  obtain ⟨fz, h10, r10⟩ := h.fz
  obtain ⟨E', e1, _, e3, _, _, e6, e7, e8⟩ := expand_columns hn hnew A l h1 h2 h3 h4 h5 h6 h7 h8 h9 h10
  rw [hE] at e1
  cases e1
  have hno : ∀ k ∈ workedOut, ¬ "(N)".toList <:+: k ∧ ¬ "(Nm)".toList <:+: k := by decide +kernel
  -- the cells of this row
  have hq : qA A vx vy vz wx wy wz rho i = some (1 / 2 * ρ * V3.dot (v - w) (v - w) * A) := by
    simp only [qA, r1, r2, r3, r4, r5, r6, r7, map2, Cell.sq, scale, Option.some.injEq, V3.dot, V3.sub_x, V3.sub_y, V3.sub_z]
    ring
  have hm : airMag vx vy vz wx wy wz i = some (v - w).length := by
    simp only [airMag, r1, r2, r3, r4, r5, r6, map2, Cell.sq, root]
    rw [if_neg (not_lt.2 (by positivity))]
    simp only [V3.length, V3.sub_x, V3.sub_y, V3.sub_z]
    congr 2
    try ring
  have hforce : ∀ p d x, '(' ∉ p → IsDir d → Holds D (p ++ 'F' :: d :: "(N)".toList) i x →
      ∃ c, Dict.get? E (p ++ ['C', 'F', d]) = some c ∧
        c i = div (some x) (some (1 / 2 * ρ * V3.dot (v - w) (v - w) * A)) := by
    intro p d x hp hd hx
    obtain ⟨c, hc, hci⟩ := hx
    refine ⟨_, e3 _ (Holds.mem ⟨c, hc, hci⟩) _ _ c (fun hw => (hno _ hw).1 (force_infix _ _)) (.force hp hd) hc, ?_⟩
    simp only [hci, hq, scale, one_mul]
  have hmoment : ∀ p d x, '(' ∉ p → IsDir d → Holds D (p ++ 'M' :: d :: "(Nm)".toList) i x →
      ∃ c, Dict.get? E (p ++ ['C', 'M', d]) = some c ∧
        c i = div (some x) (some (l * (1 / 2 * ρ * V3.dot (v - w) (v - w) * A))) := by
    intro p d x hp hd hx
    obtain ⟨c, hc, hci⟩ := hx
    refine ⟨_, e3 _ (Holds.mem ⟨c, hc, hci⟩) _ _ c (fun hw => (hno _ hw).2 (moment_infix _ _)) (.moment hp hd) hc, ?_⟩
    simp only [hci, hq, scale]
  constructor
  · rintro q rfl hqA
    have hlen : (v - w).length ≠ 0 := by
      intro h0
      apply hqA
      have := V3.length_sq (v - w)
      rw [h0] at this
      rw [← this]; ring
    have hdrag : alongAir vx vy vz wx wy wz fx fy fz i = some (V3.dot F (v - w) / (v - w).length) := by
      simp only [alongAir, hm, r1, r2, r3, r4, r5, r6, r8, r9, r10, map2, div, if_neg hlen, Option.some.injEq, V3.dot,
        V3.sub_x, V3.sub_y, V3.sub_z]
      ring
    refine ⟨?_, ?_, ?_, ?_, ?_⟩
    · intro p d x hp hd hx
      obtain ⟨c, hc, hci⟩ := hforce p d x hp hd hx
      exact ⟨c, hc, by rw [hci]; simp only [div, if_neg hqA]⟩
    · intro p d x hp hd hx
      obtain ⟨c, hc, hci⟩ := hmoment p d x hp hd hx
      constructor
      · intro hl
        refine ⟨c, hc, ?_⟩
        rw [hci]
        simp only [div, if_neg (mul_ne_zero hl hqA)]
        rw [mul_comm l]
      · intro hl
        refine ⟨c, hc, ?_⟩
        rw [hci, hl, zero_mul]
        simp only [div, if_true]
    · exact ⟨_, e6, by simp only [hdrag, hq, scale, div, if_neg hqA, neg_one_mul]⟩
    · refine ⟨_, e7, ?_⟩
      have hl2 : 0 < (v - w).length := lt_of_le_of_ne (V3.length_nonneg _) (Ne.symm hlen)
      have hlag : F.x ^ 2 + F.y ^ 2 + F.z ^ 2 - (V3.dot F (v - w) / (v - w).length) ^ 2 =
          ((V3.cross F (v - w)).length / (v - w).length) ^ 2 := by
        rw [div_pow, div_pow, pow_two (V3.length _), pow_two (V3.length (V3.cross _ _)), V3.length_sq, V3.length_sq]
        have hV : V3.dot (v - w) (v - w) ≠ 0 := by
          rw [← V3.length_sq]; exact mul_ne_zero hlen hlen
        rw [eq_div_iff hV, sub_mul, div_mul_cancel₀ _ hV]
        generalize v - w = V
        simp only [V3.dot, V3.cross]
        ring
      simp only [hdrag, hq, r8, r9, r10, map2, Cell.sq]
      rw [hlag]
      simp only [root, if_neg (not_lt.2 (sq_nonneg ((V3.cross F (v - w)).length / (v - w).length))), div, if_neg hqA]
      rw [Real.sqrt_sq (div_nonneg (V3.length_nonneg _) hl2.le)]
    · refine ⟨_, e8, ?_⟩
      simp only [hq, r8, r9, map2, Cell.sq, root, if_neg (not_lt.2 (add_nonneg (sq_nonneg F.x) (sq_nonneg F.y))), div, if_neg hqA]
  · intro hqA
    have blank : ∀ a : Option ℝ, div a (some (1 / 2 * ρ * V3.dot (v - w) (v - w) * A)) = none := by
      intro a
      rw [hqA]
      cases a <;> simp [div]
    refine ⟨?_, ?_, ?_, ?_, ?_⟩
    · intro p d x hp hd hx
      obtain ⟨c, hc, hci⟩ := hforce p d x hp hd hx
      exact ⟨c, hc, by rw [hci, blank]⟩
    · intro p d x hp hd hx
      obtain ⟨c, hc, hci⟩ := hmoment p d x hp hd hx
      refine ⟨c, hc, ?_⟩
      rw [hci, hqA, mul_zero]
      simp [div]
    · exact ⟨_, e6, by simp only [hq, blank]⟩
    · exact ⟨_, e7, by simp only [hq, blank]⟩
    · exact ⟨_, e8, by simp only [hq, blank]⟩

/-- **C75, violated.** The log gives the forces in the rocket's frame (rocket.py:607) and the velocity in the global frame.
A rocket that flies along its own axis with an axial force `a` against it has drag coefficient `a / (q A)`, whatever its
orientation `o`; the column `Cd` has this times the vertical component of its axis, thus 0 for one that flies horizontally. -/
theorem drag_frame_violated {D E : Frame n} (hn : NamesOk (Dict.keys D)) {A l : ℝ} (hE : expand D A l = .ok E) {i : Fin n}
    {v w : V3 ℝ} {ρ a s : ℝ} (o : Quat ℝ) (hs : 0 < s) (ho : o.nsq = 1) (hair : v - w = s • o.rotF ⟨0, 0, 1⟩)
    (h : RowAt D i v w ⟨0, 0, -a⟩ ρ) (hk : 1 / 2 * ρ * s ^ 2 * A ≠ 0) :
    -(V3.dot (o.rotF ⟨0, 0, -a⟩) (v - w) / (v - w).length) / (1 / 2 * ρ * s ^ 2 * A) = a / (1 / 2 * ρ * s ^ 2 * A) ∧
    Holds E "Cd".toList i (a / (1 / 2 * ρ * s ^ 2 * A) * (o.rotF ⟨0, 0, 1⟩).z) := by
  have hone := ENV.unit_ne ho
  have hax : V3.dot (o.rotF ⟨0, 0, 1⟩) (o.rotF ⟨0, 0, 1⟩) = 1 := by
    rw [ENV.rotF_dot hone]; simp [V3.dot]
  have hd : V3.dot (v - w) (v - w) = s ^ 2 := by
    rw [hair]
    simp only [V3.dot, V3.smul_x, V3.smul_y, V3.smul_z] at hax ⊢
    linear_combination s ^ 2 * hax
  have hlen : (v - w).length = s := by
    have h1 := V3.length_sq (v - w)
    rw [hd, ← pow_two] at h1
    exact (pow_left_inj₀ (V3.length_nonneg _) hs.le two_ne_zero).1 h1
  have hrow := (expand_row_partial hn hE h).1 (1 / 2 * ρ * s ^ 2) (by rw [hd]) hk
  have hs' : s ≠ 0 := hs.ne'
  constructor
  · have hb : o.rotF ⟨0, 0, -a⟩ = (-a) • o.rotF ⟨0, 0, 1⟩ := by
      rw [← ENV.rotF_smul]
      congr 1
      apply V3.ext' <;> simp
    have : V3.dot (o.rotF ⟨0, 0, -a⟩) (v - w) = -a * s := by
      rw [hb, hair]
      simp only [V3.dot, V3.smul_x, V3.smul_y, V3.smul_z] at hax ⊢
      linear_combination -a * s * hax
    rw [this, hlen, mul_div_assoc, div_self hs', mul_one, neg_neg]
  · obtain ⟨c, hc, hci⟩ := hrow.2.2.1
    refine ⟨c, hc, ?_⟩
    rw [hci, hlen, hair]
    have : V3.dot (⟨0, 0, -a⟩ : V3 ℝ) (s • o.rotF ⟨0, 0, 1⟩) / s = -(a * (o.rotF ⟨0, 0, 1⟩).z) := by
      simp only [V3.dot, V3.smul_x, V3.smul_y, V3.smul_z]
      field_simp
      ring
    rw [this, neg_neg, mul_div_right_comm]

/-- **C75, violated.** The function is meant to leave a log alone that already has the new columns (Logging.py:218-219), and
to drop the intermediate columns (253-260). Its own result does not have the column that it looks for, and does have the
intermediate ones. -/
theorem expand_leftovers_violated {D E : Frame n} (hn : NamesOk (Dict.keys D)) (hneed : ∀ k ∈ needed, k ∈ Dict.keys D)
    {A l : ℝ} (hE : expand D A l = .ok E) :
    "AeroCFX(N)".toList ∉ Dict.keys E ∧ "AeroCFX".toList ∈ Dict.keys E ∧
    ∀ k ∈ workedOut, k ∈ Dict.keys E := by
  have hnew : "AeroCFX(N)".toList ∉ Dict.keys D := by
    intro hm
    unfold expand at hE
    rw [if_pos ((Dict.has_iff _ _).2 hm)] at hE
    cases hE
  obtain ⟨E', e1, _, e3⟩ := expand_ok_partial hn hnew hneed A l
  rw [hE] at e1
  cases e1
  refine ⟨?_, ?_, fun k hk => (e3 k).2 (.inr (.inl hk))⟩
  · intro hm
    rcases (e3 _).1 hm with h | h | ⟨p, d, _, hd, ⟨hx, _⟩ | ⟨hx, _⟩⟩
    · exact hnew h
    · exact absurd h (by decide +kernel)
    all_goals
      have := congrArg List.getLast? hx
      rw [List.getLast?_append] at this
      have h2 : ("AeroCFX(N)".toList).getLast? = some ')' := by decide +kernel
      rw [h2] at this
      rcases hd with rfl | rfl | rfl <;> simp at this
  · refine (e3 _).2 (.inr (.inr ⟨"Aero".toList, 'X', by decide +kernel, .inl rfl, .inl ⟨by decide +kernel, ?_⟩⟩))
    exact hneed _ (by decide +kernel)

/-- A log that does have it is refused. -/
theorem expand_refused {D : Frame n} (A l : ℝ) (hm : "AeroCFX(N)".toList ∈ Dict.keys D) :
    expand D A l = .error .valueError := by
  unfold expand
  rw [if_pos ((Dict.has_iff _ _).2 hm)]

theorem Frame.col_missing {D : Frame n} {k : Str} (h : k ∉ Dict.keys D) : Frame.col D k = .error .keyError := by
  unfold Frame.col
  rw [(Dict.get?_eq_none_iff D k).2 h]

/-- A log without the speed along x is refused with a `KeyError`. -/
theorem expand_without_speed {D : Frame n} (A l : ℝ) (hnew : "AeroCFX(N)".toList ∉ Dict.keys D)
    (h : "VelocityX(m/s)".toList ∉ Dict.keys D ∨ "WindX(m/s)".toList ∉ Dict.keys D) :
    expand D A l = .error .keyError := by
  have : airVel D 'X' = .error .keyError := by
    unfold airVel
    by_cases hv : "VelocityX(m/s)".toList ∈ Dict.keys D
    · have hw := h.resolve_left (not_not.2 hv)
      obtain ⟨c, hc⟩ := Option.isSome_iff_exists.1 ((Dict.get?_isSome_iff D _).2 hv)
      have e : Frame.col D ("Velocity".toList ++ 'X' :: "(m/s)".toList) = .ok c := by
        show Frame.col D "VelocityX(m/s)".toList = _
        unfold Frame.col; rw [hc]
      have e2 : Frame.col D ("Wind".toList ++ 'X' :: "(m/s)".toList) = .error .keyError := Frame.col_missing hw
      rw [e, e2]; rfl
    · have e : Frame.col D ("Velocity".toList ++ 'X' :: "(m/s)".toList) = .error .keyError := Frame.col_missing hv
      rw [e]; rfl
  unfold expand
  rw [if_neg (fun h => hnew ((Dict.has_iff _ _).1 h)), this]
  rfl

/-- **C75.** The expanded log goes beside the original one. Missing part: a path with `.csv` elsewhere. -/
theorem expandedPath_partial (p : Str) (hp : ¬ ".csv".toList <:+: p) :
    expandedPath (p ++ ".csv".toList) = p ++ "_expanded.csv".toList := by
  unfold expandedPath
  refine replace_tail (by decide +kernel) _ p (fun s hs hne hpre => hp ?_)
  have ht : ".csv".toList = ['.', 'c', 's', 'v'] := by decide +kernel
  rw [ht] at hpre ⊢
  refine List.IsInfix.trans ?_ hs.isInfix
  match s, hne, hpre with
  | [a], _, h => simp [List.cons_prefix_cons] at h
  | [a, b], _, h => simp [List.cons_prefix_cons] at h
  | [a, b, c], _, h => simp [List.cons_prefix_cons] at h
  | a :: b :: c :: d :: r, _, h =>
    simp only [List.cons_append, List.cons_prefix_cons] at h
    obtain ⟨rfl, rfl, rfl, rfl, _⟩ := h
    exact ⟨[], r, rfl⟩

example : ¬ ".csv".toList <:+: "./cases/run1_forces".toList := by decide +kernel

/-- **C75, violated.** A directory whose name has `.csv` in it changes too. -/
theorem expandedPath_violated : expandedPath "/data/old.csv.d/forces.csv".toList =
    "/data/old_expanded.csv.d/forces_expanded.csv".toList := by decide +kernel

/-! ## An example log -/

/-- One row: a rocket that flies horizontally at 10 m/s, with an axial force of 3 N and a moment on the nose cone. -/
noncomputable def sampleForces : Frame 1 :=
  [("Time(s)".toList, fun _ => some 0), ("VelocityX(m/s)".toList, fun _ => some 10),
   ("VelocityY(m/s)".toList, fun _ => some 0), ("VelocityZ(m/s)".toList, fun _ => some 0),
   ("WindX(m/s)".toList, fun _ => some 0), ("WindY(m/s)".toList, fun _ => some 0), ("WindZ(m/s)".toList, fun _ => some 0),
   ("AirDensity(kg/m^3)".toList, fun _ => some 1), ("AeroFX(N)".toList, fun _ => some 0),
   ("AeroFY(N)".toList, fun _ => some 0), ("AeroFZ(N)".toList, fun _ => some (-3)),
   ("NoseMX(Nm)".toList, fun _ => some 7)]

/-- its columns -/
def sampleNames : List Str :=
  ["Time(s)".toList, "VelocityX(m/s)".toList, "VelocityY(m/s)".toList, "VelocityZ(m/s)".toList, "WindX(m/s)".toList,
   "WindY(m/s)".toList, "WindZ(m/s)".toList, "AirDensity(kg/m^3)".toList, "AeroFX(N)".toList, "AeroFY(N)".toList,
   "AeroFZ(N)".toList, "NoseMX(Nm)".toList]

theorem sampleForces_names : NamesOk (Dict.keys sampleForces) := by
  have hk : Dict.keys sampleForces = sampleNames := rfl
  rw [hk]
  have hf : ∀ k ∈ sampleNames, "(N)".toList <:+: k → k = "AeroFX(N)".toList ∨ k = "AeroFY(N)".toList ∨
      k = "AeroFZ(N)".toList := by decide +kernel
  have hm : ∀ k ∈ sampleNames, "(Nm)".toList <:+: k → k = "NoseMX(Nm)".toList := by decide +kernel
  have hl : ∀ k ∈ sampleNames, k.getLast? = some ')' := by decide +kernel
  refine ⟨fun k hk h => ?_, fun k hk h => ?_, fun k hk p d hd => ?_⟩
  · rcases hf k hk h with rfl | rfl | rfl
    · exact ⟨"Aero".toList, 'X', by decide +kernel, .inl rfl, by decide +kernel⟩
    · exact ⟨"Aero".toList, 'Y', by decide +kernel, .inr (.inl rfl), by decide +kernel⟩
    · exact ⟨"Aero".toList, 'Z', by decide +kernel, .inr (.inr rfl), by decide +kernel⟩
  · cases hm k hk h
    exact ⟨"Nose".toList, 'X', by decide +kernel, .inl rfl, by decide +kernel⟩
  · have := hl k hk
    constructor <;>
    · rintro rfl
      rw [List.getLast?_append] at this
      rcases hd with rfl | rfl | rfl <;> simp at this

theorem sampleForces_row : RowAt sampleForces 0 ⟨10, 0, 0⟩ ⟨0, 0, 0⟩ ⟨0, 0, -3⟩ 1 := by
  constructor <;> exact ⟨_, rfl, rfl⟩

theorem sampleForces_needed : ∀ k ∈ needed, k ∈ Dict.keys sampleForces := by
  show ∀ k ∈ needed, k ∈ sampleNames
  decide +kernel

/-- All that is assumed above holds for this log, which shows the coefficient 0 for a drag of 3 N. -/
example : ∃ E, expand sampleForces 2 1 = .ok E ∧ Holds E "Cd".toList 0 0 ∧ Holds E "Cl".toList 0 (3 / 100) ∧
    Holds E "NoseCMX".toList 0 (7 / 100) := by
  have hnew : "AeroCFX(N)".toList ∉ Dict.keys sampleForces := by
    show _ ∉ sampleNames
    decide +kernel
  obtain ⟨E, hE, _⟩ := expand_ok_partial sampleForces_names hnew sampleForces_needed 2 1
  have h := (expand_row_partial sampleForces_names hE sampleForces_row).1 50 (by simp [V3.dot]; norm_num) (by norm_num)
  refine ⟨E, hE, ?_, ?_, ?_⟩
  · have := h.2.2.1
    simpa [V3.dot] using this
  · have h1 := h.2.2.2.1
    have e1 : (V3.cross (⟨0, 0, -3⟩ : V3 ℝ) (⟨10, 0, 0⟩ - ⟨0, 0, 0⟩)).length = 30 := by
      simp only [V3.length, V3.cross, V3.sub_x, V3.sub_y, V3.sub_z]
      rw [show (30 : ℝ) = Real.sqrt (30 ^ 2) by rw [Real.sqrt_sq (by norm_num)]]
      congr 1; norm_num
    have e2 : ((⟨10, 0, 0⟩ : V3 ℝ) - ⟨0, 0, 0⟩).length = 10 := by
      simp only [V3.length, V3.sub_x, V3.sub_y, V3.sub_z]
      rw [show (10 : ℝ) = Real.sqrt (10 ^ 2) by rw [Real.sqrt_sq (by norm_num)]]
      congr 1; norm_num
    rw [e1, e2] at h1
    norm_num at h1
    exact h1
  · have h1 := (h.2.1 "Nose".toList 'X' 7 (by decide +kernel) (.inl rfl) ⟨_, rfl, rfl⟩).1 one_ne_zero
    norm_num at h1
    exact h1

/-- The hypotheses of `drag_frame_violated`, for a quarter turn about the y axis. -/
example : ∃ (o : Quat ℝ) (s : ℝ), 0 < s ∧ o.nsq = 1 ∧
    (⟨10, 0, 0⟩ : V3 ℝ) - ⟨0, 0, 0⟩ = s • o.rotF ⟨0, 0, 1⟩ ∧ 1 / 2 * (1 : ℝ) * s ^ 2 * 2 ≠ 0 := by
  have h2 : Real.sqrt (1 / 2) * Real.sqrt (1 / 2) = 1 / 2 := Real.mul_self_sqrt (by norm_num)
  refine ⟨⟨Real.sqrt (1 / 2), 0, Real.sqrt (1 / 2), 0⟩, 10, by norm_num, ?_, ?_, by norm_num⟩
  · unfold Quat.nsq; simp only; linarith
  · unfold Quat.rotF
    have hn : (⟨Real.sqrt (1 / 2), 0, Real.sqrt (1 / 2), 0⟩ : Quat ℝ).nsq = 1 := by unfold Quat.nsq; simp only; linarith
    rw [hn]
    generalize Real.sqrt (1 / 2) = r at h2
    apply V3.ext' <;> simp [Quat.sandwich, Quat.mul, Quat.conj]
    · linarith

end Mapleaf.LogM
